import Verif.Proofs.SearchCalls
import Verif.Properties.TspLoops
import Mathlib.Tactic.IntervalCases

/-! # C77: the number of calls of the loop search -/

namespace Verif.Properties
open Verif Spec Model

/-- C77, the counter.  The search with a counter of calls returns the result of the search. -/
theorem C77_same_result (g : Graph) (start fuel cur : ℕ) (visited path : List ℕ) :
    (findLoopCalls g start fuel cur visited path).map Prod.fst = findLoop g start fuel cur visited path :=
  Proofs.findLoopCalls_fst g start fuel cur visited path

theorem findLoopCalls_edge {sel : List (ℕ × ℕ)} {s e : ℕ} (h : Joined sel s e) :
    ∃ p c, (∀ fuel, sel.length ≤ fuel → findLoopCalls (buildGraph sel) s fuel e [] [] = some (p, c)) ∧
      (p = [] ↔ ¬ Relation.ReflTransGen (Joined sel) e s) := by
  obtain ⟨p, h1, h2, -⟩ := C15_search_terminates h
  have h3 := C77_same_result (buildGraph sel) s sel.length e [] []
  rw [h1 _ le_rfl] at h3
  obtain ⟨⟨q, c⟩, h4, h5⟩ := Option.map_eq_some_iff.mp h3
  simp only at h5
  subst h5
  exact ⟨q, c, fun fuel hf => Proofs.findLoopCalls_mono hf h4, h2⟩

/-- C77, few successors.  If no node has more than `d` selected outgoing edges, the search from a selected edge makes at most
`1 + d + … + d ^ (m - 1)` calls, where `m` is the number of selected edges.  With at most one successor each there are at most `m` calls. -/
theorem C77_bound_partial {sel : List (ℕ × ℕ)} {s e d : ℕ} (h : Joined sel s e) (hd : ∀ u, (sel.filter (fun c => c.1 = u)).length ≤ d) :
    ∃ p c, (∀ fuel, sel.length ≤ fuel → findLoopCalls (buildGraph sel) s fuel e [] [] = some (p, c)) ∧
      c ≤ ∑ i ∈ Finset.range sel.length, d ^ i ∧ (d = 1 → c ≤ sel.length) := by
  obtain ⟨p, c, h1, -⟩ := findLoopCalls_edge h
  have hc := Proofs.findLoopCalls_le (g := buildGraph sel) (start := s) (d := d) (fun u l hl => by
    rw [Proofs.lookup_buildGraph] at hl
    simp only at hl
    split at hl
    · cases hl
    · simp only [Option.some.injEq] at hl
      rw [← hl, List.length_map]; exact hd u) sel.length (h1 _ le_rfl)
  refine ⟨p, c, h1, hc, ?_⟩
  rintro rfl
  simpa using hc

/-- C77, failed searches.  If no walk leads back from `e` to `s`, the search from the selected edge `(s, e)` makes exactly one call for every walk
from `e` along selected edges without repeated nodes. -/
theorem C77_failed_search {sel : List (ℕ × ℕ)} (hnd : sel.Nodup) {s e : ℕ} (h : Joined sel s e) (hno : ¬ Relation.ReflTransGen (Joined sel) e s) :
    ∃ c, (∀ fuel, sel.length ≤ fuel → findLoopCalls (buildGraph sel) s fuel e [] [] = some ([], c)) ∧
      c = {q : List ℕ | q.head? = some e ∧ q.IsChain (Joined sel) ∧ q.Nodup}.ncard := by
  obtain ⟨p, c, h1, h2⟩ := findLoopCalls_edge h
  obtain rfl := h2.mpr hno
  exact ⟨c, h1, Proofs.failed_calls hnd h le_rfl (h1 _ le_rfl)⟩

/-- Layers of two nodes: `2 i` and `2 i + 1` are layer `i`, for `i` from 0 to `L`.  Every node of a layer leads to both nodes of the next one, and
one more node leads to node 0. -/
def layers (L : ℕ) : List (ℕ × ℕ) :=
  (2 * L + 2, 0) :: (List.range (2 * L)).flatMap (fun v => [(v, 2 * (v / 2) + 2), (v, 2 * (v / 2) + 3)])

theorem layers_length (L : ℕ) : (layers L).length = 4 * L + 1 := by
  simp [layers, List.length_flatMap]; omega

theorem mem_layers {L u v : ℕ} : (u, v) ∈ layers L ↔ (u = 2 * L + 2 ∧ v = 0) ∨ (u < 2 * L ∧ v / 2 = u / 2 + 1) := by
  simp only [layers, List.mem_cons, List.mem_flatMap, List.mem_range, Prod.mk.injEq, List.not_mem_nil, or_false]
  constructor
  · rintro (h | ⟨w, hw, ⟨rfl, rfl⟩ | ⟨rfl, rfl⟩⟩)
    · exact Or.inl h
    · exact Or.inr ⟨hw, by omega⟩
    · exact Or.inr ⟨hw, by omega⟩
  · rintro (h | ⟨h1, h2⟩)
    · exact Or.inl h
    · exact Or.inr ⟨u, h1, by omega⟩

theorem layers_nodup (L : ℕ) : (layers L).Nodup := by
  rw [layers, List.nodup_cons]
  constructor
  · simp only [List.mem_flatMap, List.mem_range, not_exists]
    rintro v ⟨hv, h⟩
    simp at h
  · rw [List.nodup_flatMap]
    refine ⟨fun v _ => by simp, List.nodup_range.imp fun {a b} hab x hx hy => ?_⟩
    simp only [List.mem_cons, List.not_mem_nil, or_false] at hx hy
    rcases hx with rfl | rfl <;> simp at hy <;> omega

theorem layers_out {L u : ℕ} (hu : u < 2 * L) : ((layers L).filter (fun c => c.1 = u)).length = 2 := by
  have hp : ((layers L).filter (fun c => c.1 = u)).Perm [(u, 2 * (u / 2) + 2), (u, 2 * (u / 2) + 3)] := by
    refine (List.perm_ext_iff_of_nodup ((layers_nodup L).filter _) (by simp)).mpr ?_
    rintro ⟨a, b⟩
    rw [List.mem_filter, mem_layers]
    simp only [List.mem_cons, Prod.mk.injEq, List.not_mem_nil, or_false, decide_eq_true_eq]
    omega
  simpa using hp.length_eq

/-- C77, exponential run time.  On `4 L + 1` selected edges, in every order, the search from one selected edge makes `2 ^ (L + 1) - 1` calls. -/
theorem C77_exponential {L : ℕ} {sel : List (ℕ × ℕ)} (hp : sel.Perm (layers L)) :
    sel.length = 4 * L + 1 ∧ ∀ fuel, sel.length ≤ fuel → findLoopCalls (buildGraph sel) (2 * L + 2) fuel 0 [] [] = some ([], 2 ^ (L + 1) - 1) := by
  have hlen := hp.length_eq.trans (layers_length L)
  refine ⟨hlen, fun fuel hf => Proofs.layers_calls (L := L) (by omega) (fun u hu => ?_) (fun u hu => ?_) L 0 fuel [] [] (by omega) (by omega) (by simp)⟩
  · have hl : ((sel.filter (fun c => c.1 = u)).map Prod.snd).length = 2 := by
      rw [List.length_map, (hp.filter _).length_eq, layers_out (by omega)]
    refine ⟨(sel.filter (fun c => c.1 = u)).map Prod.snd, ?_, hl, ?_⟩
    · rw [Proofs.lookup_buildGraph]
      simp only
      rw [if_neg (by intro h; rw [h] at hl; cases hl)]
    · intro v hv
      obtain ⟨⟨a, b⟩, hc, rfl⟩ := List.mem_map.mp hv
      obtain ⟨h1, h2⟩ := List.mem_filter.mp hc
      have h2 : a = u := by simpa using h2
      subst h2
      rcases mem_layers.mp (hp.mem_iff.mp h1) with ⟨h3, -⟩ | ⟨-, h3⟩
      · omega
      · exact h3
  · rw [Proofs.lookup_buildGraph]
    simp only
    rw [if_pos]
    rw [List.map_eq_nil_iff, List.filter_eq_nil_iff]
    rintro ⟨a, b⟩ hm
    have := mem_layers.mp (hp.mem_iff.mp hm)
    simp only [decide_eq_true_eq]
    omega

/-- The full claim of C77: the number of calls is bounded by a polynomial in the number of selected edges. -/
def C77_claim : Prop := ∃ a k : ℕ, ∀ (sel : List (ℕ × ℕ)) (s e c : ℕ) (p : List ℕ), sel.Nodup → Joined sel s e →
  findLoopCalls (buildGraph sel) s sel.length e [] [] = some (p, c) → c ≤ a * sel.length ^ k + a

theorem C77_claim_false : ¬ C77_claim := by
  rintro ⟨a, k, h⟩
  obtain ⟨L, hL⟩ := Proofs.exists_pow_gt a k
  obtain ⟨h1, h2⟩ := C77_exponential (List.Perm.refl (layers L))
  have := h (layers L) (2 * L + 2) 0 _ _ (layers_nodup L) (mem_layers.mpr (Or.inl ⟨rfl, rfl⟩)) (h2 _ le_rfl)
  rw [h1] at this
  omega

/-- With ten layers there are 41 selected edges and 2047 calls. -/
example : ∀ fuel, 41 ≤ fuel → findLoopCalls (buildGraph (layers 10)) 22 fuel 0 [] [] = some ([], 2047) :=
  (C77_exponential (List.Perm.refl (layers 10))).2

/-- The search of C15 that has to turn back: five calls for six edges. -/
example : findLoopCalls (buildGraph c15Sel) 3 6 1 [] [] = some ([1, 0, 4, 3], 5) := by decide

/-- One successor each, so at most five calls. -/
example : ∃ p c, (∀ fuel, 5 ≤ fuel → findLoopCalls (buildGraph [(3, 1), (1, 0), (0, 4), (4, 3), (2, 0)]) 3 fuel 1 [] [] = some (p, c)) ∧
    c ≤ ∑ i ∈ Finset.range 5, 1 ^ i ∧ (1 = 1 → c ≤ 5) :=
  C77_bound_partial (sel := [(3, 1), (1, 0), (0, 4), (4, 3), (2, 0)]) (by simp [Joined]) (d := 1) (fun u => by
    by_cases h : u < 5
    · interval_cases u <;> decide
    · rw [List.filter_eq_nil_iff.mpr (by simp; omega)]; simp)

/-- A failed search: three walks from 0 in `(3, 0), (0, 1), (0, 2)`. -/
example : ∃ c, (∀ fuel, 3 ≤ fuel → findLoopCalls (buildGraph [(3, 0), (0, 1), (0, 2)]) 3 fuel 0 [] [] = some ([], c)) ∧
    c = {q : List ℕ | q.head? = some 0 ∧ q.IsChain (Joined [(3, 0), (0, 1), (0, 2)]) ∧ q.Nodup}.ncard ∧ c = 3 := by
  obtain ⟨c, h1, h2⟩ := C77_failed_search (sel := [(3, 0), (0, 1), (0, 2)]) (by decide) (s := 3) (e := 0) (by simp [Joined]) (fun h => by
    have : ∀ v, Relation.ReflTransGen (Joined [(3, 0), (0, 1), (0, 2)]) 0 v → v < 3 := by
      intro v hv
      induction hv with
      | refl => omega
      | tail _ h _ => simp [Joined] at h; omega
    exact absurd (this 3 h) (by omega))
  refine ⟨c, h1, h2, ?_⟩
  have h3 : findLoopCalls (buildGraph [(3, 0), (0, 1), (0, 2)]) 3 3 0 [] [] = some ([], 3) := by decide
  have h4 := h1 3 le_rfl
  rw [h3] at h4
  simpa using h4.symm

end Verif.Properties
