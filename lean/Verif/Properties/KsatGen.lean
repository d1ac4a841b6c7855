import Verif.Proofs.KsatGen
import Verif.Properties.KsatIO

/-!
C29: the random formula generator of the k-SAT solver.

Trusted base: Lean kernel; axioms propext, Classical.choice, Quot.sound.
-/

namespace Verif.Properties
open Verif Num Spec Model

section
variable {n m k : ℕ} {order : List ℕ → List ℕ} {sol : List Bool} {first : ℕ → ℕ} {pick : ℕ → ℕ → ℕ} {sign : ℕ → ℕ → Bool}

/-- C29.  For every outcome of every random draw (`first` among `n` variables, `pick c j` among the `n - 1 - j` variables not yet in
the clause) the generator succeeds, and: the planted assignment violates no clause; every clause has `k` literals with
distinct variables below `n` and signs ±1; no two clauses use the same set of variables; the variable side lists exactly the
occurrences in the clauses, with their signs, each clause once; the used variables are exactly the variables of the
formula, each once; there are at most `m` clauses, and at least one if `m` is positive. -/
theorem C29_generated (hk : 1 ≤ k) (hsol : sol.length = n) (hf : ∀ c < m, first c < n) (hp : ∀ c < m, ∀ j < k - 1, pick c j < n - 1 - j)
    (ho : ∀ l, (order l).Perm l) :
    ∃ t, generate n m k order sol first pick sign = some t ∧
      violated t.clauses (asgn sol) = [] ∧
      (∀ cl ∈ t.clauses, cl.length = k ∧ (cl.map Prod.fst).Nodup ∧ ∀ l ∈ cl, l.1 < n ∧ (l.2 = 1 ∨ l.2 = -1)) ∧
      t.clauses.Pairwise (fun a b => ¬ ∀ v, v ∈ a.map Prod.fst ↔ v ∈ b.map Prod.fst) ∧
      FormulaTables n t.clauses t.used t.conns ∧ t.conns.length = n ∧ (∀ v, ((t.conns.getD v []).map Prod.fst).Nodup) ∧
      t.used.Nodup ∧ (∀ v, v ∈ t.used ↔ ∃ cl ∈ t.clauses, v ∈ cl.map Prod.fst) ∧
      t.clauses.length ≤ m ∧ (m ≠ 0 → t.clauses ≠ []) := by
  obtain ⟨st, h1, acc, h2, h3, h4, h5⟩ := Proofs.generate_spec (order := order) (sign := sign) hk hsol hf hp
  have hu : ∀ v, v ∈ order st.used.dedup ↔ ∃ cl ∈ acc, v ∈ cl.map Prod.fst := by
    intro v; rw [(ho _).mem_iff, List.mem_dedup, h2.used]
  rw [h5] at h1
  refine ⟨_, h1, ?_, fun cl hcl => ?_, h2.distinct, ⟨h2.mem, fun cl hcl l hl => ?_, fun v hv => ?_⟩, h2.len, h2.nodup,
    (ho _).nodup_iff.mpr (List.nodup_dedup _), hu, h3, h4⟩
  · show List.filter _ (List.range acc.length) = []
    rw [List.filter_eq_nil_iff]
    intro c hc hall
    have hc : c < acc.length := List.mem_range.mp hc
    obtain ⟨l, hl, ht⟩ := (h2.ok _ (List.getElem_mem hc)).sat
    have hall := of_decide_eq_true hall
    rw [List.getD_eq_getElem?_getD, List.getElem?_eq_getElem hc] at hall
    exact hall l hl ht
  · have := h2.ok cl hcl
    exact ⟨this.len, this.nodup, fun l hl => ⟨this.lt l hl, this.sign l hl⟩⟩
  · exact (hu _).mpr ⟨cl, hcl, List.mem_map.mpr ⟨l, hl, rfl⟩⟩
  · obtain ⟨cl, hcl, hvm⟩ := (hu v).mp hv
    obtain ⟨l, hl, rfl⟩ := List.mem_map.mp hvm
    exact (h2.ok cl hcl).lt l hl

/-- C29, link to the solver: what the generator returns meets the conditions under which the solver is proved right (C24): the
tables passed to it are the rectangular tables of the variables and signs of the clauses, with distinct variables per
clause and signs ±1, and the variable side is consistent with them. -/
theorem C29_solver_ready (hk : 1 ≤ k) (hsol : sol.length = n) (hf : ∀ c < m, first c < n)
    (hp : ∀ c < m, ∀ j < k - 1, pick c j < n - 1 - j) (ho : ∀ l, (order l).Perm l) :
    ∃ t C cx ty, generate n m k order sol first pick sign = some t ∧
      t.clauses.map (List.map Prod.fst) = table C k cx ∧ t.clauses.map (List.map Prod.snd) = table C k ty ∧
      (∀ c < C, ∀ s < k, cx c s < n) ∧ (∀ c < C, ∀ s < k, ∀ s' < k, cx c s = cx c s' → s = s') ∧
      (∀ c < C, ∀ s < k, ty c s = 1 ∨ ty c s = -1) ∧
      ConnectionsOk C k n ⟨C, k, cx⟩ t.used (t.conns.map (List.map Prod.fst)) := by
  obtain ⟨t, h0, -, h2, -, h4, h5, h6, -, h8, -⟩ := C29_generated (sign := sign) hk hsol hf hp ho
  have hcl : ∀ {c}, c < t.clauses.length → t.clauses.getD c [] ∈ t.clauses := by
    intro c hc
    rw [List.getD_eq_getElem?_getD, List.getElem?_eq_getElem hc]; exact List.getElem_mem hc
  have hlit : ∀ {c s}, c < t.clauses.length → s < k → (t.clauses.getD c []).getD s (0, 0) ∈ t.clauses.getD c [] := by
    intro c s hc hs
    have hs' : s < (t.clauses.getD c []).length := by rw [(h2 _ (hcl hc)).1]; exact hs
    rw [List.getD_eq_getElem?_getD (l := t.clauses.getD c []), List.getElem?_eq_getElem hs']; exact List.getElem_mem hs'
  have hvars : ∀ {c v}, c < t.clauses.length →
      (v ∈ clauseVars k (fun s => ((t.clauses.getD c []).getD s (0, 0)).1) ↔ v ∈ (t.clauses.getD c []).map Prod.fst) := by
    intro c v hc
    simp only [clauseVars, Finset.mem_image, Finset.mem_range, List.mem_map]
    constructor
    · rintro ⟨s, hs, rfl⟩; exact ⟨_, hlit hc hs, rfl⟩
    · rintro ⟨l, hl, rfl⟩
      obtain ⟨s, hs, e⟩ := List.getElem_of_mem hl
      refine ⟨s, by rw [(h2 _ (hcl hc)).1] at hs; exact hs, ?_⟩
      rw [List.getD_eq_getElem?_getD (l := t.clauses.getD c []), List.getElem?_eq_getElem hs, e]; rfl
  have htab : ∀ {α : Type} (f : ℕ × ℤ → α), t.clauses.map (List.map f) =
      table t.clauses.length k (fun c s => f ((t.clauses.getD c []).getD s (0, 0))) := by
    intro α f
    refine List.ext_getElem (by simp [table]) fun c h1 h3 => ?_
    have hc : c < t.clauses.length := by simpa using h1
    simp only [table, List.getElem_map, List.getElem_range]
    have hlen : t.clauses[c].length = k := (h2 _ (List.getElem_mem hc)).1
    refine List.ext_getElem (by simp [hlen]) fun s h1 h3 => ?_
    have hs : s < t.clauses[c].length := by simpa using h1
    simp [List.getD_eq_getElem?_getD, hc, hs]
  refine ⟨t, t.clauses.length, fun c s => ((t.clauses.getD c []).getD s (0, 0)).1, fun c s => ((t.clauses.getD c []).getD s (0, 0)).2,
    h0, htab Prod.fst, htab Prod.snd, fun c hc s hs => ?_, fun c hc s hs s' hs' e => ?_, fun c hc s hs => ?_, ?_⟩
  · exact ((h2 _ (hcl hc)).2.2 _ (hlit hc hs)).1
  · obtain ⟨a1, a2, -⟩ := h2 _ (hcl hc)
    have b : s < ((t.clauses.getD c []).map Prod.fst).length := by rw [List.length_map, a1]; exact hs
    have b' : s' < ((t.clauses.getD c []).map Prod.fst).length := by rw [List.length_map, a1]; exact hs'
    refine (List.Nodup.getElem_inj_iff a2 (hi := b) (hj := b')).mp ?_
    rw [List.length_map] at b b'
    simp only [List.getD_eq_getElem?_getD (l := t.clauses.getD c []), List.getElem?_eq_getElem b, List.getElem?_eq_getElem b',
      Option.getD_some] at e
    simpa using e
  · exact ((h2 _ (hcl hc)).2.2 _ (hlit hc hs)).2
  · refine ⟨h4.used_lt, fun c hc v hv => ?_, by simp [h5], fun l hl => ?_, fun v hv c => ?_⟩
    · obtain ⟨l, hl, rfl⟩ := List.mem_map.mp ((hvars hc).mp hv)
      exact h4.used_mem _ (hcl hc) l hl
    · obtain ⟨r, hr, rfl⟩ := List.mem_map.mp hl
      obtain ⟨v, hv, rfl⟩ := List.getElem_of_mem hr
      have := h6 v
      rwa [List.getD_eq_getElem?_getD, List.getElem?_eq_getElem hv] at this
    · have e : (t.conns.map (List.map Prod.fst)).getD v [] = (t.conns.getD v []).map Prod.fst := by
        have hv' : v < t.conns.length := by omega
        simp [List.getD_eq_getElem?_getD, hv']
      rw [e]
      simp only [occurrences, Finset.mem_filter, Finset.mem_range]
      constructor
      · intro hm
        obtain ⟨⟨c', s⟩, hp', rfl⟩ := List.mem_map.mp hm
        have hl := (h4.mem v c' s).mp hp'
        have hc : c' < t.clauses.length := by
          by_contra hn
          rw [List.getD_eq_getElem?_getD, List.getElem?_eq_none (by omega)] at hl
          simp at hl
        exact ⟨hc, (hvars hc).mpr (List.mem_map.mpr ⟨_, hl, rfl⟩)⟩
      · rintro ⟨hc, hv⟩
        obtain ⟨⟨v', s⟩, hl, rfl⟩ := List.mem_map.mp ((hvars hc).mp hv)
        exact List.mem_map.mpr ⟨(c, s), (h4.mem v' c s).mpr hl, rfl⟩

end

/-- Non-vacuity: four rounds on five variables; the third draw repeats the variables of the first clause and is taken back. -/
example : (generate 5 4 2 id [true, false, true, false, true] (fun c => [0, 3, 1, 4].getD c 0) (fun c _ => [0, 1, 0, 2].getD c 0)
      (fun c _ => [false, true, true, false].getD c false)).map (fun t => (t.used, t.clauses, t.conns)) =
    some ([3, 1, 0, 4, 2], [[(0, 1), (1, -1)], [(3, -1), (1, 1)], [(4, 1), (2, -1)]],
      [[(0, 1)], [(0, -1), (1, 1)], [(2, -1)], [(1, -1)], [(2, 1)]]) ∧
    (∀ c < 4, [0, 3, 1, 4].getD c 0 < 5) ∧ (∀ c < 4, ∀ j < 2 - 1, [0, 1, 0, 2].getD c 0 < 5 - 1 - j) := by
  refine ⟨by decide +kernel, by decide, by decide⟩

end Verif.Properties
