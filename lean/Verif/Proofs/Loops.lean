import Verif.Model.TspLoops
import Verif.Spec.Loops
import Mathlib.Data.List.Chain
import Mathlib.Data.Finset.Card

/-! # The loop search -/

namespace Verif.Proofs
open Verif Num Spec Model

/-- There is an edge in the map. -/
def GraphEdge (g : Graph) (u v : ℕ) : Prop := ∃ l, g.lookup u = some l ∧ v ∈ l

theorem lookup_eq_none {g : Graph} {u : ℕ} : g.lookup u = none ↔ u ∉ g.map Prod.fst := by
  induction g with
  | nil => simp
  | cons kv g ih =>
    obtain ⟨k, l⟩ := kv
    by_cases h : u = k
    · subst h; simp
    · rw [List.lookup_cons, beq_false_of_ne h]; simp [ih, h]

theorem lookup_map_push {g : Graph} {k u v : ℕ} :
    (g.map (fun kv => if kv.1 = k then (kv.1, kv.2 ++ [v]) else kv)).lookup u =
      if u = k then (g.lookup u).map (· ++ [v]) else g.lookup u := by
  induction g with
  | nil => simp
  | cons kv g ih =>
    obtain ⟨a, l⟩ := kv
    by_cases hu : u = k
    · subst hu
      by_cases ha : a = u
      · subst ha; simp
      · have h1 : (u == a) = false := beq_false_of_ne (Ne.symm ha)
        simp only [List.map_cons, if_neg ha, List.lookup_cons, h1, ih, if_true]
    · by_cases ha : a = k
      · subst ha
        have h1 : (u == a) = false := beq_false_of_ne hu
        simp only [List.map_cons, if_true, List.lookup_cons, h1, ih, if_neg hu]
      · by_cases h2 : u = a
        · subst h2; simp [hu]
        · have h1 : (u == a) = false := beq_false_of_ne h2
          simp only [List.map_cons, if_neg ha, List.lookup_cons, h1, ih, if_neg hu]

theorem lookup_append_single {g : Graph} {k u : ℕ} {l : List ℕ} :
    (g ++ [(k, l)]).lookup u = match g.lookup u with | some x => some x | none => if u = k then some l else none := by
  induction g with
  | nil =>
    by_cases h : u = k
    · subst h; simp
    · have h1 : (u == k) = false := beq_false_of_ne h
      simp [List.lookup_cons, h1, h]
  | cons kv g ih =>
    obtain ⟨a, x⟩ := kv
    by_cases h : u = a
    · subst h; simp
    · have h1 : (u == a) = false := beq_false_of_ne h
      simp only [List.cons_append, List.lookup_cons, h1, ih]

theorem lookup_graphAdd {g : Graph} {c : ℕ × ℕ} {u : ℕ} :
    (graphAdd g c).lookup u = if u = c.1 then some ((g.lookup u).getD [] ++ [c.2]) else g.lookup u := by
  unfold graphAdd
  by_cases h : c.1 ∈ g.map Prod.fst
  · rw [if_pos h, lookup_map_push]
    by_cases hu : u = c.1
    · subst hu
      rw [if_pos rfl, if_pos rfl]
      cases e : g.lookup c.1 with
      | none => exact absurd h (lookup_eq_none.mp e)
      | some l => simp
    · rw [if_neg hu, if_neg hu]
  · rw [if_neg h, lookup_append_single]
    by_cases hu : u = c.1
    · subst hu
      rw [lookup_eq_none.mpr h]; simp
    · simp only [if_neg hu]; cases g.lookup u <;> rfl

theorem buildGraph_append (l : List (ℕ × ℕ)) (c : ℕ × ℕ) : buildGraph (l ++ [c]) = graphAdd (buildGraph l) c := by
  simp [buildGraph]

theorem lookup_buildGraph (sel : List (ℕ × ℕ)) (u : ℕ) :
    (buildGraph sel).lookup u = (let l := (sel.filter (fun c => c.1 = u)).map Prod.snd; if l = [] then none else some l) := by
  induction sel using List.reverseRecOn with
  | nil => rfl
  | append_singleton l c ih =>
    rw [buildGraph_append, lookup_graphAdd, ih]
    by_cases hu : u = c.1
    · subst hu
      by_cases hl : (List.map Prod.snd (List.filter (fun c' => decide (c'.1 = c.1)) l)) = []
      · simp [List.filter_append, hl]
      · simp [List.filter_append, hl]
    · have : ¬ c.1 = u := fun h => hu h.symm
      have hf : List.filter (fun c => decide (c.1 = u)) (l ++ [c]) = List.filter (fun c => decide (c.1 = u)) l := by
        simp [List.filter_append, this]
      rw [if_neg hu, hf]

theorem graphEdge_iff {sel : List (ℕ × ℕ)} {u v : ℕ} : GraphEdge (buildGraph sel) u v ↔ Joined sel u v := by
  unfold GraphEdge Joined
  rw [lookup_buildGraph]
  simp only
  constructor
  · rintro ⟨l, h1, h2⟩
    split at h1
    · simp at h1
    · simp only [Option.some.injEq] at h1
      subst h1
      obtain ⟨c, hc, rfl⟩ := List.mem_map.mp h2
      obtain ⟨h3, h4⟩ := List.mem_filter.mp hc
      have : c.1 = u := by simpa using h4
      rw [← this]; exact h3
  · intro h
    have hm : v ∈ (sel.filter (fun c => c.1 = u)).map Prod.snd :=
      List.mem_map.mpr ⟨(u, v), List.mem_filter.mpr ⟨h, by simp⟩, rfl⟩
    rw [if_neg (List.ne_nil_of_mem hm)]
    exact ⟨_, rfl, hm⟩

theorem keys_iff {g : Graph} {u : ℕ} : u ∈ g.map Prod.fst ↔ ∃ l, g.lookup u = some l := by
  cases e : g.lookup u with
  | none => simp only [lookup_eq_none.mp e, false_iff]; simp
  | some l =>
    refine ⟨fun _ => ⟨l, rfl⟩, fun _ => ?_⟩
    by_contra h
    rw [lookup_eq_none.mpr h] at e; simp at e

/-- The keys of the map are the start nodes of the selected edges, once each. -/
theorem buildGraph_keys_nodup (sel : List (ℕ × ℕ)) : ((buildGraph sel).map Prod.fst).Nodup := by
  induction sel using List.reverseRecOn with
  | nil => simp [buildGraph]
  | append_singleton l c ih =>
    rw [buildGraph_append]
    unfold graphAdd
    by_cases h : c.1 ∈ (buildGraph l).map Prod.fst
    · rw [if_pos h, List.map_map]
      have : (Prod.fst ∘ fun kv : ℕ × List ℕ => if kv.1 = c.1 then (kv.1, kv.2 ++ [c.2]) else kv) = Prod.fst := by
        funext kv; simp only [Function.comp]; split <;> rfl
      rw [this]; exact ih
    · rw [if_neg h, List.map_append, List.nodup_append]
      refine ⟨ih, by simp, ?_⟩
      intro a ha b hb
      simp at hb; subst hb
      rintro rfl; exact h ha

theorem mem_keys {sel : List (ℕ × ℕ)} {u : ℕ} : u ∈ (buildGraph sel).map Prod.fst ↔ ∃ v, Joined sel u v := by
  rw [keys_iff]
  constructor
  · rintro ⟨l, hl⟩
    have hl' := hl
    rw [lookup_buildGraph] at hl
    simp only at hl
    split at hl
    · simp at hl
    · rename_i hne
      obtain ⟨v, hv⟩ := List.exists_mem_of_ne_nil _ hne
      simp only [Option.some.injEq] at hl
      exact ⟨v, graphEdge_iff.mp ⟨l, hl', hl ▸ hv⟩⟩
  · rintro ⟨v, hv⟩
    obtain ⟨l, hl, -⟩ := graphEdge_iff.mpr hv
    exact ⟨l, hl⟩

end Verif.Proofs

namespace Verif.Spec
variable {E : ℕ → ℕ → Prop}

theorem IsPath.ne_nil {p : List ℕ} {u v : ℕ} (h : IsPath E p u v) : p ≠ [] := by
  rintro rfl; simp [IsPath] at h

theorem IsPath.single (u : ℕ) : IsPath E [u] u u := ⟨rfl, rfl, by simp, by simp⟩

theorem IsPath.cons {p : List ℕ} {u v w : ℕ} (h : IsPath E p v w) (hu : u ∉ p) (he : E u v) : IsPath E (u :: p) u w := by
  obtain ⟨h1, h2, h3, h4⟩ := h
  refine ⟨rfl, ?_, ?_, List.nodup_cons.mpr ⟨hu, h4⟩⟩
  · rw [List.getLast?_cons]; simp [h2]
  · rw [List.isChain_cons]
    exact ⟨fun y hy => by rw [h1] at hy; obtain rfl : v = y := by simpa using hy
                          exact he, h3⟩

theorem IsPath.tail {p : List ℕ} {u w : ℕ} (h : IsPath E (u :: p) u w) (hne : u ≠ w) :
    ∃ v, E u v ∧ IsPath E p v w ∧ u ∉ p := by
  obtain ⟨-, h2, h3, h4⟩ := h
  cases p with
  | nil => simp at h2; exact absurd h2 hne
  | cons v p =>
    rw [List.isChain_cons_cons] at h3
    refine ⟨v, h3.1, ⟨rfl, by simpa [List.getLast?_cons] using h2, h3.2, (List.nodup_cons.mp h4).2⟩, (List.nodup_cons.mp h4).1⟩

theorem IsPath.eq_cons {p : List ℕ} {u w : ℕ} (h : IsPath E p u w) : ∃ q, p = u :: q := by
  cases p with
  | nil => exact absurd rfl h.ne_nil
  | cons a q => have := h.1; simp at this; exact ⟨q, by rw [this]⟩

/-- A walk can be shortened to a path without repeated nodes. -/
theorem exists_path_of_walk {u v : ℕ} (h : Relation.ReflTransGen E u v) : ∃ p, IsPath E p u v := by
  induction h using Relation.ReflTransGen.head_induction_on with
  | refl => exact ⟨[v], IsPath.single v⟩
  | @head a b huv _ ih =>
    obtain ⟨p, hp⟩ := ih
    by_cases ha : a ∈ p
    · obtain ⟨l1, l2, rfl⟩ := List.append_of_mem ha
      obtain ⟨-, h2, h3, h4⟩ := hp
      refine ⟨a :: l2, rfl, ?_, h3.right_of_append, (List.nodup_append.mp h4).2.1⟩
      rw [List.getLast?_append] at h2
      simpa using h2
    · exact ⟨a :: p, hp.cons ha huv⟩

theorem IsPath.reach {p : List ℕ} {u v : ℕ} (h : IsPath E p u v) : Relation.ReflTransGen E u v := by
  induction p generalizing u with
  | nil => exact absurd rfl h.ne_nil
  | cons a q ih =>
    obtain ⟨r, hr⟩ := h.eq_cons
    obtain ⟨rfl, rfl⟩ := List.cons.inj hr
    by_cases huv : a = v
    · subst huv; exact Relation.ReflTransGen.refl
    · obtain ⟨w, hw, hp, -⟩ := h.tail huv
      exact (ih hp).head hw

end Verif.Spec

namespace Verif.Proofs
open Verif Num Spec Model

theorem firstLoop_spec {f : ℕ → Option (List ℕ)} {vis : List ℕ} {nbrs : List ℕ} {A : ℕ → Prop} {B : ℕ → List ℕ → Prop}
    (hf : ∀ v ∈ nbrs, v ∉ vis → ∃ p, f v = some p ∧ ((p = [] ∧ ¬ A v) ∨ (p ≠ [] ∧ B v p))) :
    ∃ p, firstLoop f vis nbrs = some p ∧
      ((p = [] ∧ ∀ v ∈ nbrs, v ∉ vis → ¬ A v) ∨ (p ≠ [] ∧ ∃ v ∈ nbrs, v ∉ vis ∧ B v p)) := by
  induction nbrs with
  | nil => exact ⟨[], rfl, Or.inl ⟨rfl, by simp⟩⟩
  | cons v rest ih =>
    obtain ⟨q, hq1, hq2⟩ := ih (fun w hw => hf w (List.mem_cons_of_mem _ hw))
    have hq : (q = [] ∧ ∀ w ∈ rest, w ∉ vis → ¬ A w) ∨ (q ≠ [] ∧ ∃ w ∈ v :: rest, w ∉ vis ∧ B w q) := by
      rcases hq2 with h | ⟨h, w, hw, h'⟩
      · exact Or.inl h
      · exact Or.inr ⟨h, w, List.mem_cons_of_mem _ hw, h'⟩
    by_cases hv : v ∈ vis
    · refine ⟨q, by simp [firstLoop, hv, hq1], ?_⟩
      rcases hq with ⟨h1, h2⟩ | h
      · refine Or.inl ⟨h1, fun w hw hw' => ?_⟩
        rcases List.mem_cons.mp hw with rfl | hw
        · exact absurd hv hw'
        · exact h2 w hw hw'
      · exact Or.inr h
    · obtain ⟨p, hp1, hp2⟩ := hf v List.mem_cons_self hv
      rcases hp2 with ⟨rfl, hA⟩ | ⟨hne, hB⟩
      · refine ⟨q, by simp [firstLoop, hv, hp1, hq1], ?_⟩
        rcases hq with ⟨h1, h2⟩ | h
        · refine Or.inl ⟨h1, fun w hw hw' => ?_⟩
          rcases List.mem_cons.mp hw with rfl | hw
          · exact hA
          · exact h2 w hw hw'
        · exact Or.inr h
      · exact ⟨p, by simp [firstLoop, hv, hp1, hne], Or.inr ⟨hne, v, List.mem_cons_self, hv, hB⟩⟩

/-- The search started at `cur` with some nodes already visited. -/
theorem findLoop_spec {g : Graph} {start : ℕ} {N : Finset ℕ} (hN : ∀ u v, GraphEdge g u v → v ∈ N) (fuel : ℕ) :
    ∀ (cur : ℕ) (vis path : List ℕ), cur ∈ N → cur ∉ vis → (N \ vis.toFinset).card ≤ fuel →
      ∃ p, findLoop g start fuel cur vis path = some p ∧
        ((p = [] ∧ ¬ ∃ q, IsPath (GraphEdge g) q cur start ∧ ∀ x ∈ q, x ∉ vis) ∨
          (p ≠ [] ∧ ∃ q, p = path ++ q ∧ IsPath (GraphEdge g) q cur start ∧ ∀ x ∈ q, x ∉ vis)) := by
  induction fuel with
  | zero =>
    intro cur vis path h1 h2 h3
    have : cur ∈ N \ vis.toFinset := by simp [h1, h2]
    rw [Nat.le_zero, Finset.card_eq_zero] at h3
    rw [h3] at this; simp at this
  | succ fuel ih =>
    intro cur vis path h1 h2 h3
    by_cases hcs : cur = start
    · subst hcs
      exact ⟨path ++ [cur], by simp [findLoop], Or.inr ⟨by simp, [cur], rfl, IsPath.single cur, by simpa using h2⟩⟩
    cases hl : g.lookup cur with
    | none =>
      refine ⟨[], by simp [findLoop, hcs, hl], Or.inl ⟨rfl, ?_⟩⟩
      rintro ⟨q, hq, -⟩
      obtain ⟨r, rfl⟩ := hq.eq_cons
      obtain ⟨w, ⟨l, hl', -⟩, -⟩ := hq.tail hcs
      rw [hl] at hl'; simp at hl'
    | some nbrs =>
      have hcard : (N \ (cur :: vis).toFinset).card ≤ fuel := by
        have hlt : (N \ (cur :: vis).toFinset).card < (N \ vis.toFinset).card := by
          refine Finset.card_lt_card ⟨?_, ?_⟩
          · intro x hx; simp only [Finset.mem_sdiff, List.mem_toFinset, List.mem_cons, not_or] at hx ⊢
            exact ⟨hx.1, hx.2.2⟩
          · intro hsub
            have : cur ∈ N \ (cur :: vis).toFinset := hsub (by simp [h1, h2])
            simp at this
        omega
      obtain ⟨p, hp1, hp2⟩ := firstLoop_spec (f := fun node => findLoop g start fuel node (cur :: vis) (path ++ [cur]))
        (vis := cur :: vis) (nbrs := nbrs)
        (A := fun v => ∃ q, IsPath (GraphEdge g) q v start ∧ ∀ x ∈ q, x ∉ cur :: vis)
        (B := fun v p => ∃ q, p = (path ++ [cur]) ++ q ∧ IsPath (GraphEdge g) q v start ∧ ∀ x ∈ q, x ∉ cur :: vis)
        (fun v hv hvis => by
          exact ih v (cur :: vis) (path ++ [cur]) (hN cur v ⟨nbrs, hl, hv⟩) hvis hcard)
      refine ⟨p, by simp only [findLoop, if_neg hcs, hl]; exact hp1, ?_⟩
      rcases hp2 with ⟨rfl, hno⟩ | ⟨hne, v, hv, hvis, q, rfl, hq, hav⟩
      · refine Or.inl ⟨rfl, ?_⟩
        rintro ⟨q, hq, hav⟩
        obtain ⟨r, rfl⟩ := hq.eq_cons
        obtain ⟨w, ⟨l, hl', hw⟩, hr, hcr⟩ := hq.tail hcs
        rw [hl] at hl'
        obtain rfl := Option.some.inj hl'
        have havr : ∀ x ∈ r, x ∉ cur :: vis := by
          intro x hx hx'
          rcases List.mem_cons.mp hx' with rfl | hx'
          · exact hcr hx
          · exact hav x (List.mem_cons_of_mem _ hx) hx'
        obtain ⟨r', hr'⟩ := hr.eq_cons
        exact hno w hw (havr w (by rw [hr']; simp)) ⟨r, hr, havr⟩
      · exact Or.inr ⟨hne, cur :: q, by simp, hq.cons (fun h => (hav cur h) List.mem_cons_self) ⟨nbrs, hl, hv⟩, by
          intro x hx hx'
          rcases List.mem_cons.mp hx with rfl | hx
          · exact h2 hx'
          · exact hav x hx (List.mem_cons_of_mem _ hx')⟩

end Verif.Proofs
