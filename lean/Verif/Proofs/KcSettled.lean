import Verif.Proofs.OneCycle
import Verif.Spec.Plan
import Verif.Spec.KcRun
import Mathlib.Algebra.BigOperators.Group.Finset.Sigma
import Mathlib.Data.Finset.Sum

/-! Settled messages of the assignment solver. -/

namespace Verif.Proofs
open Verif Num Spec

/-- Renaming the variables of a message. -/
theorem message_map {α β : Type} (f : α ↪ β) {vars : Finset α} {valid : Finset α → Prop} {x : α → ℚ} {x' : β → ℚ} {v : α} (hv : v ∈ vars)
    (hx : ∀ a ∈ vars, x' (f a) = x a) {r : Num} (h : IsMessage vars valid x v r) :
    IsMessage (vars.map f) (fun S => ∃ S0 ⊆ vars, S = S0.map f ∧ valid S0) x' (f v) r := by
  have hc : ∀ S ⊆ vars, cost x' (S.map f) = cost x S := fun S hS => by
    unfold cost
    rw [Finset.sum_map]
    exact Finset.sum_congr rfl fun a ha => hx a (hS ha)
  have hs : ∀ (C : Finset α → Prop) (C' : Finset β → Prop), (∀ S, C' (S.map f) ↔ C S) →
      costs (vars.map f) (fun S => ∃ S0 ⊆ vars, S = S0.map f ∧ valid S0) x' C' = costs vars valid x C := by
    intro C C' hC
    ext q
    constructor
    · rintro ⟨_, -, ⟨S0, h1, rfl, h2⟩, h3, h4⟩
      exact ⟨S0, h1, h2, (hC S0).mp h3, by rw [← h4, hc S0 h1]⟩
    · rintro ⟨S, h1, h2, h3, h4⟩
      exact ⟨S.map f, Finset.map_subset_map.mpr h1, ⟨S, h1, rfl, h2⟩, (hC S).mpr h3, by rw [hc S h1, h4]⟩
  obtain ⟨a, b, ha, hb, e⟩ := h
  refine ⟨a, b, ?_, ?_, by rw [e, hx v hv]⟩
  · rw [hs (fun S => v ∈ S) (fun S => f v ∈ S) fun S => Finset.mem_map' f]; exact ha
  · rw [hs (fun S => v ∉ S) (fun S => f v ∉ S) fun S => not_congr (Finset.mem_map' f)]; exact hb

/-- The variables of the coupling constraint of team `t`. -/
def couplingName (t : ℕ) : Option ℕ ↪ ℕ ⊕ ℕ × ℕ :=
  ⟨fun s => match s with | none => .inl t | some p => .inr (p, t), by
    intro a b hab
    cases a <;> cases b <;> simp_all⟩

/-- The variables of the constraint of project `p`. -/
def projectName (p : ℕ) : ℕ ↪ ℕ ⊕ ℕ × ℕ := ⟨fun t => .inr (p, t), by intro a b hab; simpa using hab⟩

/-- The variables of a department. -/
def deptName : ℕ ↪ ℕ ⊕ ℕ × ℕ := ⟨Sum.inl, Sum.inl_injective⟩

@[simp] theorem couplingName_none (t : ℕ) : couplingName t none = .inl t := rfl
@[simp] theorem couplingName_some (t p : ℕ) : couplingName t (some p) = .inr (p, t) := rfl
@[simp] theorem projectName_apply (p t : ℕ) : projectName p t = .inr (p, t) := rfl
@[simp] theorem deptName_apply (t : ℕ) : deptName t = .inl t := rfl

section
variable {D T P : ℕ} {wf : ℕ → ℕ → ℕ} {cap : ℕ → ℕ} {w : ℕ → ℚ} {R : ℕ → ℕ → ℚ} {flag : Bool} {alpha : ℚ}
  {limit : Option ℚ} {a0 : ℕ → ℕ → ℚ} {a raw o y e : ℕ → ℕ → ℕ → ℚ} {c : ℕ → ℕ → ℚ}
  (h : IsKcTrace D T P wf cap w R flag alpha limit a0 a raw o y e c) {K : ℕ}
  (hraw : ∀ d < D, ∀ t < T, wf d t ≠ 0 → raw (K + 1) d t = damped flag alpha (fun i => raw i d t) K ∧
    damped flag alpha (fun i => raw i d t) K = damped flag alpha (fun i => raw i d t) (K + 1))
  (hy : ∀ p < P, ∀ t < T, y K p t = y (K + 1) p t) (hlim : ∀ l, limit = some l → ∀ t < T, c (K + 1) t < l)

/-- The belief of a team or a pair. -/
def planBelief (D : ℕ) (wf : ℕ → ℕ → ℕ) (w : ℕ → ℚ) (R : ℕ → ℕ → ℚ) (raw o y : ℕ → ℕ → ℕ → ℚ) (c : ℕ → ℕ → ℚ) (K : ℕ) : ℕ ⊕ ℕ × ℕ → ℚ
  | .inl t => c (K + 1) t + ∑ d ∈ depts D wf t, raw (K + 1) d t + w t
  | .inr s => o (K + 1) s.1 s.2 + y (K + 1) s.1 s.2 + R s.1 s.2

/-- The message of a constraint to a team or a pair. -/
def planMessage (raw o y : ℕ → ℕ → ℕ → ℚ) (c : ℕ → ℕ → ℚ) (K : ℕ) : ℕ ⊕ ℕ ⊕ ℕ → ℕ ⊕ ℕ × ℕ → ℚ
  | .inl d, .inl t => raw (K + 1) d t
  | .inr (.inl t), .inl _ => c (K + 1) t
  | .inr (.inl t), .inr s => o (K + 1) s.1 t
  | .inr (.inr p), .inr s => y (K + 1) p s.2
  | _, _ => 0

/-- The valid assignments of a constraint. -/
def planValid (P T : ℕ) (wf : ℕ → ℕ → ℕ) (cap : ℕ → ℕ) : ℕ ⊕ ℕ ⊕ ℕ → Finset (ℕ ⊕ ℕ × ℕ) → Prop
  | .inl d, S => ∃ S0 ⊆ users (wf d) 0 T, S = S0.map deptName ∧ Fits (wf d) (cap d) S0
  | .inr (.inl t), S => ∃ S0 ⊆ couplingVars P, S = S0.map (couplingName t) ∧ Coupled S0
  | .inr (.inr p), S => ∃ S0 ⊆ Finset.range T, S = S0.map (projectName p) ∧ AtMostOne S0

theorem dept_scope (d : ℕ) : planScope T P wf (.inl d) = (users (wf d) 0 T).map deptName := by
  ext v
  rcases v with t | s <;> simp [planScope, users]

theorem team_scope (t : ℕ) : planScope T P wf (.inr (.inl t)) = (couplingVars P).map (couplingName t) := by
  ext v
  rcases v with t' | ⟨p, t'⟩
  · simp [planScope, couplingVars, eq_comm]
  · simp [planScope, couplingVars, eq_comm]

theorem project_scope (p : ℕ) : planScope T P wf (.inr (.inr p)) = (Finset.range T).map (projectName p) := by
  ext v
  rcases v with t' | ⟨p', t'⟩
  · simp [planScope]
  · simp [planScope, eq_comm, and_comm]

include h hraw hy hlim

/-- The messages into a constraint are the beliefs minus the messages out of it, and the messages out are min-sum messages. -/
theorem plan_messages : ∀ f ∈ planConstraints D T P, ∀ v ∈ planScope T P wf f,
    IsMessage (planScope T P wf f) (planValid P T wf cap f) (fun v => planBelief D wf w R raw o y c K v - planMessage raw o y c K f v) v
      (fin (planMessage raw o y c K f v)) := by
  obtain ⟨he, hc, ha⟩ := kc_forced h (K := K) (K' := K + 1) (fun d hd t ht hw => (hraw d hd t ht hw).2) hy
  have hsum : ∀ t < T, ∑ d ∈ depts D wf t, damped flag alpha (fun i => raw i d t) (K + 1) = ∑ d ∈ depts D wf t, raw (K + 1) d t := by
    intro t ht
    refine Finset.sum_congr rfl fun d hd => ?_
    have := Finset.mem_filter.mp hd
    obtain ⟨h1, h2⟩ := hraw d (Finset.mem_range.mp this.1) t ht this.2
    rw [h1, h2]
  rintro (d | t | p) hf v hv
  · have hd : d < D := by simpa [planConstraints] using hf
    rw [dept_scope] at hv ⊢
    obtain ⟨t, ht, rfl⟩ := Finset.mem_map.mp hv
    refine message_map deptName ht (fun t' ht' => ?_) (h.dept (K + 1) d hd t ?_ ?_)
    · have := Finset.mem_filter.mp ht'
      have ht' := Finset.mem_range.mp this.1
      show c (K + 1) t' + ∑ d ∈ depts D wf t', raw (K + 1) d t' + w t' - raw (K + 1) d t' = a (K + 1) d t'
      rw [h.next K d hd t' ht' this.2.2, hc t' ht', ← Finset.add_sum_erase (depts D wf t') (fun d => raw (K + 1) d t')
        (Finset.mem_filter.mpr ⟨Finset.mem_range.mpr hd, this.2.2⟩)]
      have : ∑ d' ∈ (depts D wf t').erase d, damped flag alpha (fun i => raw i d' t') K = ∑ d' ∈ (depts D wf t').erase d, raw (K + 1) d' t' := by
        refine Finset.sum_congr rfl fun d' hd' => ?_
        have := Finset.mem_filter.mp (Finset.mem_of_mem_erase hd')
        exact (hraw d' (Finset.mem_range.mp this.1) t' ht' this.2).1.symm
      rw [this]
      ring
    · exact Finset.mem_range.mp (Finset.mem_filter.mp ht).1
    · exact (Finset.mem_filter.mp ht).2.2
  · have ht : t < T := by simpa [planConstraints] using hf
    rw [team_scope] at hv ⊢
    obtain ⟨s, hs, rfl⟩ := Finset.mem_map.mp hv
    have hval : ∀ s ∈ couplingVars P, planBelief D wf w R raw o y c K (couplingName t s) - planMessage raw o y c K (.inr (.inl t)) (couplingName t s) =
        couplingIn (w t + ∑ d ∈ depts D wf t, damped flag alpha (fun i => raw i d t) (K + 1)) (fun p => e (K + 1) p t) s := by
      rintro (_ | p) hs'
      · show c (K + 1) t + ∑ d ∈ depts D wf t, raw (K + 1) d t + w t - c (K + 1) t = _
        rw [couplingIn, hsum t ht]; ring
      · have hp : p < P := by simpa [couplingVars] using hs'
        show o (K + 1) p t + y (K + 1) p t + R p t - o (K + 1) p t = e (K + 1) p t
        rw [h.edge K p hp t ht, hy p hp t ht]; ring
    refine message_map (couplingName t) hs hval ?_
    rcases s with _ | p
    · obtain ⟨u, h1, h2⟩ := h.team (K + 1) t ht
      have hu : c (K + 1) t = u := by
        cases hl : limit with
        | none => rw [h2, hl]
        | some l =>
          have := hlim l hl t ht
          rw [h2, hl] at this ⊢
          simp only at this ⊢
          rcases le_total l u with hle | hle
          · rw [min_eq_left hle] at this; exact absurd this (lt_irrefl _)
          · exact min_eq_right hle
      show IsMessage _ _ _ none (fin (c (K + 1) t))
      rw [hu]
      have : ∀ p < P, e (K + 2) p t = e (K + 1) p t := fun p hp => (he p hp t ht).symm
      refine h1.congr_in (fun j hj => ?_) (Finset.mem_insert_self _ _)
      rcases j with _ | p
      · rfl
      · exact this p (by simpa [couplingVars] using hj)
    · exact h.coupling (K + 1) p (by simpa [couplingVars] using hs) t ht
  · have hp : p < P := by simpa [planConstraints] using hf
    rw [project_scope] at hv ⊢
    obtain ⟨t, ht, rfl⟩ := Finset.mem_map.mp hv
    refine message_map (projectName p) ht (fun t' ht' => ?_) (h.project (K + 1) p hp t (Finset.mem_range.mp ht))
    show o (K + 1) p t' + y (K + 1) p t' + R p t' - y (K + 1) p t' = o (K + 1) p t' + R p t'
    ring

omit hraw hy hlim in
theorem plan_belief_sum : ∀ v ∈ (Finset.range T).disjSum (Finset.range P ×ˢ Finset.range T), planBelief D wf w R raw o y c K v =
    Sum.elim w (fun s => R s.1 s.2) v + ∑ f ∈ (planConstraints D T P).filter (fun f => v ∈ planScope T P wf f), planMessage raw o y c K f v := by
  rintro (t | ⟨p, t⟩) hv
  · have ht : t < T := by simpa using hv
    rw [Finset.sum_filter, planConstraints, Finset.sum_disjSum, Finset.sum_disjSum]
    have h1 : ∑ d ∈ Finset.range D, (if Sum.inl t ∈ planScope T P wf (.inl d) then planMessage raw o y c K (.inl d) (.inl t) else 0) =
        ∑ d ∈ depts D wf t, raw (K + 1) d t := by
      rw [depts, Finset.sum_filter]
      exact Finset.sum_congr rfl fun d _ => by simp [planScope, planMessage, ht]
    have h2 : ∑ t' ∈ Finset.range T, (if Sum.inl t ∈ planScope T P wf (.inr (.inl t')) then planMessage raw o y c K (.inr (.inl t')) (.inl t) else 0) =
        c (K + 1) t := by
      rw [Finset.sum_eq_single t (fun t' _ hne => by simp [planScope, hne, hne.symm]) (fun hn => absurd (Finset.mem_range.mpr ht) hn)]
      simp [planScope, planMessage]
    have h3 : ∑ p ∈ Finset.range P, (if Sum.inl t ∈ planScope T P wf (.inr (.inr p)) then planMessage raw o y c K (.inr (.inr p)) (.inl t) else 0) = 0 :=
      Finset.sum_eq_zero fun p _ => by simp [planScope]
    rw [h1, h2, h3]
    show c (K + 1) t + ∑ d ∈ depts D wf t, raw (K + 1) d t + w t = w t + _
    ring
  · have hpt : p < P ∧ t < T := by simpa using hv
    rw [Finset.sum_filter, planConstraints, Finset.sum_disjSum, Finset.sum_disjSum]
    have h1 : ∑ d ∈ Finset.range D, (if Sum.inr (p, t) ∈ planScope T P wf (.inl d) then planMessage raw o y c K (.inl d) (.inr (p, t)) else 0) = 0 :=
      Finset.sum_eq_zero fun d _ => by simp [planScope]
    have h2 : ∑ t' ∈ Finset.range T, (if Sum.inr (p, t) ∈ planScope T P wf (.inr (.inl t')) then planMessage raw o y c K (.inr (.inl t')) (.inr (p, t)) else 0) =
        o (K + 1) p t := by
      rw [Finset.sum_eq_single t (fun t' _ hne => by simp [planScope, hne, hne.symm]) (fun hn => absurd (Finset.mem_range.mpr hpt.2) hn)]
      simp [planScope, planMessage, hpt.1]
    have h3 : ∑ p' ∈ Finset.range P, (if Sum.inr (p, t) ∈ planScope T P wf (.inr (.inr p')) then planMessage raw o y c K (.inr (.inr p')) (.inr (p, t)) else 0) =
        y (K + 1) p t := by
      rw [Finset.sum_eq_single p (fun p' _ hne => by simp [planScope, hne, hne.symm]) (fun hn => absurd (Finset.mem_range.mpr hpt.1) hn)]
      simp [planScope, planMessage, hpt.2]
    rw [h1, h2, h3]
    show o (K + 1) p t + y (K + 1) p t + R p t = R p t + _
    ring

omit h hraw hy hlim in
/-- A plan satisfies every constraint. -/
theorem plan_valid {m : ℕ → Option ℕ} (hm : Plan D T P wf cap m) : ∀ f ∈ planConstraints D T P, planValid P T wf cap f (planScope T P wf f ∩ planVars T P m) := by
  rintro (d | t | p) hf
  · have hd : d < D := by simpa [planConstraints] using hf
    refine ⟨(users (wf d) 0 T).filter (fun t => m t ≠ none), Finset.filter_subset _ _, ?_, ?_⟩
    · rw [dept_scope]
      ext v
      rcases v with t | s <;> simp [planVars, users]
      tauto
    · refine le_trans ?_ (hm.fits d hd)
      refine Finset.sum_le_sum_of_subset fun t ht => ?_
      simp only [users, Finset.mem_filter, Finset.mem_range] at ht ⊢
      exact ⟨ht.1.1, ht.2⟩
  · have ht : t < T := by simpa [planConstraints] using hf
    cases hmt : m t with
    | none =>
      refine ⟨∅, Finset.empty_subset _, ?_, Or.inl rfl⟩
      ext v
      rcases v with t' | ⟨p, t'⟩
      · simp only [planScope, planVars, Finset.mem_inter, Finset.inl_mem_disjSum, Finset.mem_singleton, Finset.mem_filter, Finset.map_empty, Finset.notMem_empty, iff_false]
        rintro ⟨rfl, -, hne⟩
        exact hne hmt
      · simp only [planScope, planVars, Finset.mem_inter, Finset.inr_mem_disjSum, Finset.mem_singleton, Finset.mem_filter, Finset.mem_product, Finset.map_empty, Finset.notMem_empty, iff_false]
        rintro ⟨⟨-, rfl⟩, -, he⟩
        rw [hmt] at he; cases he
    | some p =>
      have hp := hm.lt t ht p hmt
      refine ⟨{none, some p}, by simp [couplingVars, Finset.insert_subset_iff, hp], ?_, Or.inr ⟨p, rfl⟩⟩
      ext v
      rcases v with t' | ⟨p', t'⟩
      · simp only [planScope, planVars, Finset.mem_inter, Finset.inl_mem_disjSum, Finset.mem_singleton, Finset.mem_filter, Finset.mem_range, Finset.map_insert, Finset.map_singleton,
          couplingName_none, couplingName_some, Finset.mem_insert, Sum.inl.injEq, reduceCtorEq, or_false]
        constructor
        · rintro ⟨rfl, -⟩; rfl
        · rintro rfl; exact ⟨rfl, ht, by rw [hmt]; simp⟩
      · simp only [planScope, planVars, Finset.mem_inter, Finset.inr_mem_disjSum, Finset.mem_singleton, Finset.mem_filter, Finset.mem_range, Finset.mem_product, Finset.map_insert, Finset.map_singleton,
          couplingName_none, couplingName_some, Finset.mem_insert, Sum.inr.injEq, Prod.mk.injEq, reduceCtorEq, false_or]
        constructor
        · rintro ⟨⟨-, rfl⟩, -, he⟩
          rw [hmt] at he
          exact ⟨(Option.some.inj he).symm, rfl⟩
        · rintro ⟨rfl, rfl⟩; exact ⟨⟨hp, rfl⟩, ⟨hp, ht⟩, hmt⟩
  · have hp : p < P := by simpa [planConstraints] using hf
    refine ⟨(Finset.range T).filter (fun t => m t = some p), Finset.filter_subset _ _, ?_, ?_⟩
    · rw [project_scope]
      ext v
      rcases v with t | ⟨p', t⟩
      · simp
      · simp only [planVars, Finset.mem_inter, Finset.mem_map, Finset.mem_range, projectName_apply, Sum.inr.injEq, Prod.mk.injEq, Finset.inr_mem_disjSum, Finset.mem_filter, Finset.mem_product]
        constructor
        · rintro ⟨⟨t', ht', rfl, rfl⟩, -, he⟩
          exact ⟨t', ⟨ht', he⟩, rfl, rfl⟩
        · rintro ⟨t', ⟨ht', he⟩, rfl, rfl⟩
          exact ⟨⟨t', ht', rfl, rfl⟩, ⟨hp, ht'⟩, he⟩
    · intro t ht t' ht'
      simp only [Finset.mem_filter, Finset.mem_range] at ht ht'
      exact hm.inj t ht.1 t' ht'.1 p ht.2 ht'.2

omit h hraw hy hlim in
theorem plan_vars {m m' : ℕ → Option ℕ} (hm : Assignment T P m) (hne : ∃ t < T, m' t ≠ m t) : planVars T P m' ≠ planVars T P m := by
  obtain ⟨t, ht, hne⟩ := hne
  intro e
  have h1 : ∀ v, v ∈ planVars T P m' ↔ v ∈ planVars T P m := fun v => by rw [e]
  have hin : m' t ≠ none ↔ m t ≠ none := by simpa [planVars, ht] using h1 (.inl t)
  cases hmt : m t with
  | none =>
    rw [hmt] at hin hne
    simp only [ne_eq, not_true_eq_false, iff_false, not_not] at hin
    exact hne hin
  | some p =>
    have := (h1 (.inr (p, t))).mpr (by simp [planVars, hmt, ht, hm.lt t ht p hmt])
    have : m' t = some p := (Finset.mem_filter.mp (Finset.inr_mem_disjSum.mp this)).2
    exact hne (by rw [this, hmt])

omit h hraw hy hlim in
theorem plan_cost {m : ℕ → Option ℕ} (hm : Assignment T P m) :
    cost (Sum.elim w (fun s => R s.1 s.2)) (planVars T P m) = assignmentCost T (fun t p => w t + R p t) m := by
  unfold cost planVars assignmentCost
  rw [Finset.sum_disjSum]
  simp only [Sum.elim_inl, Sum.elim_inr]
  rw [Finset.sum_filter, Finset.sum_filter, Finset.sum_product_right, ← Finset.sum_add_distrib]
  refine Finset.sum_congr rfl fun t ht => ?_
  cases hmt : m t with
  | none => simp [costOf, hmt]
  | some p =>
    have hp := hm.lt t (Finset.mem_range.mp ht) p hmt
    simp only [ne_eq, reduceCtorEq, not_false_eq_true, if_true, costOf, hmt, Option.some.injEq]
    rw [Finset.sum_ite_eq, if_pos (Finset.mem_range.mpr hp)]

/-- Settled messages without ties: the signs of the beliefs are a plan, and every other plan that differs in a treelike way costs more. -/
theorem settled_plan (hb : ∀ v ∈ (Finset.range T).disjSum (Finset.range P ×ˢ Finset.range T), planBelief D wf w R raw o y c K v ≠ 0) :
    ∃ m, Plan D T P wf cap m ∧ (∀ t < T, (planBelief D wf w R raw o y c K (.inl t) < 0 ↔ m t ≠ none)) ∧
      (∀ p < P, ∀ t < T, (planBelief D wf w R raw o y c K (.inr (p, t)) < 0 ↔ m t = some p)) ∧
      (∀ m', Plan D T P wf cap m' → (∃ t < T, m' t ≠ m t) →
        TreelikeChange (planConstraints D T P) (planScope T P wf) (planVars T P m) (planVars T P m') →
        assignmentCost T (fun t p => w t + R p t) m < assignmentCost T (fun t p => w t + R p t) m') ∧
      ∀ m', Plan D T P wf cap m' → OneCycleChange (planConstraints D T P) (planScope T P wf) (planVars T P m) (planVars T P m') →
        assignmentCost T (fun t p => w t + R p t) m ≤ assignmentCost T (fun t p => w t + R p t) m' := by
  have hmsg := plan_messages h hraw hy hlim
  have hsub : ∀ f ∈ planConstraints D T P, planScope T P wf f ⊆ (Finset.range T).disjSum (Finset.range P ×ˢ Finset.range T) := by
    rintro (d | t | p) hf v hv
    · rcases v with t | s
      · exact Finset.inl_mem_disjSum.mpr (Finset.mem_filter.mp (Finset.inl_mem_disjSum.mp hv)).1
      · simp [planScope] at hv
    · have ht : t < T := by simpa [planConstraints] using hf
      rcases v with t' | ⟨p, t'⟩ <;> simp [planScope] at hv ⊢ <;> omega
    · have hp : p < P := by simpa [planConstraints] using hf
      rcases v with t' | ⟨p, t'⟩ <;> simp [planScope] at hv ⊢
      omega
  set b := planBelief D wf w R raw o y c K with hbdef
  have hval : ∀ f ∈ planConstraints D T P, (planScope T P wf f).Nonempty → planValid P T wf cap f ((planScope T P wf f).filter (fun v => b v < 0)) := by
    intro f hf hne
    exact (settled_valid (b := b) (fun v hv => by
      rw [show b v - (b v - planMessage raw o y c K f v) = planMessage raw o y c K f v by ring]
      exact hmsg f hf v hv) hne (fun v hv => hb v (hsub f hf hv))).1
  -- the decisions of a team
  have hteam : ∀ t < T, (∀ p < P, ¬ b (.inr (p, t)) < 0) ∧ ¬ b (.inl t) < 0 ∨ ∃ p < P, b (.inl t) < 0 ∧ ∀ p' < P, (b (.inr (p', t)) < 0 ↔ p' = p) := by
    intro t ht
    obtain ⟨S0, hS, e, hco⟩ := hval (.inr (.inl t)) (by simp [planConstraints, ht]) ⟨.inl t, by simp [planScope]⟩
    have hin : ∀ s ∈ couplingVars P, (b (couplingName t s) < 0 ↔ s ∈ S0) := by
      intro s hs
      rw [← Finset.mem_map' (couplingName t) (s := S0), ← e, Finset.mem_filter, team_scope, Finset.mem_map']
      exact ⟨fun h => ⟨hs, h⟩, And.right⟩
    have hmem : ∀ p < P, some p ∈ couplingVars P := fun p hp => by simp [couplingVars, hp]
    rcases hco with rfl | ⟨p, rfl⟩
    · left
      refine ⟨fun p hp hlt => ?_, fun hlt => ?_⟩
      · have := (hin (some p) (hmem p hp)).mp hlt
        simp at this
      · have := (hin none (Finset.mem_insert_self _ _)).mp hlt
        simp at this
    · right
      have hp : p < P := by
        have := hS (Finset.mem_insert_of_mem (Finset.mem_singleton_self (some p)))
        simpa [couplingVars] using this
      refine ⟨p, hp, (hin none (Finset.mem_insert_self _ _)).mpr (by simp), fun p' hp' => ?_⟩
      have := hin (some p') (hmem p' hp')
      simpa using this
  have hex : ∀ t, ∃ q : Option ℕ, t < T → (b (.inl t) < 0 ↔ q ≠ none) ∧ (∀ p, q = some p → p < P) ∧ ∀ p < P, (b (.inr (p, t)) < 0 ↔ q = some p) := by
    intro t
    by_cases ht : t < T
    · rcases hteam t ht with ⟨h1, h2⟩ | ⟨p, hp, h1, h2⟩
      · exact ⟨none, fun _ => ⟨by simpa using h2, by simp, fun p hp => by simpa using h1 p hp⟩⟩
      · refine ⟨some p, fun _ => ⟨by simpa using h1, fun p' e => by rw [← Option.some.inj e]; exact hp, fun p' hp' => ?_⟩⟩
        rw [h2 p' hp', Option.some.injEq, eq_comm]
    · exact ⟨none, fun h => absurd h ht⟩
  choose m hm using hex
  have hA : Assignment T P m := by
    refine ⟨fun t ht p e => (hm t ht).2.1 p e, fun t ht t' ht' p e e' => ?_⟩
    have hp := (hm t ht).2.1 p e
    obtain ⟨S0, hS, e0, hone⟩ := hval (.inr (.inr p)) (by simp [planConstraints, hp]) ⟨.inr (p, t), by simp [planScope, ht]⟩
    have hin : ∀ s < T, (b (.inr (p, s)) < 0 ↔ s ∈ S0) := by
      intro s hs
      rw [← Finset.mem_map' (projectName p) (s := S0), ← e0, Finset.mem_filter, project_scope, Finset.mem_map']
      exact ⟨fun h => ⟨Finset.mem_range.mpr hs, h⟩, And.right⟩
    exact hone t ((hin t ht).mp (((hm t ht).2.2 p hp).mpr e)) t' ((hin t' ht').mp (((hm t' ht').2.2 p hp).mpr e'))
  have hvars : planVars T P m = ((Finset.range T).disjSum (Finset.range P ×ˢ Finset.range T)).filter (fun v => b v < 0) := by
    ext v
    rcases v with t | ⟨p, t⟩
    · simp only [planVars, Finset.inl_mem_disjSum, Finset.mem_filter, Finset.mem_range]
      exact and_congr_right fun ht => ((hm t ht).1).symm
    · simp only [planVars, Finset.inr_mem_disjSum, Finset.mem_filter, Finset.mem_product, Finset.mem_range]
      exact and_congr_right fun hh => ((hm t hh.2).2.2 p hh.1).symm
  have hplan : Plan D T P wf cap m := by
    refine ⟨hA, fun d hd => ?_⟩
    have e1 : ∑ t ∈ (Finset.range T).filter (fun t => m t ≠ none), wf d t = ∑ t ∈ (users (wf d) 0 T).filter (fun t => m t ≠ none), wf d t := by
      symm
      refine Finset.sum_subset (fun t ht => ?_) (fun t ht hn => ?_)
      · simp only [users, Finset.mem_filter] at ht ⊢
        exact ⟨ht.1.1, ht.2⟩
      · simp only [users, Finset.mem_filter] at ht hn
        by_contra hw
        exact hn ⟨⟨ht.1, Nat.zero_le _, hw⟩, ht.2⟩
    rw [e1]
    rcases (planScope T P wf (.inl d)).eq_empty_or_nonempty with he | hne
    · rw [dept_scope, Finset.map_eq_empty] at he
      rw [he]; simp
    · obtain ⟨S0, hS, e0, hfit⟩ := hval (.inl d) (by simp [planConstraints, hd]) hne
      have he : (users (wf d) 0 T).filter (fun t => m t ≠ none) = S0 := by
        ext t
        rw [← Finset.mem_map' deptName (s := S0), ← e0, Finset.mem_filter, Finset.mem_filter, dept_scope, Finset.mem_map']
        refine and_congr_right fun ht => ?_
        exact ((hm t (Finset.mem_range.mp (Finset.mem_filter.mp ht).1)).1).symm
      rw [he]; exact hfit
  have hin : ∀ m', planVars T P m' ⊆ (Finset.range T).disjSum (Finset.range P ×ˢ Finset.range T) := fun m' v hv => by
    rcases v with t | s
    · exact Finset.inl_mem_disjSum.mpr (Finset.mem_filter.mp (Finset.inl_mem_disjSum.mp hv)).1
    · exact Finset.inr_mem_disjSum.mpr (Finset.mem_filter.mp (Finset.inr_mem_disjSum.mp hv)).1
  refine ⟨m, hplan, fun t ht => (hm t ht).1, fun p hp t ht => (hm t ht).2.2 p hp, fun m' hm' hne htree => ?_, fun m' hm' htree => ?_⟩ <;>
    rw [← plan_cost hA, ← plan_cost hm'.toAssignment] <;> rw [hvars] at htree ⊢
  · exact settled_local (F := planConstraints D T P) (V := planScope T P wf) (x := fun f v => b v - planMessage raw o y c K f v)
      (r := planMessage raw o y c K) (valid := planValid P T wf cap) hsub (plan_belief_sum h) (fun _ _ _ _ => rfl) hmsg hb (hin m')
      (plan_valid hm') (by rw [← hvars]; exact plan_vars hA hne) htree
  · exact settled_cycle (F := planConstraints D T P) (V := planScope T P wf) (x := fun f v => b v - planMessage raw o y c K f v)
      (r := planMessage raw o y c K) (valid := planValid P T wf cap) hsub (plan_belief_sum h) (fun _ _ _ _ => rfl) hmsg hb (hin m') (plan_valid hm') htree

end

end Verif.Proofs
