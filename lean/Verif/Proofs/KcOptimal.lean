import Verif.Proofs.Assignment
import Verif.Proofs.Factors
import Verif.Spec.KcRun

/-! If all teams together fit their departments, the messages of the assignment solver separate the pairs of the cheapest assignment from
all others. -/

namespace Verif.Proofs
open Verif Num Spec

/-- A capacity that never binds sends the message zero. -/
theorem roomy_message {wf : ℕ → ℕ} {T cap t : ℕ} {x : ℕ → ℚ} {r : ℚ} (hroom : ∑ s ∈ Finset.range T, wf s ≤ cap) (ht : t ∈ users wf 0 T)
    (h : IsMessage (users wf 0 T) (Fits wf cap) x t (fin r)) : r = 0 := by
  classical
  have hfit : ∀ S ⊆ users wf 0 T, Fits wf cap S := fun S hS =>
    (Finset.sum_le_sum_of_subset (hS.trans (Finset.filter_subset _ _))).trans hroom
  obtain ⟨a, b, ha, hb, he⟩ := h
  have hb' : ∃ q, b = fin q ∧ IsLeast (costs (users wf 0 T) (Fits wf cap) x (fun S => t ∉ S)) q := by
    rcases hb with ⟨h0, -⟩ | hb
    · exact absurd (show (0 : ℚ) ∈ costs (users wf 0 T) (Fits wf cap) x (fun S => t ∉ S) from
        ⟨∅, by simp, hfit _ (by simp), by simp, by simp [cost]⟩) (by rw [h0]; simp)
    · exact hb
  have ha' : ∃ q, a = fin q ∧ IsLeast (costs (users wf 0 T) (Fits wf cap) x (fun S => t ∈ S)) q := by
    rcases ha with ⟨h0, -⟩ | ha
    · exact absurd (show x t ∈ costs (users wf 0 T) (Fits wf cap) x (fun S => t ∈ S) from
        ⟨{t}, by simpa using ht, hfit _ (by simpa using ht), by simp, by simp [cost]⟩) (by rw [h0]; simp)
    · exact ha
  obtain ⟨qa, rfl, la⟩ := ha'
  obtain ⟨qb, rfl, lb⟩ := hb'
  have h1 : qa ≤ qb + x t := by
    obtain ⟨S, s1, s2, s3, s4⟩ := lb.1
    refine la.2 ⟨insert t S, ?_, hfit _ ?_, by simp, ?_⟩
    · exact Finset.insert_subset ht s1
    · exact Finset.insert_subset ht s1
    · simp only [cost] at s4 ⊢; rw [Finset.sum_insert s3, s4, add_comm]
  have h2 : qb ≤ qa - x t := by
    obtain ⟨S, s1, s2, s3, s4⟩ := la.1
    refine lb.2 ⟨S.erase t, (Finset.erase_subset _ _).trans s1, hfit _ ((Finset.erase_subset _ _).trans s1), by simp, ?_⟩
    simp only [cost] at s4 ⊢
    rw [← s4, ← Finset.sum_erase_add S x s3]; ring
  have : fin r = fin (qa - qb - x t) := by rw [he]; simp [Num.fin_sub]
  have := Num.fin.inj this
  linarith

theorem exists_least_rest (n : ℕ) (c : ℕ → Prop) (f : ℕ → ℚ) : ∃ q, IsLeast {q | q = 0 ∨ ∃ s < n, c s ∧ f s = q} q := by
  classical
  have hfin : {q | q = 0 ∨ ∃ s < n, c s ∧ f s = q}.Finite := by
    apply (insert (0 : ℚ) ((Finset.range n).image f)).finite_toSet.subset
    rintro q (rfl | ⟨s, hs, -, rfl⟩)
    · simp
    · simp only [Finset.coe_insert, Finset.coe_image, Set.mem_insert_iff, Set.mem_image]
      exact Or.inr ⟨s, by simpa using hs, rfl⟩
  obtain ⟨q, hq, hmin⟩ := Set.exists_min_image _ id hfin ⟨0, Or.inl rfl⟩
  exact ⟨q, hq, fun z hz => hmin z hz⟩

section
variable {D T P : ℕ} {wf : ℕ → ℕ → ℕ} {cap : ℕ → ℕ} {w : ℕ → ℚ} {R : ℕ → ℕ → ℚ} {flag : Bool} {alpha : ℚ}
  {limit : Option ℚ} {a0 : ℕ → ℕ → ℚ} {a raw o y e : ℕ → ℕ → ℕ → ℚ} {c : ℕ → ℕ → ℚ} {m : ℕ → Option ℕ} {u v : ℕ → ℚ} {δ : ℚ}

theorem roomy_raw (ht : IsKcTrace D T P wf cap w R flag alpha limit a0 a raw o y e c)
    (hroom : ∀ d < D, ∑ t ∈ Finset.range T, wf d t ≤ cap d) (j : ℕ) {t : ℕ} (htT : t < T) :
    ∑ d ∈ depts D wf t, damped flag alpha (fun i => raw i d t) j = 0 := by
  refine Finset.sum_eq_zero fun d hd => ?_
  have hd' := Finset.mem_filter.mp hd
  have hdD := Finset.mem_range.mp hd'.1
  have hz : ∀ i, raw i d t = 0 := fun i => roomy_message (hroom d hdD)
    (by simp [users, htT, hd'.2]) (ht.dept i d hdD t htT hd'.2)
  simp only [hz]
  induction j with
  | zero => unfold damped; split <;> simp
  | succ j ih => rw [damped]; split <;> simp_all

/-- The message from the coupling constraint of a team to an edge. -/
theorem roomy_coupling (ht : IsKcTrace D T P wf cap w R flag alpha limit a0 a raw o y e c)
    (hroom : ∀ d < D, ∑ t ∈ Finset.range T, wf d t ≤ cap d) (j : ℕ) {p t : ℕ} (hp : p < P) (htT : t < T) :
    ∃ q, IsLeast {q | q = 0 ∨ ∃ s < P, s ≠ p ∧ e j s t + w t = q} q ∧ o j p t = w t - q := by
  obtain ⟨q, hq⟩ := exists_least_rest P (fun s => s ≠ p) (fun s => e j s t + w t)
  have h1 := ht.coupling j p hp t htT
  rw [roomy_raw ht hroom j htT, add_zero] at h1
  exact ⟨q, hq, Num.fin.inj (h1.unique (coupling_project_message hp hq))⟩

theorem project_message (ht : IsKcTrace D T P wf cap w R flag alpha limit a0 a raw o y e c) (j : ℕ) {p t : ℕ} (hp : p < P) (htT : t < T) :
    ∃ q, IsLeast {q | q = 0 ∨ ∃ s < T, s ≠ t ∧ o j p s + R p s = q} q ∧ y j p t = -q := by
  obtain ⟨q, hq⟩ := exists_least_rest T (fun s => s ≠ t) (fun s => o j p s + R p s)
  refine ⟨q, hq, Num.fin.inj ((ht.project j p hp t htT).unique (atMostOne_message (Finset.mem_range.mpr htT) ?_))⟩
  simpa only [Finset.mem_range] using hq

/-- Bounds on the (shifted) messages from edges to coupling constraints: lower bound `x` outside of the assignment, upper bound `-x` inside. -/
def EdgeBound (T P : ℕ) (m : ℕ → Option ℕ) (w u : ℕ → ℚ) (f : ℕ → ℕ → ℚ) (x : ℚ) : Prop :=
  ∀ t < T, ∀ p < P, (m t ≠ some p → x ≤ f p t + w t - u t) ∧ (m t = some p → f p t + w t - u t ≤ -x)

/-- One half of an iteration. -/
theorem out_bound (ht : IsKcTrace D T P wf cap w R flag alpha limit a0 a raw o y e c)
    (hroom : ∀ d < D, ∑ t ∈ Finset.range T, wf d t ≤ cap d) (hpr : Prices T P (fun t p => w t + R p t) m u v δ)
    {j : ℕ} {x : ℚ} (he : EdgeBound T P m w u (e j) x) :
    ∀ t < T, ∀ p < P, (m t ≠ some p → min x 0 ≤ o j p t - w t + u t) ∧ (m t = some p → o j p t - w t + u t ≤ -min x δ) := by
  intro t htT p hp
  obtain ⟨q, hq, ho⟩ := roomy_coupling ht hroom j hp htT
  rw [ho]
  constructor
  · intro hne
    rcases hmt : m t with _ | p'
    · have := hq.2 (Or.inl rfl)
      rw [hpr.idle t htT hmt]
      exact (min_le_right _ _).trans (by linarith)
    · have hp' := hpr.assignment.lt t htT p' hmt
      have h1 := hq.2 (Or.inr ⟨p', hp', by rintro rfl; exact hne hmt, rfl⟩)
      have h2 := (he t htT p' hp').2 hmt
      exact (min_le_left _ _).trans (by linarith)
  · intro hmt
    rcases hq.1 with h0 | ⟨s, hs, hne, hs'⟩
    · have := hpr.team t htT (by rw [hmt]; simp)
      have := min_le_right x δ
      linarith
    · have h2 := (he t htT s hs).1 (by rw [hmt]; intro h; exact hne (Option.some.inj h).symm)
      have := min_le_left x δ
      linarith

theorem back_bound (ht : IsKcTrace D T P wf cap w R flag alpha limit a0 a raw o y e c)
    (hpr : Prices T P (fun t p => w t + R p t) m u v δ) (h0 : 0 ≤ δ)
    {j : ℕ} {x : ℚ} (ho : ∀ t < T, ∀ p < P, (m t ≠ some p → min x 0 ≤ o j p t - w t + u t) ∧ (m t = some p → o j p t - w t + u t ≤ -min x δ)) :
    ∀ t < T, ∀ p < P, (m t ≠ some p → min x 0 ≤ y j p t + v p) ∧ (m t = some p → y j p t + v p ≤ -(δ + min x 0)) := by
  intro t htT p hp
  obtain ⟨q, hq, hy⟩ := project_message ht j hp htT
  rw [hy]
  constructor
  · intro hne
    by_cases hf : ∃ s < T, m s = some p
    · obtain ⟨s, hs, hsp⟩ := hf
      have h1 := hq.2 (Or.inr ⟨s, hs, by rintro rfl; exact hne hsp, rfl⟩)
      have h2 := (ho s hs p hp).2 hsp
      have h3 := hpr.tight s hs p hsp
      have h4 : min x 0 ≤ min x δ := min_le_min_left _ h0
      linarith
    · rw [hpr.free p hp fun s hs he => hf ⟨s, hs, he⟩]
      have := hq.2 (Or.inl rfl)
      exact (min_le_right _ _).trans (by linarith)
  · intro hmt
    rcases hq.1 with hz | ⟨s, hs, hne, hs'⟩
    · have := hpr.project t htT p hmt
      have := min_le_right x 0
      linarith
    · have hms : m s ≠ some p := fun h => hne (hpr.assignment.inj s hs t htT p h hmt)
      have h2 := (ho s hs p hp).1 hms
      have h3 := hpr.slack s hs p hp hms
      linarith

theorem edge_bound (ht : IsKcTrace D T P wf cap w R flag alpha limit a0 a raw o y e c)
    (hroom : ∀ d < D, ∑ t ∈ Finset.range T, wf d t ≤ cap d) (hpr : Prices T P (fun t p => w t + R p t) m u v δ) (h0 : 0 ≤ δ) {B : ℚ}
    (hw : ∀ t < T, |w t| ≤ B) (hR : ∀ t < T, ∀ p, m t = some p → |R p t| ≤ B) (j : ℕ) : EdgeBound T P m w u (e j) (min δ (j * δ - B)) := by
  induction j with
  | zero =>
    intro t htT p hp
    rw [ht.edge_init p hp t htT]
    have hx : min δ (((0 : ℕ) : ℚ) * δ - B) ≤ -B := (min_le_right _ _).trans (by simp)
    have hw' := abs_le.mp (hw t htT)
    constructor
    · intro _
      have : u t ≤ 0 := by
        by_cases hmt : m t = none
        · rw [hpr.idle t htT hmt]
        · linarith [hpr.team t htT hmt]
      linarith
    · intro hmt
      have h1 := hpr.tight t htT p hmt
      have h2 := hpr.project t htT p hmt
      have hR' := abs_le.mp (hR t htT p hmt)
      linarith
  | succ j ih =>
    have hb := back_bound ht hpr h0 (out_bound ht hroom hpr ih)
    intro t htT p hp
    rw [ht.edge j p hp t htT]
    have hx : min δ (((j + 1 : ℕ) : ℚ) * δ - B) ≤ δ + min (min δ (j * δ - B)) 0 := by
      rcases le_total δ (j * δ - B) with h1 | h1
      · rw [min_eq_left h1, min_eq_right h0]
        exact (min_le_left _ _).trans (by linarith)
      · rw [min_eq_right h1]
        rcases le_total (j * δ - B) 0 with h2 | h2
        · rw [min_eq_left h2]
          refine (min_le_right _ _).trans ?_
          push_cast; linarith
        · rw [min_eq_right h2]
          exact (min_le_left _ _).trans (by linarith)
    constructor
    · intro hne
      have h1 := (hb t htT p hp).1 hne
      have h2 := hpr.slack t htT p hp hne
      linarith
    · intro hmt
      have h1 := (hb t htT p hp).2 hmt
      have h2 := hpr.tight t htT p hmt
      linarith

/-- The beliefs after enough iterations. -/
theorem pair_beliefs (ht : IsKcTrace D T P wf cap w R flag alpha limit a0 a raw o y e c)
    (hroom : ∀ d < D, ∑ t ∈ Finset.range T, wf d t ≤ cap d) (hpr : Prices T P (fun t p => w t + R p t) m u v δ) (h0 : 0 ≤ δ) {B : ℚ}
    (hw : ∀ t < T, |w t| ≤ B) (hR : ∀ t < T, ∀ p, m t = some p → |R p t| ≤ B) {K : ℕ} (hK : B + δ ≤ K * δ) :
    ∀ t < T, ∀ p < P, (m t = some p → o K p t + y K p t + R p t ≤ -(2 * δ)) ∧ (m t ≠ some p → δ ≤ o K p t + y K p t + R p t) := by
  have he := edge_bound ht hroom hpr h0 hw hR K
  rw [min_eq_left (by linarith)] at he
  have ho := out_bound ht hroom hpr he
  have hb := back_bound ht hpr h0 ho
  intro t htT p hp
  have o1 := ho t htT p hp
  have b1 := hb t htT p hp
  rw [min_eq_right h0, min_self] at o1
  rw [min_eq_right h0] at b1
  constructor
  · intro hmt
    have h1 := o1.2 hmt
    have h2 := b1.2 hmt
    have h3 := hpr.tight t htT p hmt
    linarith
  · intro hne
    have h1 := o1.1 hne
    have h2 := b1.1 hne
    have h3 := hpr.slack t htT p hp hne
    linarith
end
end Verif.Proofs
