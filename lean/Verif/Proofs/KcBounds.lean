import Mathlib.Algebra.Group.Subgroup.Basic
import Mathlib.Algebra.Group.Submonoid.BigOperators
import Mathlib.Data.Set.Finite.Lattice
import Mathlib.Data.Int.Interval
import Mathlib.Algebra.Order.BigOperators.Group.Finset
import Verif.Proofs.KcOptimal
import Verif.Proofs.KsatStable

/-! Bounds on the messages of the assignment solver that do not depend on the number of iterations. -/

namespace Verif.Proofs
open Verif Num Spec

/-- A finite message is a difference of two least costs. -/
theorem message_least {ι : Type} {vars : Finset ι} {valid : Finset ι → Prop} {x : ι → ℚ} {i : ι} {r : ℚ} (h : IsMessage vars valid x i (fin r)) :
    ∃ p q, IsLeast (costs vars valid x (fun S => i ∈ S)) p ∧ IsLeast (costs vars valid x (fun S => i ∉ S)) q ∧ r = p - q - x i := by
  obtain ⟨a, b, ha, hb, he⟩ := h
  rcases ha with ⟨-, rfl⟩ | ⟨p, rfl, hp⟩ <;> rcases hb with ⟨-, rfl⟩ | ⟨q, rfl, hq⟩
  · cases he
  · cases he
  · cases he
  · exact ⟨p, q, hp, hq, Num.fin.inj (by rw [he]; simp [Num.fin_sub])⟩

/-- Messages stay in every additive group that contains the incoming messages. -/
theorem message_mem {ι : Type} {vars : Finset ι} {valid : Finset ι → Prop} {x : ι → ℚ} {i : ι} {r : ℚ} (G : AddSubgroup ℚ)
    (h : IsMessage vars valid x i (fin r)) (hi : i ∈ vars) (hx : ∀ j ∈ vars, x j ∈ G) : r ∈ G := by
  obtain ⟨p, q, ⟨⟨S, s1, -, -, rfl⟩, -⟩, ⟨⟨S', s1', -, -, rfl⟩, -⟩, rfl⟩ := message_least h
  exact G.sub_mem (G.sub_mem (G.sum_mem fun j hj => hx j (s1 hj)) (G.sum_mem fun j hj => hx j (s1' hj))) (hx i hi)

/-- A capacity never asks for a team, and at most tells it what the others would pay for its place. -/
theorem capacity_message {wf : ℕ → ℕ} {T cap t : ℕ} {x : ℕ → ℚ} {r : ℚ} (ht : t ∈ users wf 0 T)
    (h : IsMessage (users wf 0 T) (Fits wf cap) x t (fin r)) : 0 ≤ r ∧ r ≤ ∑ s ∈ (users wf 0 T).erase t, max 0 (-x s) := by
  obtain ⟨p, q, hp, hq, rfl⟩ := message_least h
  obtain ⟨S, s1, s2, s3, s4⟩ := hp.1
  constructor
  · have : q ≤ p - x t := by
      refine hq.2 ⟨S.erase t, (Finset.erase_subset _ _).trans s1, (Finset.sum_le_sum_of_subset (Finset.erase_subset _ _)).trans s2, by simp, ?_⟩
      simp only [cost] at s4 ⊢
      rw [← s4, ← Finset.sum_erase_add S x s3]; ring
    linarith
  · have h1 : p ≤ x t := hp.2 ⟨{t}, by simpa using ht, (Finset.sum_le_sum_of_subset (by simpa using s3)).trans s2, by simp, by simp [cost]⟩
    obtain ⟨S', s1', -, s3', rfl⟩ := hq.1
    have h2 : -∑ s ∈ (users wf 0 T).erase t, max 0 (-x s) ≤ cost x S' := by
      have hsub : S' ⊆ (users wf 0 T).erase t := fun s hs => Finset.mem_erase.mpr ⟨fun e => s3' (e ▸ hs), s1' hs⟩
      have h3 : ∑ s ∈ S', max 0 (-x s) ≤ ∑ s ∈ (users wf 0 T).erase t, max 0 (-x s) :=
        Finset.sum_le_sum_of_subset_of_nonneg hsub fun _ _ _ => le_max_left _ _
      have h4 : -cost x S' ≤ ∑ s ∈ S', max 0 (-x s) := by
        unfold cost
        rw [← Finset.sum_neg_distrib]
        exact Finset.sum_le_sum fun s _ => le_max_right _ _
      linarith
    linarith

section
variable {D T P : ℕ} {wf : ℕ → ℕ → ℕ} {cap : ℕ → ℕ} {w : ℕ → ℚ} {R : ℕ → ℕ → ℚ} {flag : Bool} {alpha : ℚ}
  {limit : Option ℚ} {a0 : ℕ → ℕ → ℚ} {a raw o y e : ℕ → ℕ → ℕ → ℚ} {c : ℕ → ℕ → ℚ} {B : ℚ}
  (ht : IsKcTrace D T P wf cap w R flag alpha limit a0 a raw o y e c)
include ht

theorem kc_capacity (j : ℕ) {d t : ℕ} (hd : d < D) (htT : t < T) (hw : wf d t ≠ 0) :
    0 ≤ raw j d t ∧ raw j d t ≤ ∑ s ∈ (users (wf d) 0 T).erase t, max 0 (-a j d s) :=
  capacity_message (by simp [users, htT, hw]) (ht.dept j d hd t htT hw)

theorem kc_coupling (j : ℕ) {p t : ℕ} (hp : p < P) (htT : t < T) :
    ∃ q, IsLeast {q | q = 0 ∨ ∃ s < P, s ≠ p ∧ e j s t + (w t + ∑ d ∈ depts D wf t, damped flag alpha (fun i => raw i d t) j) = q} q ∧
      o j p t = (w t + ∑ d ∈ depts D wf t, damped flag alpha (fun i => raw i d t) j) - q := by
  obtain ⟨q, hq⟩ := exists_least_rest P (fun s => s ≠ p) (fun s => e j s t + (w t + ∑ d ∈ depts D wf t, damped flag alpha (fun i => raw i d t) j))
  exact ⟨q, hq, Num.fin.inj ((ht.coupling j p hp t htT).unique (coupling_project_message hp hq))⟩

/-- The message to a team is the least message of its pairs, cut off at the limit. -/
theorem kc_team (hP : 0 < P) (j : ℕ) {t : ℕ} (htT : t < T) :
    ∃ q, IsLeast {q | ∃ s < P, e (j + 1) s t = q} q ∧ c j t = limit.elim q (fun l => min l q) := by
  obtain ⟨q, hq⟩ : ∃ q, IsLeast {q | ∃ s < P, e (j + 1) s t = q} q := by
    obtain ⟨p, hp, hmin⟩ := Finset.exists_min_image (Finset.range P) (fun p => e (j + 1) p t) ⟨0, Finset.mem_range.mpr hP⟩
    exact ⟨_, ⟨p, Finset.mem_range.mp hp, rfl⟩, by rintro z ⟨s, hs, rfl⟩; exact hmin s (Finset.mem_range.mpr hs)⟩
  obtain ⟨v, h1, h2⟩ := ht.team j t htT
  have : v = q := Num.fin.inj (h1.unique (coupling_team_message hq))
  rw [this] at h2
  refine ⟨q, hq, ?_⟩
  cases limit with
  | none => exact h2
  | some l => exact h2

variable (ha : flag = true → 0 ≤ alpha ∧ alpha ≤ 1)
include ha

theorem kc_room_nonneg (j : ℕ) {d t : ℕ} (hd : d < D) (htT : t < T) (hw : wf d t ≠ 0) : 0 ≤ damped flag alpha (fun i => raw i d t) j := by
  have h1 : ∃ M : ℚ, 0 ≤ M ∧ ∀ i ≤ j, raw i d t ≤ M :=
    ⟨∑ i ∈ Finset.range (j + 1), raw i d t, Finset.sum_nonneg fun i _ => (kc_capacity ht i hd htT hw).1, fun i hi =>
      Finset.single_le_sum (f := fun i => raw i d t) (fun i _ => (kc_capacity ht i hd htT hw).1) (Finset.mem_range.mpr (by omega))⟩
  obtain ⟨M, hM0, hM⟩ := h1
  exact (damped_le ha le_rfl hM0 fun i hi => ⟨(kc_capacity ht i hd htT hw).1, hM i hi⟩).1

theorem kc_rooms_nonneg (j : ℕ) {t : ℕ} (htT : t < T) {S : Finset ℕ} (hS : S ⊆ depts D wf t) : 0 ≤ ∑ d ∈ S, damped flag alpha (fun i => raw i d t) j :=
  Finset.sum_nonneg fun d hd => by
    have := Finset.mem_filter.mp (hS hd)
    exact kc_room_nonneg ht ha j (Finset.mem_range.mp this.1) htT this.2

/-- A pair is at least as dear as its team alone. -/
theorem kc_pair_low (j : ℕ) {p t : ℕ} (hp : p < P) (htT : t < T) : w t ≤ o j p t := by
  obtain ⟨q, hq, e1⟩ := kc_coupling ht j hp htT
  have h1 : q ≤ 0 := hq.2 (Or.inl rfl)
  have h2 := kc_rooms_nonneg ht ha j htT (Finset.Subset.refl _)
  rw [e1]; linarith

theorem kc_project {E : ℚ} (hE : 0 ≤ E) (j : ℕ) {p t : ℕ} (hp : p < P) (htT : t < T) (h : ∀ s < T, s ≠ t → -(w s + R p s) ≤ E) :
    0 ≤ y j p t ∧ y j p t ≤ E := by
  obtain ⟨q, hq, e1⟩ := project_message ht j hp htT
  have h1 : q ≤ 0 := hq.2 (Or.inl rfl)
  refine ⟨by linarith, ?_⟩
  rcases hq.1 with h0 | ⟨s, hs, hne, h0⟩
  · linarith
  · have := kc_pair_low ht ha j hp hs
    have := h s hs hne
    linarith

/-- A message to a team stays below a limit that exceeds the cost of taking over some project. -/
theorem kc_team_lt (hP : 0 < P) {l : ℚ} (j : ℕ) {t : ℕ} (htT : t < T) {p : ℕ} (hp : p < P) (h1 : R p t < l)
    (h2 : ∀ s < T, s ≠ t → R p t - (w s + R p s) < l) : c j t < l := by
  obtain ⟨q, hq, e1⟩ := kc_team ht hP j htT
  have h3 := hq.2 ⟨p, hp, rfl⟩
  rw [ht.edge j p hp t htT] at h3
  obtain ⟨z, hz, e2⟩ := project_message ht j hp htT
  have h4 : q < l := by
    rcases hz.1 with h0 | ⟨s, hs, hne, h0⟩
    · linarith
    · have := kc_pair_low ht ha j hp hs
      have := h2 s hs hne
      linarith
  rw [e1]
  cases limit with
  | none => exact h4
  | some z => exact lt_of_le_of_lt (min_le_right _ _) h4

variable (hw : ∀ t < T, |w t| ≤ B) (hR : ∀ p < P, ∀ t < T, |R p t| ≤ B)
include hw hR

theorem kc_project_B (j : ℕ) {p t : ℕ} (hp : p < P) (htT : t < T) : 0 ≤ y j p t ∧ y j p t ≤ 2 * B := by
  have hB : 0 ≤ B := (abs_nonneg _).trans (hw t htT)
  refine kc_project ht ha (by linarith) j hp htT fun s hs _ => ?_
  have := abs_le.mp (hw s hs)
  have := abs_le.mp (hR p hp s hs)
  linarith

theorem kc_edge_B (j : ℕ) {p t : ℕ} (hp : p < P) (htT : t < T) : -B ≤ e j p t ∧ e j p t ≤ 3 * B := by
  have hB : 0 ≤ B := (abs_nonneg _).trans (hw t htT)
  cases j with
  | zero => rw [ht.edge_init p hp t htT]; constructor <;> linarith
  | succ j =>
    rw [ht.edge j p hp t htT]
    have h1 := kc_project_B ht ha hw hR j hp htT
    have h2 := abs_le.mp (hR p hp t htT)
    constructor <;> linarith

theorem kc_team_B (hP : 0 < P) (hl : ∀ l, limit = some l → 0 ≤ l) (j : ℕ) {t : ℕ} (htT : t < T) : -B ≤ c j t ∧ c j t ≤ 3 * B := by
  have hB : 0 ≤ B := (abs_nonneg _).trans (hw t htT)
  obtain ⟨q, hq, e1⟩ := kc_team ht hP j htT
  obtain ⟨s, hs, e2⟩ := hq.1
  have h := kc_edge_B ht ha hw hR (j + 1) hs htT
  rw [e2] at h
  rw [e1]
  cases limit with
  | none => exact h
  | some l =>
    have := hl l rfl
    exact ⟨le_min (by linarith) h.1, (min_le_right _ _).trans h.2⟩

variable (hP : 0 < P) (hl : ∀ l, limit = some l → 0 ≤ l) (h0 : ∀ d < D, ∀ t < T, wf d t ≠ 0 → -(2 * B) ≤ a0 d t)
include hP hl h0

theorem kc_in_B (j : ℕ) {d t : ℕ} (hd : d < D) (htT : t < T) (hwt : wf d t ≠ 0) : -(2 * B) ≤ a j d t := by
  cases j with
  | zero => rw [ht.init d hd t htT]; exact h0 d hd t htT hwt
  | succ j =>
    rw [ht.next j d hd t htT hwt]
    have h1 := (kc_team_B ht ha hw hR hP hl j htT).1
    have h2 := kc_rooms_nonneg ht ha j htT (Finset.erase_subset d (depts D wf t))
    have h3 := (abs_le.mp (hw t htT)).1
    linarith

theorem kc_room_B (j : ℕ) {d t : ℕ} (hd : d < D) (htT : t < T) (hwt : wf d t ≠ 0) :
    0 ≤ raw j d t ∧ raw j d t ≤ 2 * B * (T - 1) := by
  have hB : 0 ≤ B := (abs_nonneg _).trans (hw t htT)
  obtain ⟨h1, h2⟩ := kc_capacity ht j hd htT hwt
  refine ⟨h1, h2.trans ?_⟩
  have h3 : ∑ s ∈ (users (wf d) 0 T).erase t, max 0 (-a j d s) ≤ ((users (wf d) 0 T).erase t).card • (2 * B) := by
    refine Finset.sum_le_card_nsmul _ _ _ fun s hs => ?_
    have hs := Finset.mem_filter.mp (Finset.mem_of_mem_erase hs)
    exact max_le (by linarith) (by linarith [kc_in_B ht ha hw hR hP hl h0 j hd (Finset.mem_range.mp hs.1) hs.2.2])
  refine h3.trans ?_
  rw [nsmul_eq_mul, mul_comm]
  refine mul_le_mul_of_nonneg_left ?_ (by linarith)
  have hmem : t ∈ users (wf d) 0 T := by simp [users, htT, hwt]
  rw [Finset.card_erase_of_mem hmem, Nat.cast_sub (Finset.card_pos.mpr ⟨t, hmem⟩)]
  have : (users (wf d) 0 T).card ≤ T := (Finset.card_filter_le _ _).trans (by simp)
  have : ((users (wf d) 0 T).card : ℚ) ≤ T := by exact_mod_cast this
  push_cast; linarith

theorem kc_rooms_B (h2 : ∀ t < T, (depts D wf t).card ≤ 2) (j : ℕ) {t : ℕ} (htT : t < T) :
    0 ≤ ∑ d ∈ depts D wf t, damped flag alpha (fun i => raw i d t) j ∧
    ∑ d ∈ depts D wf t, damped flag alpha (fun i => raw i d t) j ≤ 4 * B * (T - 1) := by
  have hB : 0 ≤ B := (abs_nonneg _).trans (hw t htT)
  have hT : (0 : ℚ) ≤ T - 1 := by have : (1 : ℚ) ≤ T := by exact_mod_cast (by omega : 1 ≤ T)
                                  linarith
  have hM : 0 ≤ 2 * B * (T - 1) := mul_nonneg (by linarith) hT
  refine ⟨kc_rooms_nonneg ht ha j htT (Finset.Subset.refl _), ?_⟩
  refine (Finset.sum_le_card_nsmul _ _ (2 * B * (T - 1)) fun d hd => ?_).trans ?_
  · have hd := Finset.mem_filter.mp hd
    exact (damped_le ha le_rfl hM fun i _ => kc_room_B ht ha hw hR hP hl h0 i (Finset.mem_range.mp hd.1) htT hd.2).2
  · rw [nsmul_eq_mul]
    have : ((depts D wf t).card : ℚ) ≤ 2 := by exact_mod_cast h2 t htT
    nlinarith

theorem kc_pair_B (h2 : ∀ t < T, (depts D wf t).card ≤ 2) (j : ℕ) {p t : ℕ} (hp : p < P) (htT : t < T) :
    -B ≤ o j p t ∧ o j p t ≤ B + 4 * B * (T - 1) := by
  have h3 := kc_pair_low ht ha j hp htT
  have h4 := abs_le.mp (hw t htT)
  have h5 := kc_rooms_B ht ha hw hR hP hl h0 h2 j htT
  refine ⟨by linarith, ?_⟩
  obtain ⟨q, hq, e1⟩ := kc_coupling ht j hp htT
  rw [e1]
  rcases hq.1 with h | ⟨s, hs, -, h⟩
  · linarith
  · have := (kc_edge_B ht ha hw hR j hs htT).1
    linarith

end

/-! ### Finitely many states -/

/-- A finite family of rationals has a common denominator. -/
theorem common_denominator (S : Finset ℚ) : ∃ N : ℕ, 0 < N ∧ ∀ x ∈ S, ∃ z : ℤ, x = z / N := by
  induction S using Finset.induction_on with
  | empty => exact ⟨1, one_pos, by simp⟩
  | insert x S _ ih =>
    obtain ⟨N, hN, h⟩ := ih
    have hN' : (N : ℚ) ≠ 0 := by exact_mod_cast hN.ne'
    have hx : (x.den : ℚ) ≠ 0 := by exact_mod_cast x.den_nz
    refine ⟨x.den * N, Nat.mul_pos x.den_pos hN, fun v hv => ?_⟩
    rcases Finset.mem_insert.mp hv with rfl | hv
    · refine ⟨v.num * N, ?_⟩
      push_cast
      rw [mul_div_mul_right _ _ hN', Rat.num_div_den]
    · obtain ⟨z, rfl⟩ := h v hv
      refine ⟨z * x.den, ?_⟩
      push_cast
      rw [mul_comm (x.den : ℚ), mul_div_mul_right _ _ hx]

/-- The multiples of `1 / N`. -/
def grid (N : ℕ) : AddSubgroup ℚ where
  carrier := {x | ∃ z : ℤ, x = z / N}
  zero_mem' := ⟨0, by simp⟩
  add_mem' := by rintro _ _ ⟨x, rfl⟩ ⟨y, rfl⟩; exact ⟨x + y, by push_cast; ring⟩
  neg_mem' := by rintro _ ⟨x, rfl⟩; exact ⟨-x, by push_cast; ring⟩

theorem grid_finite {N : ℕ} (hN : 0 < N) (M : ℕ) : {x : ℚ | x ∈ grid N ∧ |x| ≤ M}.Finite := by
  have hN' : (0 : ℚ) < N := by exact_mod_cast hN
  refine ((Finset.Icc (-(M * N : ℤ)) (M * N)).finite_toSet.image (fun z : ℤ => (z : ℚ) / N)).subset ?_
  rintro x ⟨⟨z, rfl⟩, hx⟩
  refine ⟨z, ?_, rfl⟩
  rw [abs_le, le_div_iff₀ hN', div_le_iff₀ hN'] at hx
  simp only [Finset.coe_Icc, Set.mem_Icc]
  exact ⟨by have := hx.1; rw [neg_mul] at this; exact_mod_cast this, by exact_mod_cast hx.2⟩

section
variable {D T P : ℕ} {wf : ℕ → ℕ → ℕ} {cap : ℕ → ℕ} {w : ℕ → ℚ} {R : ℕ → ℕ → ℚ} {flag : Bool} {alpha : ℚ}
  {limit : Option ℚ} {a0 : ℕ → ℕ → ℚ} {a raw o y e : ℕ → ℕ → ℕ → ℚ} {c : ℕ → ℕ → ℚ}

theorem damped_off (hoff : flag = false ∨ alpha = 0) (r : ℕ → ℚ) (j : ℕ) : damped flag alpha r j = r j := by
  rcases hoff with rfl | rfl
  · simp [damped]
  · cases flag with
    | false => simp [damped]
    | true => cases j <;> simp [damped]

/-- Without damping all messages stay in the group generated by the costs. -/
theorem kc_trace_mem (ht : IsKcTrace D T P wf cap w R flag alpha limit a0 a raw o y e c) (hoff : flag = false ∨ alpha = 0) (G : AddSubgroup ℚ)
    (hw : ∀ t < T, w t ∈ G) (hR : ∀ p < P, ∀ t < T, R p t ∈ G) (hl : ∀ l, limit = some l → l ∈ G)
    (h0 : ∀ d < D, ∀ t < T, wf d t ≠ 0 → a0 d t ∈ G) (j : ℕ) :
    (∀ d < D, ∀ t < T, wf d t ≠ 0 → a j d t ∈ G ∧ raw j d t ∈ G) ∧ (∀ p < P, ∀ t < T, e j p t ∈ G ∧ o j p t ∈ G ∧ y j p t ∈ G) := by
  have step : ∀ j, (∀ d < D, ∀ t < T, wf d t ≠ 0 → a j d t ∈ G) → (∀ p < P, ∀ t < T, e j p t ∈ G) →
      (∀ d < D, ∀ t < T, wf d t ≠ 0 → raw j d t ∈ G) ∧ (∀ t < T, w t + ∑ d ∈ depts D wf t, damped flag alpha (fun i => raw i d t) j ∈ G) ∧
      (∀ p < P, ∀ t < T, o j p t ∈ G) ∧ (∀ p < P, ∀ t < T, y j p t ∈ G) := by
    intro j h1 h2
    have hraw : ∀ d < D, ∀ t < T, wf d t ≠ 0 → raw j d t ∈ G := fun d hd t htT hwt =>
      message_mem G (ht.dept j d hd t htT hwt) (by simp [users, htT, hwt]) fun s hs => by
        have hs := Finset.mem_filter.mp hs
        exact h1 d hd s (Finset.mem_range.mp hs.1) hs.2.2
    have hA : ∀ t < T, w t + ∑ d ∈ depts D wf t, damped flag alpha (fun i => raw i d t) j ∈ G := fun t htT =>
      G.add_mem (hw t htT) (G.sum_mem fun d hd => by
        have hd := Finset.mem_filter.mp hd
        rw [damped_off hoff]
        exact hraw d (Finset.mem_range.mp hd.1) t htT hd.2)
    have ho : ∀ p < P, ∀ t < T, o j p t ∈ G := fun p hp t htT =>
      message_mem G (ht.coupling j p hp t htT) (by simp [couplingVars, hp]) fun s hs => by
        cases s with
        | none => exact hA t htT
        | some s => exact h2 s (by simpa [couplingVars] using hs) t htT
    refine ⟨hraw, hA, ho, fun p hp t htT => message_mem G (ht.project j p hp t htT) (by simpa using htT) fun s hs => ?_⟩
    have hs := Finset.mem_range.mp hs
    exact G.add_mem (ho p hp s hs) (hR p hp s hs)
  have main : (∀ d < D, ∀ t < T, wf d t ≠ 0 → a j d t ∈ G) ∧ (∀ p < P, ∀ t < T, e j p t ∈ G) := by
    induction j with
    | zero => exact ⟨fun d hd t htT hwt => by rw [ht.init d hd t htT]; exact h0 d hd t htT hwt, fun p hp t htT => by rw [ht.edge_init p hp t htT]; exact G.zero_mem⟩
    | succ j ih =>
      obtain ⟨h1, h2, -, h4⟩ := step j ih.1 ih.2
      have he : ∀ p < P, ∀ t < T, e (j + 1) p t ∈ G := fun p hp t htT => by rw [ht.edge j p hp t htT]; exact G.add_mem (hR p hp t htT) (h4 p hp t htT)
      refine ⟨fun d hd t htT hwt => ?_, he⟩
      have hc : c j t ∈ G := by
        obtain ⟨v, hv, hc⟩ := ht.team j t htT
        have hv : v ∈ G := message_mem G hv (by simp [couplingVars]) fun s hs => by
          cases s with
          | none => exact h2 t htT
          | some s => exact he s (by simpa [couplingVars] using hs) t htT
        rw [hc]
        cases hlim : limit with
        | none => exact hv
        | some l => rcases min_choice l v with e | e <;> simp only [e]
                    · exact hl l hlim
                    · exact hv
      rw [ht.next j d hd t htT hwt]
      refine G.add_mem (G.add_mem (hw t htT) hc) (G.sum_mem fun d' hd' => ?_)
      have hd' := Finset.mem_filter.mp (Finset.mem_of_mem_erase hd')
      rw [damped_off hoff]
      exact h1 d' (Finset.mem_range.mp hd'.1) t htT hd'.2
  obtain ⟨h1, -, h3, h4⟩ := step j main.1 main.2
  exact ⟨fun d hd t htT hwt => ⟨main.1 d hd t htT hwt, h1 d hd t htT hwt⟩, fun p hp t htT => ⟨main.2 p hp t htT, h3 p hp t htT, h4 p hp t htT⟩⟩

/-- Without damping, two iterations have the same messages. -/
theorem kc_trace_repeats (ht : IsKcTrace D T P wf cap w R flag alpha limit a0 a raw o y e c) (hoff : flag = false ∨ alpha = 0) (hP : 0 < P)
    (hl : ∀ l, limit = some l → 0 ≤ l) :
    ∃ K K', K < K' ∧ (∀ d < D, ∀ t < T, wf d t ≠ 0 → raw K d t = raw K' d t) ∧ ∀ p < P, ∀ t < T, y K p t = y K' p t := by
  classical
  have ha : flag = true → 0 ≤ alpha ∧ alpha ≤ 1 := fun h => by
    rcases hoff with h' | h'
    · rw [h'] at h; cases h
    · rw [h']; exact ⟨le_rfl, zero_le_one⟩
  -- a bound on all costs and start messages
  obtain ⟨B, hw, hR, h0⟩ : ∃ B : ℚ, (∀ t < T, |w t| ≤ B) ∧ (∀ p < P, ∀ t < T, |R p t| ≤ B) ∧ ∀ d < D, ∀ t < T, wf d t ≠ 0 → -(2 * B) ≤ a0 d t := by
    refine ⟨∑ t ∈ Finset.range T, |w t| + ∑ x ∈ Finset.range P ×ˢ Finset.range T, |R x.1 x.2| + ∑ x ∈ Finset.range D ×ˢ Finset.range T, |a0 x.1 x.2|, ?_⟩
    have n1 : 0 ≤ ∑ t ∈ Finset.range T, |w t| := Finset.sum_nonneg fun _ _ => abs_nonneg _
    have n2 : 0 ≤ ∑ x ∈ Finset.range P ×ˢ Finset.range T, |R x.1 x.2| := Finset.sum_nonneg fun _ _ => abs_nonneg _
    have n3 : 0 ≤ ∑ x ∈ Finset.range D ×ˢ Finset.range T, |a0 x.1 x.2| := Finset.sum_nonneg fun _ _ => abs_nonneg _
    refine ⟨fun t htT => ?_, fun p hp t htT => ?_, fun d hd t htT _ => ?_⟩
    · have := Finset.single_le_sum (f := fun t => |w t|) (fun _ _ => abs_nonneg _) (Finset.mem_range.mpr htT)
      linarith
    · have := Finset.single_le_sum (f := fun x : ℕ × ℕ => |R x.1 x.2|) (fun _ _ => abs_nonneg _)
        (Finset.mem_product.mpr ⟨Finset.mem_range.mpr hp, Finset.mem_range.mpr htT⟩ : (p, t) ∈ Finset.range P ×ˢ Finset.range T)
      simp only at this
      linarith
    · have := Finset.single_le_sum (f := fun x : ℕ × ℕ => |a0 x.1 x.2|) (fun _ _ => abs_nonneg _)
        (Finset.mem_product.mpr ⟨Finset.mem_range.mpr hd, Finset.mem_range.mpr htT⟩ : (d, t) ∈ Finset.range D ×ˢ Finset.range T)
      simp only at this
      have := neg_abs_le (a0 d t)
      linarith
  -- a common denominator
  obtain ⟨N, hN, hden⟩ := common_denominator ((Finset.range T).image w ∪ (Finset.range P ×ˢ Finset.range T).image (fun x => R x.1 x.2) ∪
    (Finset.range D ×ˢ Finset.range T).image (fun x => a0 x.1 x.2) ∪ limit.toFinset)
  have hmem := kc_trace_mem ht hoff (grid N)
    (fun t htT => hden _ (by simp only [Finset.mem_union, Finset.mem_image]; exact Or.inl (Or.inl (Or.inl ⟨t, Finset.mem_range.mpr htT, rfl⟩))))
    (fun p hp t htT => hden _ (by
      simp only [Finset.mem_union, Finset.mem_image]
      exact Or.inl (Or.inl (Or.inr ⟨(p, t), Finset.mem_product.mpr ⟨Finset.mem_range.mpr hp, Finset.mem_range.mpr htT⟩, rfl⟩))))
    (fun l hl => hden _ (by simp [hl]))
    (fun d hd t htT _ => hden _ (by
      simp only [Finset.mem_union, Finset.mem_image]
      exact Or.inl (Or.inr ⟨(d, t), Finset.mem_product.mpr ⟨Finset.mem_range.mpr hd, Finset.mem_range.mpr htT⟩, rfl⟩)))
  obtain ⟨M, hM⟩ := exists_nat_ge (max (2 * B * (T - 1)) (2 * B))
  have hM1 := (le_max_left _ _).trans hM
  have hM2 := (le_max_right _ _).trans hM
  let f : ℕ → (Fin D × Fin T) ⊕ (Fin P × Fin T) → ℚ := fun K =>
    Sum.elim (fun x => if wf x.1 x.2 ≠ 0 then raw K x.1 x.2 else 0) (fun x => y K x.1 x.2)
  have hf : ∀ K, f K ∈ Set.pi Set.univ (fun _ : (Fin D × Fin T) ⊕ (Fin P × Fin T) => {x : ℚ | x ∈ grid N ∧ |x| ≤ M}) := by
    rintro K (⟨d, t⟩ | ⟨p, t⟩) -
    · show (if wf d t ≠ 0 then raw K d t else 0) ∈ grid N ∧ |if wf d t ≠ 0 then raw K d t else 0| ≤ M
      split_ifs with hwt
      · have := kc_room_B ht ha hw hR hP hl h0 K d.2 t.2 hwt
        refine ⟨((hmem K).1 d d.2 t t.2 hwt).2, abs_le.mpr ⟨by linarith [this.1, Nat.cast_nonneg (α := ℚ) M], this.2.trans hM1⟩⟩
      · exact ⟨(grid N).zero_mem, by simp⟩
    · have := kc_project_B ht ha hw hR K p.2 t.2
      exact ⟨((hmem K).2 p p.2 t t.2).2.2, abs_le.mpr ⟨by show -(M : ℚ) ≤ y K p t; linarith [this.1, Nat.cast_nonneg (α := ℚ) M], this.2.trans hM2⟩⟩
  obtain ⟨K, K', hlt, heq⟩ := Set.Finite.exists_lt_map_eq_of_forall_mem hf (Set.Finite.pi fun _ => grid_finite hN M)
  refine ⟨K, K', hlt, fun d hd t htT hwt => ?_, fun p hp t htT => congrFun heq (Sum.inr (⟨p, hp⟩, ⟨t, htT⟩))⟩
  have := congrFun heq (Sum.inl (⟨d, hd⟩, ⟨t, htT⟩))
  simpa [f, hwt] using this

end

end Verif.Proofs
