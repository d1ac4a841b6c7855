import Mathlib.Topology.Instances.Rat
import Mathlib.Topology.Algebra.Order.Field
import Verif.Proofs.Param
import Verif.Spec.Rounding

/-! Families of numbers that tend to a number: a relation that is kept by roundings that become more accurate. -/

namespace Verif.Proofs
open Verif Num Filter Topology Spec

variable {ι : Type} {l : Filter ι} {α β γ α' β' γ' : Type}

/-- The numbers `b i` tend to `a`; if `a` is not finite, they are eventually equal to `a`. -/
def Lim (l : Filter ι) : Num → (ι → Num) → Prop
  | fin q, b => ∃ p : ι → ℚ, (∀ᶠ i in l, b i = fin (p i)) ∧ Tendsto p l (𝓝 q)
  | x, b => ∀ᶠ i in l, b i = x

/-- The roundings become arbitrarily accurate. -/
def Fine (l : Filter ι) (r : ι → ℚ → Num) : Prop := ∀ M, ∀ ε > 0, ∀ᶠ i in l, Accurate (r i) M ε

theorem Accurate.mono {r : ℚ → Num} {M ε M' ε' : ℚ} (h : Accurate r M ε) (hM : M' ≤ M) (hε : ε ≤ ε') : Accurate r M' ε' :=
  ⟨h.1, fun q hq => by obtain ⟨z, h1, h2⟩ := h.2 q (hq.trans hM); exact ⟨z, h1, h2.trans hε⟩⟩

theorem Lim.refl (a : Num) : Lim l a (fun _ => a) := by
  cases a with
  | fin q => exact ⟨fun _ => q, Eventually.of_forall fun _ => rfl, tendsto_const_nhds⟩
  | _ => exact Eventually.of_forall fun _ => rfl

theorem Lim.congr {a : Num} {b c : ι → Num} (h : Lim l a b) (he : ∀ᶠ i in l, b i = c i) : Lim l a c := by
  cases a with
  | fin q => obtain ⟨p, h1, h2⟩ := h; exact ⟨p, by filter_upwards [h1, he] with i e1 e2; rw [← e2, e1], h2⟩
  | _ => show ∀ᶠ i in l, c i = _; filter_upwards [h, he] with i e1 e2; rw [← e2, e1]

theorem Lim.neg {a : Num} {b : ι → Num} (h : Lim l a b) : Lim l (-a) (fun i => -b i) := by
  cases a with
  | fin q => obtain ⟨p, h1, h2⟩ := h; exact ⟨fun i => -p i, by filter_upwards [h1] with i e1; rw [e1]; rfl, h2.neg⟩
  | _ => show ∀ᶠ i in l, -b i = _; filter_upwards [h] with i e1; rw [e1] <;> rfl

theorem Lim.abs {a : Num} {b : ι → Num} (h : Lim l a b) : Lim l (Num.abs a) (fun i => Num.abs (b i)) := by
  cases a with
  | fin q => obtain ⟨p, h1, h2⟩ := h; exact ⟨fun i => |p i|, by filter_upwards [h1] with i e1; rw [e1]; rfl, h2.abs⟩
  | _ => show ∀ᶠ i in l, Num.abs (b i) = _; filter_upwards [h] with i e1; rw [e1] <;> rfl

theorem Lim.add {a a' : Num} {b b' : ι → Num} (h : Lim l a b) (h' : Lim l a' b') : Lim l (a + a') (fun i => b i + b' i) := by
  cases a <;> cases a'
  case fin.fin q q' =>
    obtain ⟨p, h1, h2⟩ := h; obtain ⟨p', h1', h2'⟩ := h'
    exact ⟨fun i => p i + p' i, by filter_upwards [h1, h1'] with i e1 e2; rw [e1, e2]; rfl, h2.add h2'⟩
  case fin.nan q => obtain ⟨p, h1, -⟩ := h; show ∀ᶠ i in l, _ = _; filter_upwards [h1, h'] with i e1 e2; rw [e1, e2]; rfl
  case fin.pinf q => obtain ⟨p, h1, -⟩ := h; show ∀ᶠ i in l, _ = _; filter_upwards [h1, h'] with i e1 e2; rw [e1, e2]; rfl
  case fin.ninf q => obtain ⟨p, h1, -⟩ := h; show ∀ᶠ i in l, _ = _; filter_upwards [h1, h'] with i e1 e2; rw [e1, e2]; rfl
  case nan.fin q => obtain ⟨p, h1, -⟩ := h'; show ∀ᶠ i in l, _ = _; filter_upwards [h1, h] with i e1 e2; rw [e1, e2]; rfl
  case pinf.fin q => obtain ⟨p, h1, -⟩ := h'; show ∀ᶠ i in l, _ = _; filter_upwards [h1, h] with i e1 e2; rw [e1, e2]; rfl
  case ninf.fin q => obtain ⟨p, h1, -⟩ := h'; show ∀ᶠ i in l, _ = _; filter_upwards [h1, h] with i e1 e2; rw [e1, e2]; rfl
  all_goals show ∀ᶠ i in l, _ = _; filter_upwards [h, h'] with i e1 e2; rw [e1, e2] <;> rfl

theorem Lim.sub {a a' : Num} {b b' : ι → Num} (h : Lim l a b) (h' : Lim l a' b') : Lim l (a - a') (fun i => b i - b' i) :=
  h.add h'.neg

theorem Lim.cmin {a a' : Num} {b b' : ι → Num} (h : Lim l a b) (h' : Lim l a' b') : Lim l (cmin a a') (fun i => cmin (b i) (b' i)) := by
  cases a <;> cases a'
  case fin.fin q q' =>
    obtain ⟨p, h1, h2⟩ := h; obtain ⟨p', h1', h2'⟩ := h'
    rw [cmin_fin]
    exact ⟨fun i => min (p i) (p' i), by filter_upwards [h1, h1'] with i e1 e2; rw [e1, e2, cmin_fin], h2.min h2'⟩
  case fin.nan q => obtain ⟨p, h1, h2⟩ := h; exact ⟨p, by filter_upwards [h1, h'] with i e1 e2; rw [e1, e2]; rfl, h2⟩
  case fin.pinf q => obtain ⟨p, h1, h2⟩ := h; exact ⟨p, by filter_upwards [h1, h'] with i e1 e2; rw [e1, e2]; rfl, h2⟩
  case fin.ninf q => obtain ⟨p, h1, -⟩ := h; show ∀ᶠ i in l, _ = _; filter_upwards [h1, h'] with i e1 e2; rw [e1, e2]; rfl
  case nan.fin q => obtain ⟨p, h1, -⟩ := h'; show ∀ᶠ i in l, _ = _; filter_upwards [h1, h] with i e1 e2; rw [e1, e2]; rfl
  case pinf.fin q => obtain ⟨p, h1, h2⟩ := h'; exact ⟨p, by filter_upwards [h1, h] with i e1 e2; rw [e1, e2]; rfl, h2⟩
  case ninf.fin q => obtain ⟨p, h1, -⟩ := h'; show ∀ᶠ i in l, _ = _; filter_upwards [h1, h] with i e1 e2; rw [e1, e2]; rfl
  all_goals show ∀ᶠ i in l, _ = _; filter_upwards [h, h'] with i e1 e2; rw [e1, e2] <;> rfl

/-- A weight that is eventually zero if its limit is zero. -/
theorem Lim.mul {a : Num} {b : ι → Num} {w : ℚ} {v : ι → ℚ} (h : Lim l a b) (hw : Tendsto v l (𝓝 w)) (h0 : w = 0 → ∀ᶠ i in l, v i = 0) :
    Lim l (a * fin w) (fun i => b i * fin (v i)) := by
  have hsign : ∀ s : Num, ∀ᶠ i in l, infMul s (v i) = infMul s w := by
    intro s
    rcases lt_trichotomy w 0 with hlt | heq | hgt
    · filter_upwards [hw.eventually_lt_const hlt] with i hi
      unfold infMul
      rw [if_neg hi.ne, if_neg (not_lt.mpr hi.le), if_neg hlt.ne, if_neg (not_lt.mpr hlt.le)]
    · filter_upwards [h0 heq] with i hi; rw [hi, heq]
    · filter_upwards [hw.eventually_const_lt hgt] with i hi
      unfold infMul
      rw [if_neg hi.ne', if_pos hi, if_neg hgt.ne', if_pos hgt]
  have hcon : ∀ (x : Num) (c : ι → Num), (∀ᶠ i in l, c i = x) → Lim l x c := fun x c hc => (Lim.refl x).congr (by
    filter_upwards [hc] with i e; exact e.symm)
  cases a with
  | fin q =>
    obtain ⟨p, h1, h2⟩ := h
    exact ⟨fun i => p i * v i, by filter_upwards [h1] with i e1; rw [e1]; rfl, h2.mul hw⟩
  | nan => refine hcon _ _ ?_; filter_upwards [h] with i e1; rw [e1]; rfl
  | pinf => refine hcon _ _ ?_; filter_upwards [h, hsign pinf] with i e1 e2; rw [e1]; exact e2
  | ninf => refine hcon _ _ ?_; filter_upwards [h, hsign ninf] with i e1 e2; rw [e1]; exact e2

/-- The rational number of a finite number. -/
def ratOf : Num → ℚ
  | fin q => q
  | _ => 0

theorem tendsto_rounded {r : ι → ℚ → Num} (hr : Fine l r) {p : ι → ℚ} {q : ℚ} (h : Tendsto p l (𝓝 q)) :
    (∀ᶠ i in l, r i (p i) = fin (ratOf (r i (p i)))) ∧ Tendsto (fun i => ratOf (r i (p i))) l (𝓝 q) := by
  rw [(nhds_basis_abs_sub_lt q).tendsto_right_iff] at h ⊢
  have key : ∀ ε > 0, ∀ᶠ i in l, r i (p i) = fin (ratOf (r i (p i))) ∧ |ratOf (r i (p i)) - q| < ε := by
    intro ε hε
    have h2 : 0 < ε / 2 := by linarith
    filter_upwards [h (ε / 2) h2, hr (|q| + ε) (ε / 3) (by linarith)] with i h1 h3
    have h1 : |p i - q| < ε / 2 := h1
    have h4 : |p i| ≤ |q| + ε := by
      have := abs_sub_abs_le_abs_sub (p i) q
      linarith
    obtain ⟨z, hz, h5⟩ := h3.2 _ h4
    rw [hz]
    have h5 := abs_le.mp h5
    have h6 := abs_lt.mp h1
    refine ⟨rfl, ?_⟩
    show |z - q| < ε
    rw [abs_lt]
    constructor <;> linarith [h5.1, h5.2, h6.1, h6.2]
  refine ⟨?_, fun ε hε => ?_⟩
  · filter_upwards [key 1 one_pos] with i hi using hi.1
  · filter_upwards [key ε hε] with i hi using hi.2

theorem Lim.rn {r : ι → ℚ → Num} (hr : Fine l r) {a : Num} {b : ι → Num} (h : Lim l a b) :
    Lim l a (fun i => Model.Rounded.rn (r i) (b i)) := by
  cases a with
  | fin q =>
    obtain ⟨p, h1, h2⟩ := h
    obtain ⟨h3, h4⟩ := tendsto_rounded hr h2
    exact ⟨_, by filter_upwards [h1, h3] with i e1 e3; rw [e1]; exact e3, h4⟩
  | _ => show ∀ᶠ i in l, _ = _; filter_upwards [h] with i e1; rw [e1]; rfl

/-- Comparisons are eventually the same unless the limits are equal. -/
theorem Lim.lt {a a' : Num} {b b' : ι → Num} (h : Lim l a b) (h' : Lim l a' b') (hne : ∀ q, a = fin q → a' ≠ fin q) :
    ∀ᶠ i in l, Num.lt (b i) (b' i) = Num.lt a a' := by
  cases a <;> cases a'
  case fin.fin q q' =>
    obtain ⟨p, h1, h2⟩ := h; obtain ⟨p', h1', h2'⟩ := h'
    have hne : q ≠ q' := fun e => hne q rfl (by rw [e])
    rcases lt_or_gt_of_ne hne with hlt | hgt
    · filter_upwards [h1, h1', h2.eventually_lt h2' hlt] with i e1 e2 e3
      rw [e1, e2, lt_fin, lt_fin, decide_eq_true e3, decide_eq_true hlt]
    · filter_upwards [h1, h1', h2'.eventually_lt h2 hgt] with i e1 e2 e3
      rw [e1, e2, lt_fin, lt_fin, decide_eq_false (not_lt.mpr e3.le), decide_eq_false (not_lt.mpr hgt.le)]
  case fin.nan q => obtain ⟨p, h1, h2⟩ := h; filter_upwards [h1, h'] with i e1 e2; rw [e1, e2]; rfl
  case fin.pinf q => obtain ⟨p, h1, h2⟩ := h; filter_upwards [h1, h'] with i e1 e2; rw [e1, e2]; rfl
  case fin.ninf q => obtain ⟨p, h1, -⟩ := h; filter_upwards [h1, h'] with i e1 e2; rw [e1, e2]; rfl
  case nan.fin q => obtain ⟨p, h1, -⟩ := h'; filter_upwards [h1, h] with i e1 e2; rw [e1, e2]; rfl
  case pinf.fin q => obtain ⟨p, h1, h2⟩ := h'; filter_upwards [h1, h] with i e1 e2; rw [e1, e2]; rfl
  case ninf.fin q => obtain ⟨p, h1, -⟩ := h'; filter_upwards [h1, h] with i e1 e2; rw [e1, e2]; rfl
  all_goals filter_upwards [h, h'] with i e1 e2; rw [e1, e2]

theorem Lim.ne {a : Num} {b : ι → Num} (h : Lim l a b) {c : Num} (hc : a ≠ c) : ∀ᶠ i in l, b i ≠ c := by
  cases a with
  | fin q =>
    obtain ⟨p, h1, h2⟩ := h
    cases c with
    | fin q' =>
      have hne : q ≠ q' := fun e => hc (by rw [e])
      filter_upwards [h1, h2.eventually_ne hne] with i e1 e2
      rw [e1]; exact fun h => e2 (by simpa using h)
    | _ => filter_upwards [h1] with i e1; rw [e1]; simp
  | _ => filter_upwards [h] with i e1; rw [e1]; exact hc

theorem calc_lim {r : ι → ℚ → Num} (hr : Fine l r) : Calc l r (Lim l) where
  congr := Lim.congr
  zero := Lim.refl _
  pinf := Lim.refl _
  neg := Lim.neg
  cmin := Lim.cmin
  add := fun h h' => (h.add h').rn hr
  ne := fun h _ hc => h.ne hc

theorem damps_lim {r : ι → ℚ → Num} (hr : Fine l r) (flag : Bool) (alpha : ℚ) : Damps r (Lim l) flag alpha := by
  intro _ _ a b h
  constructor
  · obtain ⟨h1, h2⟩ := tendsto_rounded hr (tendsto_const_nhds (x := 1 - alpha))
    refine Lim.rn hr ((h.mul h2 fun h0 => ?_).congr ?_)
    · filter_upwards [hr 0 1 one_pos] with i hi
      rw [h0, hi.1]; rfl
    · filter_upwards [h1] with i e1
      show b i * fin (ratOf (r i (1 - alpha))) = b i * r i (1 - alpha)
      rw [← e1]
  · exact (h.mul tendsto_const_nhds fun h0 => Eventually.of_forall fun _ => h0).rn hr

end Verif.Proofs
