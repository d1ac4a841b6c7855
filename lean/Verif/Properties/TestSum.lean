import Mathlib.Algebra.BigOperators.Ring.Finset
import Verif.Proofs.Ieee
import Verif.Proofs.TestSum

/-! # C98: the order of additions in the beliefs of the teams -/

namespace Verif.Properties
open Verif Num Spec Model Model.Rounded Finset

/-- C98, in full: the program test_EOP.cpp succeeds for all numbers of type `double` between 10 and 300, as it draws them. -/
def C98_claim : Prop :=
  ∀ (D n : ℕ) (bins : Mat Num) (oric : Arr Num) (B : ℕ → ℕ → ℚ) (o : ℕ → ℚ), bins.Is D n B → oric.Is n o →
    (∀ b < D, ∀ i < n, 10 ≤ B b i ∧ B b i ≤ 300 ∧ double (B b i) = fin (B b i)) → (∀ i < n, 10 ≤ o i ∧ o i ≤ 300 ∧ double (o i) = fin (o i)) →
    testEop double bins oric = some true

/-- C98 is false: with two rows the sums differ in the last bit. -/
theorem C98_claim_false : ¬ C98_claim := by
  intro h
  have h1 := h 2 1 ⟨2, 1, fun b _ => if b = 0 then fin (5629499534213121 / 562949953421312) else fin 250⟩
    ⟨1, fun _ => fin (2814749767106583 / 281474976710656)⟩ (fun b _ => if b = 0 then 5629499534213121 / 562949953421312 else 250)
    (fun _ => 2814749767106583 / 281474976710656) ⟨rfl, rfl, fun i _ j _ => by dsimp only; split_ifs <;> rfl⟩ ⟨rfl, fun _ _ => rfl⟩
    (by decide +kernel) (by decide +kernel)
  revert h1
  decide +kernel

section
variable {D n : ℕ} {bins : Mat Num} {oric : Arr Num} {B : ℕ → ℕ → ℚ} {o : ℕ → ℚ} (hB : bins.Is D n B) (ho : oric.Is n o)
include hB ho

/-- C98, when it succeeds: if the sums of the rows, with and without the last array, are not changed by rounding, in particular with exact arithmetic,
the program succeeds. -/
theorem C98_sums_partial {r : ℚ → Num} (h1 : ∀ i < n, ∀ k ≤ D, r (∑ b ∈ range k, B b i) = fin (∑ b ∈ range k, B b i))
    (h2 : ∀ i < n, ∀ k ≤ D, r (o i + ∑ b ∈ range k, B b i) = fin (o i + ∑ b ∈ range k, B b i)) : testEop r bins oric = some true := by
  obtain ⟨a, a1, a2, a3⟩ := Proofs.eopTransform_eq (r := r) (bins := bins) (oric := oric) (by rw [ho.1, hB.2.1])
  obtain ⟨d, d1, d2, d3⟩ := Proofs.eopDummy_eq (r := r) (bins := bins) (oric := oric) (by rw [ho.1, hB.2.1])
  unfold testEop
  rw [a1, d1]
  simp only [Option.bind_eq_bind, Option.bind_some, Option.some.injEq, List.all_eq_true, List.mem_range]
  intro i hi
  have hi' : i < n := by rw [← hB.2.1]; exact hi
  rw [a3 i hi, d3 i hi, hB.1, ho.2 i hi',
    Proofs.accum_exact (q := fun b => B b i) (fun k hk => hB.2.2 k hk i hi') (fun k hk => h2 i hi' (k + 1) hk),
    Proofs.accum_exact (q := fun b => B b i) (fun k hk => hB.2.2 k hk i hi') (fun k hk => by rw [zero_add]; exact h1 i hi' (k + 1) hk),
    zero_add, fin_add, rn, add_comm (∑ b ∈ range D, B b i), h2 i hi' D (le_refl D)]
  exact Proofs.eqNum_fin _

/-- C98, exact arithmetic: the program succeeds on all finite numbers. -/
theorem C98_exact : testEop fin bins oric = some true := C98_sums_partial hB ho (fun _ _ _ _ => rfl) (fun _ _ _ _ => rfl)

/-- C98, whole numbers: with multiples of a power of two whose magnitudes add up to at most `2 ^ p` times this power, a format with `p` bits succeeds. -/
theorem C98_whole_partial {p emax : ℕ} (hp : 1 ≤ p) {e : ℤ} (he : e + p ≤ emax) (he' : 2 - (emax : ℤ) - p ≤ e) {Z : ℕ → ℕ → ℤ} {z : ℕ → ℤ}
    (hZ : ∀ b < D, ∀ i < n, B b i = Z b i * 2 ^ e) (hz : ∀ i < n, o i = z i * 2 ^ e) (hs : ∀ i < n, |z i| + ∑ b ∈ range D, |Z b i| ≤ 2 ^ p) :
    testEop (ieee p emax) bins oric = some true := by
  have hk := Proofs.ieee_keeps hp he he'
  have hle : ∀ i < n, ∀ k ≤ D, |∑ b ∈ range k, Z b i| ≤ ∑ b ∈ range D, |Z b i| := fun i hi k hkD =>
    (abs_sum_le_sum_abs _ _).trans (sum_le_sum_of_subset_of_nonneg (range_mono hkD) fun _ _ _ => abs_nonneg _)
  have hsum : ∀ i < n, ∀ k ≤ D, ∑ b ∈ range k, B b i = ((∑ b ∈ range k, Z b i : ℤ) : ℚ) * 2 ^ e := by
    intro i hi k hkD
    push_cast
    rw [sum_mul]
    exact sum_congr rfl fun b hb => hZ b (by rw [mem_range] at hb; omega) i hi
  refine C98_sums_partial hB ho (fun i hi k hkD => ?_) (fun i hi k hkD => ?_)
  · rw [hsum i hi k hkD]
    refine hk _ ?_
    have := hs i hi; have := hle i hi k hkD; have := abs_nonneg (z i)
    push_cast; linarith
  · rw [hsum i hi k hkD, hz i hi, ← add_mul, ← Int.cast_add]
    refine hk _ ?_
    have := hs i hi; have := hle i hi k hkD; have := abs_add_le (z i) (∑ b ∈ range k, Z b i)
    push_cast; linarith

/-- C98, the difference: if every operation on numbers up to `M` has an error of at most `ε`, the two results of every entry differ by at most
`(2 D + 1) ε` for `D` rows. -/
theorem C98_error {r : ℚ → Num} {M ε : ℚ} (hr : Accurate r M ε) (he : 0 ≤ ε) (hM : ∀ i < n, |o i| + ∑ b ∈ range D, |B b i| + D * ε ≤ M) :
    ∃ (x y : Arr Num) (p q : ℕ → ℚ), eopTransform r bins oric = some x ∧ eopDummy r bins oric = some y ∧ x.Is n p ∧ y.Is n q ∧
      ∀ i < n, |p i - q i| ≤ (2 * D + 1) * ε ∧ |p i - (o i + ∑ b ∈ range D, B b i)| ≤ D * ε := by
  obtain ⟨x, a1, a2, a3⟩ := Proofs.eopTransform_eq (r := r) (bins := bins) (oric := oric) (by rw [ho.1, hB.2.1])
  obtain ⟨y, d1, d2, d3⟩ := Proofs.eopDummy_eq (r := r) (bins := bins) (oric := oric) (by rw [ho.1, hB.2.1])
  have hp : ∀ i, ∃ p, i < n → x.data i = fin p ∧ |p - (o i + ∑ b ∈ range D, B b i)| ≤ D * ε := by
    intro i
    by_cases hi : i < n
    · obtain ⟨p, h1, h2⟩ := Proofs.accum_error hr (x := o i) (q := fun b => B b i) (y := fun b => bins.data b i) (n := D)
        (fun k hk => hB.2.2 k hk i hi) (hM i hi) he
      exact ⟨p, fun _ => ⟨by rw [a3 i (by rw [hB.2.1]; exact hi), hB.1, ho.2 i hi, h1], h2⟩⟩
    · exact ⟨0, fun h => absurd h hi⟩
  have hq : ∀ i, ∃ q, i < n → y.data i = fin q ∧ |q - (o i + ∑ b ∈ range D, B b i)| ≤ (D + 1) * ε := by
    intro i
    by_cases hi : i < n
    · have hMi := hM i hi
      have h0 := abs_nonneg (o i)
      obtain ⟨s, h1, h2⟩ := Proofs.accum_error hr (x := 0) (q := fun b => B b i) (y := fun b => bins.data b i) (n := D)
        (fun k hk => hB.2.2 k hk i hi) (by rw [abs_zero]; linarith) he
      rw [zero_add] at h2
      have h3 : |s + o i| ≤ M := by
        have e : s + o i = (s - ∑ b ∈ range D, B b i) + (∑ b ∈ range D, B b i) + o i := by ring
        rw [e]
        have := abs_add_le (s - ∑ b ∈ range D, B b i + ∑ b ∈ range D, B b i) (o i)
        have := abs_add_le (s - ∑ b ∈ range D, B b i) (∑ b ∈ range D, B b i)
        have := abs_sum_le_sum_abs (fun b => B b i) (range D)
        linarith
      obtain ⟨q, h4, h5⟩ := hr.2 _ h3
      refine ⟨q, fun _ => ⟨by rw [d3 i (by rw [hB.2.1]; exact hi), hB.1, ho.2 i hi, h1, fin_add, rn, h4], ?_⟩⟩
      have e : q - (o i + ∑ b ∈ range D, B b i) = (q - (s + o i)) + (s - ∑ b ∈ range D, B b i) := by ring
      rw [e]
      have := abs_add_le (q - (s + o i)) (s - ∑ b ∈ range D, B b i)
      linarith
    · exact ⟨0, fun h => absurd h hi⟩
  choose p hp using hp
  choose q hq using hq
  refine ⟨x, y, p, q, a1, d1, ⟨by rw [a2, hB.2.1], fun i hi => (hp i hi).1⟩, ⟨by rw [d2, hB.2.1], fun i hi => (hq i hi).1⟩, fun i hi => ⟨?_, (hp i hi).2⟩⟩
  have e : p i - q i = (p i - (o i + ∑ b ∈ range D, B b i)) - (q i - (o i + ∑ b ∈ range D, B b i)) := by ring
  rw [e]
  have := abs_sub (p i - (o i + ∑ b ∈ range D, B b i)) (q i - (o i + ∑ b ∈ range D, B b i))
  have := (hp i hi).2
  have := (hq i hi).2
  linarith

/-- C98, the sizes of the program: with at most 100 rows of numbers up to 300 in `double` the results differ by less than `10 ^ -9`. -/
theorem C98_difference (hD : D ≤ 100) (hB' : ∀ b < D, ∀ i < n, |B b i| ≤ 300) (ho' : ∀ i < n, |o i| ≤ 300) :
    ∃ (x y : Arr Num) (p q : ℕ → ℚ), eopTransform double bins oric = some x ∧ eopDummy double bins oric = some y ∧ x.Is n p ∧ y.Is n q ∧
      ∀ i < n, |p i - q i| ≤ 1 / 10 ^ 9 := by
  have hac := Proofs.ieee_accurate (p := 53) (emax := 1023) (M := 2 ^ 15) (pow_le_pow_right₀ one_le_two (by norm_num)) (by norm_num) (by norm_num)
  have h15 : (2 : ℚ) ^ (1 - ((1023 : ℕ) : ℤ)) ≤ 2 ^ 15 := by
    rw [← zpow_natCast (2 : ℚ) 15]
    exact zpow_le_zpow_right₀ one_le_two (by norm_num)
  rw [max_eq_left h15, show (2 : ℚ) ^ 15 / 2 ^ 53 = 1 / 274877906944 by norm_num] at hac
  have hD' : (D : ℚ) ≤ 100 := by exact_mod_cast hD
  obtain ⟨x, y, p, q, h1, h2, h3, h4, h5⟩ := C98_error hB ho (r := double) hac (by norm_num) (fun i hi => by
    have : ∑ b ∈ range D, |B b i| ≤ ∑ _b ∈ range D, (300 : ℚ) := sum_le_sum fun b hb => hB' b (mem_range.mp hb) i hi
    rw [sum_const, card_range, nsmul_eq_mul] at this
    have := ho' i hi
    have h : (2 : ℚ) ^ 15 = 32768 := by norm_num
    rw [h]
    linarith)
  refine ⟨x, y, p, q, h1, h2, h3, h4, fun i hi => (h5 i hi).1.trans ?_⟩
  have h : (1 : ℚ) / 10 ^ 9 = 1 / 1000000000 := by norm_num
  rw [h]
  linarith

/-- C98, the Python program adds in the same order twice, so it succeeds with every rounding that keeps the numbers drawn and does not produce NaN, for
every number of rows but zero. -/
theorem C98_python {r : ℚ → Num} (hr : ∀ q, r q ≠ nan) (hD : 1 ≤ D) (hk : ∀ i < n, r (B 0 i) = fin (B 0 i)) : testEopPy r bins oric = some true := by
  obtain ⟨d, d1, d2, d3⟩ := Proofs.eopDummy_eq (r := r) (bins := bins) (oric := oric) (by rw [ho.1, hB.2.1])
  unfold testEopPy eopNumpy
  rw [if_pos ⟨by rw [ho.1, hB.2.1], by rw [hB.1]; exact hD⟩, d1]
  simp only [Option.bind_eq_bind, Option.bind_some, Option.some.injEq, List.all_eq_true, List.mem_range]
  intro i hi
  have hi' : i < n := by rw [← hB.2.1]; exact hi
  have e := Proofs.foldl_accum (r := r) (x := bins.data 0 i) (y := fun b => bins.data (b + 1) i) (bins.rows - 1)
  have h0 := hB.2.2 0 hD i hi'
  have e' := Proofs.accum_first (r := r) (y := fun b => bins.data b i) h0 (hk i hi') (bins.rows - 1)
  rw [Nat.sub_add_cancel (by rw [hB.1]; exact hD)] at e'
  rw [d3 i hi, e, e']
  refine Proofs.eqNum_self ?_
  have := Proofs.accum_not_nan hr (x := bins.data 0 i) (y := fun b => bins.data (b + 1) i) (n := bins.rows - 1) (by rw [h0]; simp)
    (fun k hk => ⟨B (k + 1) i, hB.2.2 (k + 1) (by rw [hB.1] at hk; omega) i hi'⟩)
  rw [ho.2 i hi']
  cases h : Proofs.accum r (bins.data 0 i) (fun b => bins.data (b + 1) i) (bins.rows - 1) with
  | nan => exact absurd h this
  | ninf => simp [rn]
  | pinf => simp [rn]
  | fin a => rw [fin_add, rn]; exact hr _

end

/-- C98, the library: the native solver computes the beliefs of the teams in the first way. -/
theorem C98_native {r : ℚ → Num} {ext : Mat Num} {o2t out : Arr Num} (h : out.size = o2t.size) (hc : ext.cols = o2t.size) :
    ∃ x y, kcExtrinsic r ext o2t out = some x ∧ eopTransform r ext o2t = some y ∧ x.toList = y.toList := by
  obtain ⟨y, y1, y2, y3⟩ := Proofs.eopTransform_eq (r := r) (bins := ext) (oric := o2t) hc.symm
  obtain ⟨x, x1, x2, x3⟩ := Proofs.eopTransform_eq (r := r) (bins := ext) (oric := ⟨out.size, fun i => if i < o2t.size then o2t.data i else out.data i⟩)
    (by rw [hc]; exact h)
  refine ⟨x, y, ?_, y1, ?_⟩
  · simp only [Rounded.kcExtrinsic, Arr.copyTo, Option.bind_eq_bind]
    rw [if_pos (by omega)]
    exact x1
  · unfold Arr.toList
    rw [x2, y2]
    refine List.map_congr_left fun i hi => ?_
    rw [List.mem_range] at hi
    rw [x3 i hi, y3 i hi]
    dsimp only
    rw [if_pos (by omega)]

/-- C98, NaN: if a number of some column is NaN, both programs fail, although both ways of adding have the same result. -/
theorem C98_nan {r : ℚ → Num} {bins : Mat Num} {oric : Arr Num} (hs : oric.size = bins.cols) (hD : 1 ≤ bins.rows) {i : ℕ} (hi : i < bins.cols)
    (h : oric.data i = nan ∨ ∃ b < bins.rows, bins.data b i = nan) : testEop r bins oric = some false ∧ testEopPy r bins oric = some false := by
  obtain ⟨a, a1, a2, a3⟩ := Proofs.eopTransform_eq (r := r) (bins := bins) (oric := oric) hs
  obtain ⟨d, d1, d2, d3⟩ := Proofs.eopDummy_eq (r := r) (bins := bins) (oric := oric) hs
  have hd : d.data i = nan := by
    rw [d3 i hi]
    rcases h with h | h
    · rw [h]
      cases Proofs.accum r (fin 0) (fun b => bins.data b i) bins.rows <;> rfl
    · rw [Proofs.accum_nan (Or.inr h)]
      cases oric.data i <;> rfl
  have hf : ∀ f : ℕ → Num, (List.range bins.cols).all (fun i => eqNum (d.data i) (f i)) = false := by
    intro f
    rw [List.all_eq_false]
    exact ⟨i, by simpa using hi, by simp [eqNum, hd]⟩
  constructor
  · simp only [testEop, a1, d1, Option.bind_eq_bind, Option.bind_some, hf]
  · unfold testEopPy eopNumpy
    rw [if_pos ⟨hs, hD⟩, d1]
    simp only [Option.bind_eq_bind, Option.bind_some, hf]

example : testEop fin ⟨1, 2, fun _ i => if i = 0 then fin 3 else nan⟩ ⟨2, fun _ => fin 1⟩ = some false ∧
    testEopPy fin ⟨1, 2, fun _ i => if i = 0 then fin 3 else nan⟩ ⟨2, fun _ => fin 1⟩ = some false := by decide +kernel

/-- Non-vacuity of C98: two rows on which the native program fails and the Python program succeeds, and whole numbers on which both succeed. -/
example : testEop double ⟨2, 1, fun b _ => if b = 0 then fin (5629499534213121 / 562949953421312) else fin 250⟩
      ⟨1, fun _ => fin (2814749767106583 / 281474976710656)⟩ = some false ∧
    testEopPy double ⟨2, 1, fun b _ => if b = 0 then fin (5629499534213121 / 562949953421312) else fin 250⟩
      ⟨1, fun _ => fin (2814749767106583 / 281474976710656)⟩ = some true ∧
    testEop double ⟨3, 2, fun b i => fin (10 + b + 7 * i)⟩ ⟨2, fun i => fin (20 + i)⟩ = some true := by decide +kernel

end Verif.Properties
