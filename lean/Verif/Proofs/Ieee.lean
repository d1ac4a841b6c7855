import Mathlib.Tactic.FieldSimp
import Mathlib.Tactic.Positivity
import Verif.Spec.Ieee
import Verif.Spec.Rounding

/-! Rounding in binary floating point formats. -/

namespace Verif.Proofs
open Verif Num Spec

theorem roundEven_int (z : ℤ) : roundEven z = z := by simp [roundEven]

theorem roundEven_near (x : ℚ) : |(roundEven x : ℚ) - x| ≤ 1 / 2 := by
  have h1 := Int.floor_le x
  have h2 := Int.lt_floor_add_one x
  unfold roundEven
  split
  · rw [abs_le]; constructor <;> linarith
  · split
    · push_cast; rw [abs_le]; constructor <;> linarith
    · split
      · rw [abs_le]; constructor <;> linarith
      · push_cast; rw [abs_le]; constructor <;> linarith

theorem spacing_pos (p emax : ℕ) (q : ℚ) : 0 < spacing p emax q := zpow_pos two_pos _

/-- Multiples of the spacing stay, if they are not too large. -/
theorem ieee_multiple {p emax : ℕ} {q : ℚ} (hq : |q| < 2 ^ (emax + 1)) {z : ℤ} (hz : q = z * spacing p emax q) : ieee p emax q = fin q := by
  have hs := spacing_pos p emax q
  have e : (roundEven (q / spacing p emax q) : ℚ) * spacing p emax q = q := by
    have : q / spacing p emax q = z := by rw [div_eq_iff hs.ne']; exact hz
    rw [this, roundEven_int, ← hz]
  unfold ieee
  simp only [e]
  obtain ⟨h1, h2⟩ := abs_lt.mp hq
  rw [if_neg (by linarith), if_neg (by linarith)]

/-- A format with `p` bits keeps the multiples of `2 ^ e` up to `2 ^ (p + e)`. -/
theorem ieee_keeps {p emax : ℕ} {e : ℤ} (hp : 1 ≤ p) (h1 : e + p ≤ emax) (h2 : 2 - (emax : ℤ) - p ≤ e) :
    KeepsMultiples (ieee p emax) (2 ^ e) (2 ^ p) := by
  intro z hz
  have hz' : |(z : ℚ)| ≤ 2 ^ p := by exact_mod_cast hz
  have hpos : (0 : ℚ) < 2 ^ e := zpow_pos two_pos _
  have habs : |(z : ℚ) * 2 ^ e| = |(z : ℚ)| * 2 ^ e := by rw [abs_mul, abs_of_pos hpos]
  have hle : |(z : ℚ) * 2 ^ e| ≤ 2 ^ (e + p) := by
    rw [habs, zpow_add₀ two_ne_zero, zpow_natCast, mul_comm ((2 : ℚ) ^ e)]
    exact mul_le_mul_of_nonneg_right hz' hpos.le
  have hlt : |(z : ℚ) * 2 ^ e| < 2 ^ (emax + 1) := by
    refine hle.trans_lt ?_
    rw [← zpow_natCast]
    exact zpow_lt_zpow_right₀ one_lt_two (by push_cast; omega)
  by_cases h0 : z = 0
  · subst h0
    exact ieee_multiple (z := 0) (by simp) (by simp)
  have hq0 : 0 < |(z : ℚ) * 2 ^ e| := by
    rw [abs_pos]
    exact mul_ne_zero (by exact_mod_cast h0) hpos.ne'
  set L := Int.log 2 |(z : ℚ) * 2 ^ e| with hL
  have hlog1 : (2 : ℚ) ^ L ≤ |(z : ℚ) * 2 ^ e| := by
    have := Int.zpow_log_le_self (b := 2) (r := |(z : ℚ) * 2 ^ e|) one_lt_two hq0
    exact_mod_cast this
  have hLe : L ≤ e + p := by
    have := hlog1.trans hle
    exact (zpow_le_zpow_iff_right₀ (one_lt_two (α := ℚ))).mp this
  -- the spacing is at most `2 ^ e`, or the number is an even multiple of it
  have hsp : spacing p emax (z * 2 ^ e) = 2 ^ (max L (1 - emax) + 1 - p) := rfl
  rcases eq_or_lt_of_le hLe with hE | hE
  · -- the largest multiple
    have hzp : |(z : ℚ)| = 2 ^ p := by
      refine le_antisymm hz' ?_
      rw [hE, habs, zpow_add₀ two_ne_zero, mul_comm, zpow_natCast] at hlog1
      exact le_of_mul_le_mul_right hlog1 hpos
    have hm : max L (1 - (emax : ℤ)) + 1 - p = e + 1 := by rw [hE]; omega
    rw [hm] at hsp
    have hzp' : |z| = 2 ^ p := by exact_mod_cast hzp
    have hdvd : (2 : ℤ) ∣ z := by
      rw [← dvd_abs, hzp']
      exact dvd_pow_self 2 (by omega)
    obtain ⟨y, rfl⟩ := hdvd
    refine ieee_multiple (z := y) hlt ?_
    rw [hsp, zpow_add₀ two_ne_zero]
    push_cast; ring
  · have hm : 0 ≤ e - (max L (1 - (emax : ℤ)) + 1 - p) := by omega
    obtain ⟨m, hm'⟩ := Int.eq_ofNat_of_zero_le hm
    refine ieee_multiple (z := z * 2 ^ m) hlt ?_
    rw [hsp]
    push_cast
    rw [mul_assoc, ← zpow_natCast (2 : ℚ) m, ← zpow_add₀ two_ne_zero]
    congr 2
    omega

/-- The error of a format with `p` bits. -/
theorem ieee_accurate {p emax : ℕ} {M : ℚ} (hM : M ≤ 2 ^ emax) (hp : 1 ≤ p) (he : 1 ≤ emax) :
    Accurate (ieee p emax) M (max M (2 ^ (1 - (emax : ℤ))) / 2 ^ p) := by
  have hzero : ieee p emax 0 = fin 0 := ieee_multiple (p := p) (emax := emax) (q := 0) (z := 0) (by simp) (by simp)
  refine ⟨hzero, fun q hq => ?_⟩
  have hnn : (0 : ℚ) ≤ max M (2 ^ (1 - (emax : ℤ))) / 2 ^ p := div_nonneg (le_max_of_le_right (zpow_pos two_pos _).le) (by positivity)
  by_cases h0 : q = 0
  · exact ⟨0, by rw [h0]; exact hzero, by rw [h0, sub_zero, abs_zero]; exact hnn⟩
  set s := spacing p emax q with hs
  have hpos : 0 < s := spacing_pos p emax q
  have herr : |(roundEven (q / s) : ℚ) * s - q| ≤ s / 2 := by
    have h := roundEven_near (q / s)
    have e : (roundEven (q / s) : ℚ) * s - q = ((roundEven (q / s) : ℚ) - q / s) * s := by field_simp
    rw [e, abs_mul, abs_of_pos hpos]
    linarith [mul_le_mul_of_nonneg_right h hpos.le]
  have hsmall : s / 2 ≤ max M (2 ^ (1 - (emax : ℤ))) / 2 ^ p := by
    have e : s / 2 = 2 ^ (max (Int.log 2 |q|) (1 - (emax : ℤ))) / 2 ^ p := by
      rw [hs, spacing, zpow_sub₀ two_ne_zero, zpow_add₀ two_ne_zero, zpow_natCast]
      simp only [zpow_one]; ring
    rw [e]
    refine div_le_div_of_nonneg_right ?_ (by positivity)
    rcases le_total (Int.log 2 |q|) (1 - (emax : ℤ)) with h | h
    · rw [max_eq_right h]; exact le_max_right _ _
    · rw [max_eq_left h]
      have := Int.zpow_log_le_self (b := 2) (r := |q|) one_lt_two (abs_pos.mpr h0)
      refine le_trans ?_ (le_max_left _ _)
      refine le_trans ?_ hq
      exact_mod_cast this
  have hbig : max M (2 ^ (1 - (emax : ℤ))) / 2 ^ p ≤ 2 ^ emax / 2 := by
    have h1 : max M (2 ^ (1 - (emax : ℤ))) ≤ 2 ^ emax := by
      refine max_le hM ?_
      rw [← zpow_natCast]
      exact zpow_le_zpow_right₀ one_le_two (by omega)
    have h2 : (2 : ℚ) ≤ 2 ^ p := by
      calc (2 : ℚ) = 2 ^ 1 := by norm_num
        _ ≤ 2 ^ p := pow_le_pow_right₀ one_le_two hp
    exact div_le_div₀ (by positivity) h1 two_pos h2
  have hE : (0 : ℚ) < 2 ^ emax := by positivity
  have hE2 : (2 : ℚ) ^ (emax + 1) = 2 * 2 ^ emax := by rw [pow_succ]; ring
  obtain ⟨a1, a2⟩ := abs_le.mp herr
  obtain ⟨b1, b2⟩ := abs_le.mp (hq.trans hM)
  refine ⟨_, ?_, herr.trans hsmall⟩
  unfold ieee
  simp only [← hs]
  rw [if_neg (by rw [hE2]; linarith), if_neg (by rw [hE2]; linarith)]

/-- `roundEven` is a nearest integer. -/
theorem roundEven_nearest (x : ℚ) (z : ℤ) : |(roundEven x : ℚ) - x| ≤ |z - x| := by
  have h := roundEven_near x
  by_cases e : z = roundEven x
  · rw [e]
  · have h1 : (1 : ℚ) ≤ |(z : ℚ) - roundEven x| := by
      have : 1 ≤ |z - roundEven x| := Int.one_le_abs (sub_ne_zero.mpr e)
      exact_mod_cast this
    have h2 : |(z : ℚ) - roundEven x| ≤ |(z : ℚ) - x| + |(roundEven x : ℚ) - x| := by
      rw [abs_sub_comm (roundEven x : ℚ) x]
      exact abs_sub_le _ _ _
    linarith

/-- The finite rounded number before the check for overflow. -/
def ieeeVal (p emax : ℕ) (q : ℚ) : ℚ := roundEven (q / spacing p emax q) * spacing p emax q

/-- No multiple of the spacing is nearer. -/
theorem ieeeVal_multiple (p emax : ℕ) (q : ℚ) (z : ℤ) : |ieeeVal p emax q - q| ≤ |z * spacing p emax q - q| := by
  have hs := spacing_pos p emax q
  have h := roundEven_nearest (q / spacing p emax q) z
  have e : ∀ y : ℚ, |y * spacing p emax q - q| = |y - q / spacing p emax q| * spacing p emax q := by
    intro y
    rw [← abs_of_pos hs, ← abs_mul, abs_of_pos hs, sub_mul, div_mul_cancel₀ _ hs.ne']
  rw [ieeeVal, e, e]
  exact mul_le_mul_of_nonneg_right h hs.le

/-- No number of the format is nearer. -/
theorem ieeeVal_nearest {p emax : ℕ} (hp : 1 ≤ p) (q : ℚ) {y : ℚ} (hy : FormatNumber p emax y) : |ieeeVal p emax q - q| ≤ |y - q| := by
  obtain ⟨z, e, h1, h2, rfl⟩ := hy
  set e0 := max (Int.log 2 |q|) (1 - (emax : ℤ)) + 1 - p with he0
  have hsp : spacing p emax q = 2 ^ e0 := rfl
  by_cases he : e0 ≤ e
  · obtain ⟨m, hm⟩ := Int.eq_ofNat_of_zero_le (sub_nonneg.mpr he)
    have := ieeeVal_multiple p emax q (z * 2 ^ m)
    have e1 : ((z * 2 ^ m : ℤ) : ℚ) * spacing p emax q = z * 2 ^ e := by
      rw [hsp]; push_cast
      rw [mul_assoc, ← zpow_natCast (2 : ℚ) m, ← zpow_add₀ two_ne_zero]
      congr 2
      omega
    rwa [e1] at this
  · have hlog : max (Int.log 2 |q|) (1 - (emax : ℤ)) = Int.log 2 |q| := by omega
    by_cases hq0 : q = 0
    · have := ieeeVal_multiple p emax q 0
      rw [Int.cast_zero, zero_mul, hq0, sub_zero, sub_zero, abs_zero] at this
      rw [hq0, sub_zero]
      exact this.trans (abs_nonneg _)
    set L := Int.log 2 |q| with hL
    have hLq : (2 : ℚ) ^ L ≤ |q| := by
      have := Int.zpow_log_le_self (b := 2) (r := |q|) one_lt_two (abs_pos.mpr hq0)
      exact_mod_cast this
    have hyL : |(z : ℚ) * 2 ^ e| ≤ 2 ^ L := by
      have hz : |(z : ℚ)| ≤ 2 ^ p := by exact_mod_cast h1.le
      rw [abs_mul, abs_of_pos (zpow_pos (two_pos (α := ℚ)) e)]
      calc |(z : ℚ)| * 2 ^ e ≤ 2 ^ p * 2 ^ e := mul_le_mul_of_nonneg_right hz (zpow_pos two_pos _).le
        _ = 2 ^ ((p : ℤ) + e) := by rw [zpow_add₀ two_ne_zero, zpow_natCast]
        _ ≤ 2 ^ L := zpow_le_zpow_right₀ one_le_two (by omega)
    have hpow : (2 : ℚ) ^ L = ((2 ^ (p - 1) : ℤ) : ℚ) * spacing p emax q := by
      rw [hsp]; push_cast
      rw [← zpow_natCast (2 : ℚ) (p - 1), ← zpow_add₀ two_ne_zero]
      congr 1
      omega
    rcases le_or_gt 0 q with hq | hq
    · rw [abs_of_nonneg hq] at hLq
      have := ieeeVal_multiple p emax q (2 ^ (p - 1))
      rw [← hpow, abs_sub_comm, abs_of_nonpos (by linarith : (2 : ℚ) ^ L - q ≤ 0), abs_sub_comm] at this
      have h3 := (abs_le.mp hyL).2
      rw [abs_of_nonpos (by linarith : (z : ℚ) * 2 ^ e - q ≤ 0)]
      linarith
    · rw [abs_of_neg hq] at hLq
      have := ieeeVal_multiple p emax q (-(2 ^ (p - 1)))
      have e1 : ((-(2 ^ (p - 1)) : ℤ) : ℚ) * spacing p emax q = -(2 ^ L) := by rw [hpow]; push_cast; ring
      rw [e1, abs_of_nonneg (by linarith : 0 ≤ -(2 : ℚ) ^ L - q)] at this
      have h3 := (abs_le.mp hyL).1
      rw [abs_of_nonneg (by linarith : 0 ≤ (z : ℚ) * 2 ^ e - q)]
      linarith

/-- The rounded number is a number of the format. -/
theorem ieeeVal_format {p emax : ℕ} (hp : 1 ≤ p) (q : ℚ) : FormatNumber p emax (ieeeVal p emax q) := by
  set e0 := max (Int.log 2 |q|) (1 - (emax : ℤ)) + 1 - p with he0
  have hsp : spacing p emax q = 2 ^ e0 := rfl
  have hs := spacing_pos p emax q
  have habs : |q| < 2 ^ p * spacing p emax q := by
    have h := Int.lt_zpow_succ_log_self (b := 2) one_lt_two |q|
    have h : |q| < 2 ^ (Int.log 2 |q| + 1) := by exact_mod_cast h
    refine h.trans_le ?_
    rw [hsp, ← zpow_natCast, ← zpow_add₀ two_ne_zero]
    exact zpow_le_zpow_right₀ one_le_two (by omega)
  have hle : |roundEven (q / spacing p emax q)| ≤ 2 ^ p := by
    have h1 : |q / spacing p emax q| < 2 ^ p := by rw [abs_div, abs_of_pos hs, div_lt_iff₀ hs]; exact habs
    have h2 := abs_lt.mp h1
    have h3 := abs_le.mp (roundEven_near (q / spacing p emax q))
    rw [abs_le]
    constructor
    · have : (-(2 ^ p) - 1 : ℚ) < roundEven (q / spacing p emax q) := by linarith
      have : (-(2 ^ p) - 1 : ℤ) < roundEven (q / spacing p emax q) := by exact_mod_cast this
      omega
    · have : (roundEven (q / spacing p emax q) : ℚ) < 2 ^ p + 1 := by linarith
      have : roundEven (q / spacing p emax q) < (2 ^ p + 1 : ℤ) := by exact_mod_cast this
      omega
  rcases eq_or_lt_of_le hle with h | h
  · have hd : (2 : ℤ) ∣ roundEven (q / spacing p emax q) := by
      rw [← dvd_abs, h]; exact dvd_pow_self 2 (by omega)
    obtain ⟨y, hy⟩ := hd
    refine ⟨y, e0 + 1, ?_, by omega, ?_⟩
    · rw [hy, abs_mul] at h
      have hpos : (0 : ℤ) < 2 ^ p := by positivity
      simp only [abs_two] at h
      omega
    · rw [ieeeVal, hy, hsp, zpow_add₀ two_ne_zero]
      push_cast; ring
  · exact ⟨_, e0, h, by omega, rfl⟩

/-- What rounding is: a nearest number of the format, or an infinity if this number is too large. -/
theorem ieee_spec {p emax : ℕ} (hp : 1 ≤ p) (q : ℚ) : ∃ x, FormatNumber p emax x ∧ (∀ y, FormatNumber p emax y → |x - q| ≤ |y - q|) ∧
    ieee p emax q = if 2 ^ (emax + 1) ≤ x then pinf else if x ≤ -2 ^ (emax + 1) then ninf else fin x :=
  ⟨ieeeVal p emax q, ieeeVal_format hp q, fun _ hy => ieeeVal_nearest hp q hy, rfl⟩

end Verif.Proofs
