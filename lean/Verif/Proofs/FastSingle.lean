import Verif.Proofs.Ieee
import Mathlib.Data.Nat.Log

/-! Single precision on whole numbers, in a form that is cheap to evaluate. -/

namespace Verif.Proofs
open Verif Num Spec

/-- The integer nearest to `z / s`; of two nearest ones, the even one. -/
def divEven (z : ℤ) (s : ℕ) : ℤ :=
  if 2 * (z % (s : ℤ)) < s then z / s else if (s : ℤ) < 2 * (z % (s : ℤ)) then z / s + 1 else if z / s % 2 = 0 then z / s else z / s + 1

/-- `single` on numbers of more than 24 bits. -/
def cutSingle (z : ℤ) (s : ℕ) : Num :=
  if 2 ^ 128 ≤ divEven z s * s then pinf else if divEven z s * s ≤ -2 ^ 128 then ninf else fin ((divEven z s * s : ℤ) : ℚ)

/-- `single` by integer arithmetic on whole numbers. -/
def fastSingle (q : ℚ) : Num :=
  if q.den = 1 then if q.num.natAbs ≤ 2 ^ 24 then fin q else cutSingle q.num (2 ^ (Nat.log2 q.num.natAbs - 23)) else single q

theorem divEven_eq {z : ℤ} {s : ℕ} (hs : 0 < s) : roundEven ((z : ℚ) / s) = divEven z s := by
  have hsq : (0 : ℚ) < s := by exact_mod_cast hs
  have hfl : ⌊(z : ℚ) / s⌋ = z / (s : ℤ) := Rat.floor_intCast_div_natCast z s
  have hfrac : (z : ℚ) / s - ((z / (s : ℤ) : ℤ) : ℚ) = ((z % (s : ℤ) : ℤ) : ℚ) / s := by
    rw [sub_eq_iff_eq_add, div_eq_iff hsq.ne', add_mul, div_mul_cancel₀ _ hsq.ne']
    have := Int.emod_add_mul_ediv z s
    rw [mul_comm] at this
    exact_mod_cast this.symm
  have h1 : ((z % (s : ℤ) : ℤ) : ℚ) / s < 1 / 2 ↔ 2 * (z % (s : ℤ)) < s := by
    rw [div_lt_iff₀ hsq]
    constructor
    · intro h
      have : (2 : ℚ) * ((z % (s : ℤ) : ℤ) : ℚ) < s := by linarith
      exact_mod_cast this
    · intro h
      have : (2 : ℚ) * ((z % (s : ℤ) : ℤ) : ℚ) < s := by exact_mod_cast h
      linarith
  have h2 : 1 / 2 < ((z % (s : ℤ) : ℤ) : ℚ) / s ↔ (s : ℤ) < 2 * (z % (s : ℤ)) := by
    rw [lt_div_iff₀ hsq]
    constructor
    · intro h
      have : (s : ℚ) < 2 * ((z % (s : ℤ) : ℤ) : ℚ) := by linarith
      exact_mod_cast this
    · intro h
      have : (s : ℚ) < 2 * ((z % (s : ℤ) : ℤ) : ℚ) := by exact_mod_cast h
      linarith
  unfold roundEven divEven
  rw [hfl, hfrac]
  simp only [h1, h2]

theorem fastSingle_eq : single = fastSingle := by
  funext q
  unfold fastSingle
  by_cases hden : q.den = 1
  · rw [if_pos hden]
    obtain ⟨z, rfl⟩ : ∃ z : ℤ, q = z := ⟨q.num, (Rat.coe_int_num_of_den_eq_one hden).symm⟩
    by_cases hz : z.natAbs ≤ 2 ^ 24
    · rw [if_pos (by rw [Rat.num_intCast]; exact hz)]
      have h := ieee_keeps (p := 24) (emax := 127) (e := 0) (by norm_num) (by norm_num) (by norm_num) z
        (by rw [Int.abs_eq_natAbs]; exact_mod_cast hz)
      simpa [single] using h
    · rw [if_neg (by rw [Rat.num_intCast]; exact hz), Rat.num_intCast]
      generalize hnd : z.natAbs = n at hz
      have hlog : 23 ≤ Nat.log 2 n := (Nat.le_log_iff_pow_le one_lt_two (by omega)).mpr (by omega)
      have habs : |(z : ℚ)| = (n : ℚ) := by rw [← hnd, ← Int.cast_abs, Int.abs_eq_natAbs]; simp
      have hsp : spacing 24 127 (z : ℚ) = ((2 ^ (Nat.log2 n - 23) : ℕ) : ℚ) := by
        unfold spacing
        rw [habs, Int.log_natCast, Nat.log2_eq_log_two, max_eq_left (by omega), Nat.cast_pow, ← zpow_natCast]
        congr 1
        push_cast [hlog]
        ring
      have hx : (roundEven ((z : ℚ) / spacing 24 127 z) : ℚ) * spacing 24 127 z =
          ((divEven z (2 ^ (Nat.log2 n - 23)) * ((2 ^ (Nat.log2 n - 23) : ℕ) : ℤ) : ℤ) : ℚ) := by
        rw [hsp, divEven_eq (Nat.two_pow_pos _)]; push_cast; rfl
      unfold single ieee cutSingle
      rw [hx]
      generalize divEven z (2 ^ (Nat.log2 n - 23)) * ((2 ^ (Nat.log2 n - 23) : ℕ) : ℤ) = x
      have e1 : (2 : ℚ) ^ (127 + 1) ≤ (x : ℚ) ↔ (2 : ℤ) ^ 128 ≤ x := by
        rw [show (2 : ℚ) ^ (127 + 1) = ((2 ^ 128 : ℤ) : ℚ) by norm_num]; exact Int.cast_le
      have e2 : (x : ℚ) ≤ -(2 : ℚ) ^ (127 + 1) ↔ x ≤ -(2 : ℤ) ^ 128 := by
        rw [show -(2 : ℚ) ^ (127 + 1) = ((-2 ^ 128 : ℤ) : ℚ) by norm_num]; exact Int.cast_le
      simp only [e1, e2]
  · rw [if_neg hden]

end Verif.Proofs
