import Mathlib.Algebra.Order.Field.Rat
import Mathlib.Data.List.Basic
import Mathlib.Tactic.Linarith
import Mathlib.Tactic.FieldSimp
import Verif.Model.CommandLine

/-! Helper lemmas on the names of files. -/

namespace Verif.Proofs
open Verif Num Model

theorem digits_inj {m n : ℕ} (h : Nat.toDigits 10 m = Nat.toDigits 10 n) : m = n := by
  rw [← Nat.ofDigitChars_ten_toDigits (n := m), h, Nat.ofDigitChars_ten_toDigits]

theorem notMem_digits {c : Char} (h : c.isDigit = false) (n : ℕ) : c ∉ Nat.toDigits 10 n := fun hc => by
  rw [Nat.isDigit_of_mem_toDigits (by omega) (by omega) hc] at h
  cases h

theorem intText_inj {y z : ℤ} (h : intText y = intText z) : y = z := by
  have hm : ∀ n : ℕ, '-' ∉ Nat.toDigits 10 n := notMem_digits (by decide)
  unfold intText at h
  by_cases hy : y < 0 <;> by_cases hz : z < 0
  · rw [if_pos hy, if_pos hz] at h
    have := digits_inj (List.append_cancel_left h)
    omega
  · rw [if_pos hy, if_neg hz] at h
    exact absurd (h ▸ (by simp) : '-' ∈ [] ++ Nat.toDigits 10 z.natAbs) (by simpa using hm _)
  · rw [if_neg hy, if_pos hz] at h
    exact absurd (h.symm ▸ (by simp) : '-' ∈ [] ++ Nat.toDigits 10 y.natAbs) (by simpa using hm _)
  · rw [if_neg hy, if_neg hz] at h
    have := digits_inj (List.append_cancel_left h)
    omega

theorem nearest_near {x : ℚ} (hx : 0 ≤ x) : |x - nearestInt x| ≤ 1 / 2 := by
  have h0 : 0 ≤ ⌊x⌋ := Int.floor_nonneg.mpr hx
  have hf : ((⌊x⌋.toNat : ℕ) : ℚ) = (⌊x⌋ : ℚ) := by
    rw [← Int.cast_natCast, Int.toNat_of_nonneg h0]
  have h1 := Int.floor_le x
  have h2 := Int.lt_floor_add_one x
  unfold nearestInt
  dsimp only
  split
  · rename_i h
    rw [hf] at h ⊢
    rw [abs_le]; constructor <;> linarith
  split
  · rename_i h' h
    push_cast
    rw [hf] at h ⊢
    rw [abs_le]; constructor <;> linarith
  rename_i h' h
  rw [hf] at h h'
  split
  · rw [hf, abs_le]; constructor <;> linarith
  · push_cast
    rw [hf, abs_le]; constructor <;> linarith

theorem nearest_nat (k : ℕ) : nearestInt (k : ℚ) = k := by
  unfold nearestInt
  dsimp only
  rw [show ⌊(k : ℚ)⌋ = (k : ℤ) from Int.floor_natCast k, Int.toNat_natCast, if_pos (by rw [sub_self]; norm_num)]

theorem oneDigit_iff {a b : ℚ} (ha : 0 ≤ a) (hb : 0 ≤ b) : oneDigit a = oneDigit b ↔ nearestInt (a * 10) = nearestInt (b * 10) := by
  unfold oneDigit
  rw [if_neg (not_lt.mpr ha), if_neg (not_lt.mpr hb), abs_of_nonneg ha, abs_of_nonneg hb]
  constructor
  · intro h
    simp only [List.nil_append, List.append_assoc, List.singleton_append] at h
    have hm : ∀ n : ℕ, '.' ∉ Nat.toDigits 10 n := notMem_digits (by decide)
    obtain ⟨h1, -, h2⟩ := (List.append_cons_inj_of_notMem (hm _) (hm _)).mp h
    have e1 := digits_inj h1
    have e2 := digits_inj h2
    omega
  · intro h
    rw [h]

/-- What is added to the name of the folder, and the rest of the name of the file. -/
def folderEnd (flag : Bool) (alpha : ℚ) (post : Bool) : List Char :=
  (if flag then "_alpha".toList ++ oneDigit alpha else []) ++ (if post then "_pp".toList else [])

theorem notMem_oneDigit {c : Char} (h1 : c.isDigit = false) (h2 : c ≠ '-') (h3 : c ≠ '.') (x : ℚ) : c ∉ oneDigit x := by
  have hm := fun n => notMem_digits (c := c) h1 n
  unfold oneDigit
  simp only [List.mem_append, hm, or_false, List.mem_singleton, h3]
  split
  · simpa using h2
  · simp

theorem folderEnd_slash (flag : Bool) (alpha : ℚ) (post : Bool) : '/' ∉ folderEnd flag alpha post := by
  have := notMem_oneDigit (c := '/') (by decide) (by decide) (by decide) alpha
  unfold folderEnd
  cases flag <;> cases post <;> simp [this]

theorem folderEnd_inj {flag flag' : Bool} {a a' : ℚ} {post post' : Bool} (h : folderEnd flag a post = folderEnd flag' a' post') :
    flag = flag' ∧ post = post' ∧ (flag = true → oneDigit a = oneDigit a') := by
  have hu := fun x => notMem_oneDigit (c := '_') (by decide) (by decide) (by decide) x
  unfold folderEnd at h
  cases flag <;> cases flag' <;> cases post <;> cases post' <;> simp at h ⊢
  · exact h
  · exact absurd (by rw [h]; simp) (hu a)
  · exact absurd (by rw [← h]; simp) (hu a')
  · exact h

theorem file_inj {p p' : List Char} (hp : '/' ∉ p) {y z : ℤ}
    (h : p ++ "/outputs_set".toList ++ intText y ++ ".pkl".toList = p' ++ "/outputs_set".toList ++ intText z ++ ".pkl".toList) : p = p' ∧ y = z := by
  have e : "/outputs_set".toList = '/' :: "outputs_set".toList := by decide
  rw [e] at h
  have h := List.append_cancel_right h
  rw [List.append_assoc, List.append_assoc, List.cons_append, List.cons_append] at h
  have hr : '/' ∉ "outputs_set".toList ++ intText y := by
    have := notMem_digits (c := '/') (by decide) y.natAbs
    unfold intText
    split <;> simp [this]
  obtain ⟨h1, -, h2⟩ := (List.append_cons_inj_of_notMem hp hr).mp h
  exact ⟨h1, intText_inj (List.append_cancel_left h2)⟩

/-- The saved file in terms of the options. -/
theorem saved_as {ns : List (List Char × ArgValue)} {f : RunFiles} {name : List Char} (hf : runFiles ns = some f) (hn : f.save = some name) :
    ∃ output flag alpha post file, argText ns "outputPath" = some output ∧ argFlag ns "filteringFlag" = some flag ∧ argNum ns "alpha" = some alpha ∧
      argFlag ns "PPFlag" = some post ∧ argInt ns "testFile" = some file ∧ argFlag ns "saveFlag" = some true ∧ argFlag ns "randomTestFlag" = some false ∧
      name = "../../data/".toList ++ output ++ (folderEnd flag alpha post ++ "/outputs_set".toList ++ intText file ++ ".pkl".toList) := by
  unfold runFiles at hf
  simp only [Option.bind_eq_bind, Option.bind_eq_some_iff, Option.some.injEq] at hf
  obtain ⟨_, _, output, h1, flag, h2, alpha, h3, post, h4, save, h5, random, h6, file, h7, rfl⟩ := hf
  dsimp only at hn
  split at hn
  · rename_i hc
    rw [Bool.and_eq_true, Bool.not_eq_true'] at hc
    rw [hc.1] at h5
    rw [hc.2] at h6
    refine ⟨output, flag, alpha, post, file, h1, h2, h3, h4, h7, h5, h6, ?_⟩
    rw [← Option.some.inj hn]
    unfold folderEnd
    simp only [List.append_assoc]
  · cases hn

end Verif.Proofs
