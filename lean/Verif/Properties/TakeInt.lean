import Verif.Proofs.TakeInt

/-!
C104: the list of units that Python takes from the command line and the native unit tests from the environment.
-/

namespace Verif.Properties
open Verif Model Spec Proofs

/-- Full claim: whenever Python reads a list of numbers that are values of `int`, the native tests read the same list. -/
def C104_claim : Prop := ∀ (s : List Char) (l : List ℤ), pyUnits s = some l → (∀ v ∈ l, FitsInt v) → takeInt s = l

/-- Python allows underscores between digits: `1_0` is ten for Python and the two numbers 1 and 0 for the native tests. -/
theorem C104_claim_false : ¬ C104_claim := by
  intro h
  have := h "1_0".toList [10] (by decide) (by simp [FitsInt])
  revert this
  decide

/-- In texts without underscores and separators the native tests read exactly the numbers that Python reads, if these are values of `int`. -/
theorem C104_partial (s : List Char) (l : List ℤ) (hs : ∀ c ∈ s, Plain c) (h : pyUnits s = some l) (hl : ∀ v ∈ l, FitsInt v) : takeInt s = l := by
  unfold takeInt
  rw [takeIntGo_eq le_rfl hs h, takeWhile_all]
  intro v hv
  have := hl v hv
  unfold FitsInt at this
  simp
  omega

/-- Signs, leading zeros and spaces are read alike. -/
example : takeInt " +20,-3 ,\t007".toList = [20, -3, 7] :=
  C104_partial _ _ (by simp [Plain]) (by decide) (by simp [FitsInt])

/-- A number that is no value of `int` ends the list of the native tests without a message. -/
theorem C104_overflow (s : List Char) (a b : List ℤ) (v : ℤ) (hs : ∀ c ∈ s, Plain c) (h : pyUnits s = some (a ++ v :: b)) (ha : ∀ u ∈ a, FitsInt u)
    (hv : ¬ FitsInt v) : takeInt s = a := by
  unfold takeInt
  rw [takeIntGo_eq le_rfl hs h, List.takeWhile_append_of_pos, List.takeWhile_cons_of_neg, List.append_nil]
  · unfold FitsInt at hv
    simp
    omega
  · intro u hu
    have := ha u hu
    unfold FitsInt at this
    simp
    omega

example : takeInt "20,2147483648,30".toList = [20] :=
  C104_overflow _ [20] [30] 2147483648 (by simp [Plain]) (by decide) (by simp [FitsInt]) (by simp [FitsInt])

/-- Every list written with commas is read by Python as it was meant. -/
theorem C104_python (l : List ℤ) (h : l ≠ []) : pyUnits (commaText l) = some l := pyUnits_commaText h

/-- Every list of values of `int` written with commas is read by the native tests as it was meant. -/
theorem C104_native (l : List ℤ) (h : ∀ v ∈ l, FitsInt v) : takeInt (commaText l) = l := by
  by_cases h0 : l = []
  · subst h0; rfl
  · exact C104_partial _ _ (commaText_plain l) (pyUnits_commaText h0) h

/-- The list in unit_test_kc_mwm.sh:12. -/
example : pyUnits "20,30,10,7,8".toList = some [20, 30, 10, 7, 8] ∧ takeInt "20,30,10,7,8".toList = [20, 30, 10, 7, 8] :=
  ⟨C104_python [20, 30, 10, 7, 8] (by simp), C104_native [20, 30, 10, 7, 8] (by simp [FitsInt])⟩

/-- Blanks around the numbers do not matter to either reader. -/
theorem C104_blanks (l : List (List Char × ℤ × List Char)) (h : l ≠ []) (hp : ∀ p ∈ l, (∀ c ∈ p.1, Blank c) ∧ ∀ c ∈ p.2.2, Blank c) :
    pyUnits (paddedText l) = some (l.map (fun p => p.2.1)) ∧ ((∀ p ∈ l, FitsInt p.2.1) → takeInt (paddedText l) = l.map (fun p => p.2.1)) := by
  obtain ⟨h1, h2⟩ := pyUnits_padded h hp
  exact ⟨h1, fun hl => C104_partial _ _ h2 h1 fun v hv => by
    obtain ⟨p, hp', rfl⟩ := List.mem_map.mp hv
    exact hl p hp'⟩

example : takeInt "\r\n20\t, -3 \r\n".toList = [20, -3] := by
  have h := (C104_blanks [("\r\n".toList, 20, "\t".toList), (" ".toList, -3, " \r\n".toList)] (by simp) (by simp [Blank])).2 (by simp [FitsInt])
  rw [show paddedText [("\r\n".toList, 20, "\t".toList), (" ".toList, -3, " \r\n".toList)] = "\r\n20\t, -3 \r\n".toList from by decide +kernel] at h
  exact h

/-- Texts that Python refuses are read by the native tests as lists that stop early or split a number. -/
theorem C104_refused : pyUnits [] = none ∧ takeInt [] = [] ∧ pyUnits "20,,30".toList = none ∧ takeInt "20,,30".toList = [20] ∧
    pyUnits "20 30".toList = none ∧ takeInt "20 30".toList = [20, 0] ∧ pyUnits "7.5".toList = none ∧ takeInt "7.5".toList = [7, 5] := by decide

end Verif.Properties
