import Verif.Model.Cnf
import Verif.Spec.Dimacs
import Mathlib.Algebra.Order.Ring.Int
import Mathlib.Tactic.Ring
import Mathlib.Tactic.Linarith

namespace Verif.Proofs
open Verif Spec Model

theorem digitChar_isDigit {d : ℕ} (h : d < 10) : (Nat.digitChar d).isDigit = true ∧ (Nat.digitChar d).toNat - 48 = d := by
  have : d = 0 ∨ d = 1 ∨ d = 2 ∨ d = 3 ∨ d = 4 ∨ d = 5 ∨ d = 6 ∨ d = 7 ∨ d = 8 ∨ d = 9 := by omega
  rcases this with rfl | rfl | rfl | rfl | rfl | rfl | rfl | rfl | rfl | rfl <;> decide

theorem read_digit {d : ℕ} (h : d < 10) (r : IntReader) : r.step (Nat.digitChar d) = ⟨r.neg, some (r.cur.getD 0 * 10 + d), r.out⟩ := by
  obtain ⟨h1, h2⟩ := digitChar_isDigit h
  rw [IntReader.step, if_pos h1, h2]

theorem read_digits (n : ℕ) (neg : Bool) (out : List ℤ) :
    (Nat.toDigits 10 n).foldl IntReader.step ⟨neg, none, out⟩ = ⟨neg, some n, out⟩ := by
  induction n using Nat.strong_induction_on with
  | _ n ih =>
    rw [Nat.toDigits_eq_if (by omega)]
    by_cases h : n < 10
    · rw [if_pos h, List.foldl_cons, List.foldl_nil, read_digit h]; simp
    · rw [if_neg h, List.foldl_append, ih (n / 10) (by omega), List.foldl_cons, List.foldl_nil, read_digit (Nat.mod_lt _ (by omega))]
      simp only [Option.getD_some, IntReader.mk.injEq, Option.some.injEq, true_and, and_true]
      omega

theorem read_sep {c : Char} (h : c = ' ' ∨ c = '\n') (r : IntReader) : r.step c = r.flush := by
  rcases h with rfl | rfl <;> rfl

theorem read_minus (out : List ℤ) : IntReader.step ⟨false, none, out⟩ '-' = ⟨true, none, out⟩ := rfl

theorem read_literal (l : ℕ × ℤ) (out : List ℤ) :
    (cnfLiteral l).foldl IntReader.step ⟨false, none, out⟩ =
      ⟨false, none, out ++ [if l.2 = -1 then -((l.1 : ℤ) + 1) else (l.1 : ℤ) + 1]⟩ := by
  rw [cnfLiteral, List.foldl_append]
  by_cases h : l.2 = -1
  · rw [if_pos h, if_pos h, List.foldl_cons, List.foldl_nil, read_minus, List.foldl_append, read_digits, List.foldl_cons, List.foldl_nil,
      read_sep (Or.inl rfl)]
    simp [IntReader.flush]
  · rw [if_neg h, if_neg h, List.foldl_nil, List.foldl_append, read_digits, List.foldl_cons, List.foldl_nil, read_sep (Or.inl rfl)]
    simp [IntReader.flush]

/-- The integer of a literal. -/
def litInt (l : ℕ × ℤ) : ℤ := if l.2 = -1 then -((l.1 : ℤ) + 1) else (l.1 : ℤ) + 1

theorem litInt_ne (l : ℕ × ℤ) : litInt l ≠ 0 := by
  unfold litInt; by_cases h : l.2 = -1
  · rw [if_pos h]; omega
  · rw [if_neg h]; omega

theorem read_literals (cl : List (ℕ × ℤ)) (out : List ℤ) :
    (cl.flatMap cnfLiteral).foldl IntReader.step ⟨false, none, out⟩ = ⟨false, none, out ++ cl.map litInt⟩ := by
  induction cl generalizing out with
  | nil => simp
  | cons l cl ih =>
    rw [List.flatMap_cons, List.foldl_append, read_literal, ih, List.map_cons, List.append_assoc]; rfl

theorem read_clause (cl : List (ℕ × ℤ)) (out : List ℤ) :
    (cnfClause cl).foldl IntReader.step ⟨false, none, out⟩ = ⟨false, none, out ++ (cl.map litInt ++ [0])⟩ := by
  rw [cnfClause, List.foldl_append, read_literals, ← List.append_assoc]
  simp only [List.foldl_cons, List.foldl_nil]
  rfl

theorem read_clauses (F : List (List (ℕ × ℤ))) (out : List ℤ) :
    (F.flatMap cnfClause).foldl IntReader.step ⟨false, none, out⟩ = ⟨false, none, out ++ F.flatMap (fun cl => cl.map litInt ++ [0])⟩ := by
  induction F generalizing out with
  | nil => simp
  | cons cl F ih =>
    rw [List.flatMap_cons, List.foldl_append, read_clause, ih, List.flatMap_cons, List.append_assoc]

theorem splitZeros_clause (cl acc l : List ℤ) (h : ∀ x ∈ cl, x ≠ 0) : splitZeros acc (cl ++ 0 :: l) = (acc ++ cl) :: splitZeros [] l := by
  induction cl generalizing acc with
  | nil => simp [splitZeros]
  | cons x cl ih =>
    rw [List.cons_append, splitZeros, if_neg (h x (by simp)), ih _ (fun y hy => h y (by simp [hy])), List.append_assoc]; rfl

theorem splitZeros_all (F : List (List (ℕ × ℤ))) : splitZeros [] (F.flatMap (fun cl => cl.map litInt ++ [0])) = F.map (List.map litInt) := by
  induction F with
  | nil => rfl
  | cons cl F ih =>
    rw [List.flatMap_cons, List.append_assoc, List.singleton_append, splitZeros_clause, ih]
    · rfl
    · intro x hx
      obtain ⟨l, -, rfl⟩ := List.mem_map.mp hx
      exact litInt_ne l

theorem digits_no_newline (n : ℕ) : ∀ c ∈ Nat.toDigits 10 n, c ≠ '\n' := by
  rintro c hc rfl
  have := Nat.isDigit_of_mem_toDigits (by omega) (by omega) hc
  exact absurd this (by decide)

theorem takeWhile_header {l r : List Char} (h : ∀ c ∈ l, c ≠ '\n') :
    (l ++ '\n' :: r).takeWhile (· ≠ '\n') = l ∧ (l ++ '\n' :: r).dropWhile (· ≠ '\n') = '\n' :: r := by
  induction l with
  | nil => simp
  | cons c l ih =>
    obtain ⟨h1, h2⟩ := ih (fun x hx => h x (by simp [hx]))
    have hc : (decide (c ≠ '\n')) = true := by simpa using h c (by simp)
    rw [List.cons_append, List.takeWhile_cons, List.dropWhile_cons, if_pos hc, if_pos hc, h1, h2]
    exact ⟨rfl, rfl⟩

theorem readCnf_cnfText (n m : ℕ) (F : List (List (ℕ × ℤ))) : readCnf (cnfText n m F) = some ((n : ℤ), (m : ℤ), F.map (List.map litInt)) := by
  have hd : (cnfText n m F).drop 6 = (Nat.toDigits 10 n ++ ' ' :: Nat.toDigits 10 m) ++ '\n' :: F.flatMap cnfClause := by
    have : (6 : ℕ) = "p cnf ".toList.length := by decide
    rw [cnfText, this, List.drop_left]
    simp
  have hno : ∀ c ∈ Nat.toDigits 10 n ++ ' ' :: Nat.toDigits 10 m, c ≠ '\n' := by
    intro c hc
    rcases List.mem_append.mp hc with hc | hc
    · exact digits_no_newline n c hc
    · rcases List.mem_cons.mp hc with rfl | hc
      · decide
      · exact digits_no_newline m c hc
  have hp : "p cnf ".toList.isPrefixOf (cnfText n m F) = true := by
    rw [List.isPrefixOf_iff_prefix]; exact ⟨_, rfl⟩
  obtain ⟨h1, h2⟩ := takeWhile_header (r := F.flatMap cnfClause) hno
  have hi : readInts (Nat.toDigits 10 n ++ ' ' :: Nat.toDigits 10 m) = [(n : ℤ), (m : ℤ)] := by
    rw [readInts, List.foldl_append, read_digits, List.foldl_cons, read_sep (Or.inl rfl)]
    have e : (IntReader.flush ⟨false, some n, []⟩) = ⟨false, none, [(n : ℤ)]⟩ := rfl
    rw [e, read_digits]; rfl
  have hb : readInts ('\n' :: F.flatMap cnfClause) = F.flatMap (fun cl => cl.map litInt ++ [0]) := by
    rw [readInts, List.foldl_cons, read_sep (Or.inr rfl)]
    have e : (IntReader.flush ⟨false, none, []⟩) = ⟨false, none, []⟩ := rfl
    rw [e, read_clauses]; rfl
  rw [readCnf, if_pos hp, hd, h1, h2, hi, hb, splitZeros_all]

end Verif.Proofs
