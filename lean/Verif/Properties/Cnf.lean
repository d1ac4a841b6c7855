import Verif.Proofs.Cnf

/-!
C37: CNF export.

Trusted base: Lean kernel; axioms propext, Classical.choice, Quot.sound.
-/

namespace Verif.Properties
open Verif Spec Model

/-- C37: reading the exported file with a DIMACS reader gives the numbers of variables and clauses and, clause by clause, the same
literals: variable `v` (from 0) with sign `s` becomes the integer `s * (v + 1)`. -/
theorem C37_round_trip (n m : ℕ) {F : List (List (ℕ × ℤ))} (hs : ∀ cl ∈ F, ∀ l ∈ cl, l.2 = 1 ∨ l.2 = -1) :
    readCnf (cnfText n m F) = some ((n : ℤ), (m : ℤ), F.map (fun cl => cl.map (fun l => l.2 * ((l.1 : ℤ) + 1)))) := by
  rw [Proofs.readCnf_cnfText]
  congr 3
  refine List.map_congr_left fun cl hcl => List.map_congr_left fun l hl => ?_
  rcases hs cl hcl l hl with h | h
  · rw [Proofs.litInt, h, if_neg (by decide)]; ring
  · rw [Proofs.litInt, h, if_pos rfl]; ring

/-- C37: two formulas with signs ±1 that give the same file are equal. -/
theorem C37_injective {n m n' m' : ℕ} {F F' : List (List (ℕ × ℤ))} (hs : ∀ cl ∈ F, ∀ l ∈ cl, l.2 = 1 ∨ l.2 = -1)
    (hs' : ∀ cl ∈ F', ∀ l ∈ cl, l.2 = 1 ∨ l.2 = -1) (h : cnfText n m F = cnfText n' m' F') : n = n' ∧ m = m' ∧ F = F' := by
  have h1 := C37_round_trip n m hs
  rw [h, C37_round_trip n' m' hs'] at h1
  simp only [Option.some.injEq, Prod.mk.injEq, Nat.cast_inj] at h1
  obtain ⟨h1, h2, h3⟩ := h1
  refine ⟨h1.symm, h2.symm, ?_⟩
  have hback : ∀ G : List (List (ℕ × ℤ)), (∀ cl ∈ G, ∀ l ∈ cl, l.2 = 1 ∨ l.2 = -1) →
      (G.map (fun cl => cl.map (fun l => l.2 * ((l.1 : ℤ) + 1)))).map (fun cl => cl.map (fun x : ℤ => (x.natAbs - 1, x.sign))) = G := by
    intro G hG
    rw [List.map_map]
    conv_rhs => rw [← List.map_id G]
    refine List.map_congr_left fun cl hcl => ?_
    show (cl.map _).map _ = id cl
    rw [List.map_map]
    conv_rhs => rw [id, ← List.map_id cl]
    refine List.map_congr_left fun l hl => ?_
    obtain ⟨v, s⟩ := l
    show ((s * ((v : ℤ) + 1)).natAbs - 1, (s * ((v : ℤ) + 1)).sign) = (v, s)
    rcases hG cl hcl (v, s) hl with h | h
    · simp only at h; subst h
      rw [one_mul, Int.sign_eq_one_of_pos (by omega)]
      simp only [Prod.mk.injEq, and_true]; omega
    · simp only at h; subst h
      rw [neg_one_mul, Int.sign_eq_neg_one_of_neg (by omega)]
      simp only [Prod.mk.injEq, and_true]; omega
  rw [← hback F hs, ← h3, hback F' hs']

/-- Non-vacuity: a file of two clauses. -/
example : cnfText 12 2 [[(0, 1), (9, -1)], [(11, -1), (3, 1)]] = "p cnf 12 2\n1 -10 0\n-12 4 0\n".toList ∧
    readCnf "p cnf 12 2\n1 -10 0\n-12 4 0\n".toList = some (12, 2, [[1, -10], [-12, 4]]) := by
  decide +kernel

end Verif.Properties
