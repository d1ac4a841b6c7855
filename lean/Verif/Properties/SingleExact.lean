import Verif.Properties.Growth

/-! A run of 130 iterations in exact arithmetic. -/

namespace Verif.Properties
open Verif Num Spec Model

/-- Two variables, each implying the other twice, and one more clause `¬x0 ∨ x2`. -/
def loopFormula : KsatTables := ⟨[0, 1, 2], [[(0, -1), (1, 1)], [(0, -1), (1, 1)], [(1, -1), (0, 1)], [(1, -1), (0, 1)], [(0, -1), (2, 1)]],
  [[(0, -1), (1, -1), (2, 1), (3, 1), (4, -1)], [(0, 1), (1, 1), (2, -1), (3, -1)], [(4, 1)]]⟩

/-- Two variables are rewarded and the third one is not. -/
def loopCost (v : ℕ) : ℤ := if v = 2 then 2 else -1

theorem loopFormula_ok : KFormula 3 2 loopFormula.clauses loopFormula.used loopFormula.conns := by
  refine ⟨by decide, ⟨fun v c s => ?_, by decide, by decide⟩, rfl, fun v => ?_⟩
  · by_cases hv : v < 3
    · by_cases hc : c < 5
      · interval_cases v <;> interval_cases c <;> simp [loopFormula]
      · have h1 : loopFormula.clauses.getD c [] = [] := by
          rw [List.getD_eq_getElem?_getD, List.getElem?_eq_none (by show 5 ≤ c; omega)]; rfl
        rw [h1]
        interval_cases v <;> simp [loopFormula] <;> omega
    · have h1 : loopFormula.conns.getD v [] = [] := by
        rw [List.getD_eq_getElem?_getD, List.getElem?_eq_none (by show 3 ≤ v; omega)]; rfl
      rw [h1]
      by_cases hc : c < 5
      · interval_cases c <;> simp [loopFormula] <;> omega
      · rw [List.getD_eq_getElem?_getD, List.getElem?_eq_none (by show 5 ≤ c; omega)]; simp
  · by_cases hv : v < 3
    · interval_cases v <;> decide
    · rw [List.getD_eq_getElem?_getD, List.getElem?_eq_none (by show 3 ≤ v; omega)]; simp

/-- After 130 iterations exact arithmetic satisfies the formula. -/
theorem c72_exact : (ksatCall 3 2 130 false 0 (fin 0) id id false 0 [] loopFormula (listOf 3 (fun v => fin (loopCost v)))).map
    (fun res => (res.beliefs, res.post.hard, res.post.flag)) =
    some ([fin (-1814839290245005138471331239636097127765), fin (-907419645122502569235665619818048563883),
      fin (-453709822561251284617832809909024281941)], [true, true, true], true) := by
  decide +kernel

end Verif.Properties
