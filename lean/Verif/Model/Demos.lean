import Verif.Model.TspIO
import Verif.Model.KsatIO

/-!
Model of the three example programs /repo/examples/Tsp/demo.cpp, /repo/examples/Ksat/demo.cpp and /repo/examples/KcMwm/demo.cpp.
Number of iterations, damping, threshold and limits are parameters (constants in the programs); the decimal constants are taken as exact
rational numbers.  What the library itself prints is not modelled.
-/

namespace Verif.Model
open Verif Num

/-- `x` with eight decimals. -/
def dec8 (x : ℤ) : Num := fin (x / 100000000)

/-- examples/Tsp/demo.cpp:25-27, the edges in the order of the array. -/
def demoEdges : List ℕ :=
  [0, 1, 0, 2, 0, 3, 0, 4, 1, 0, 1, 2, 1, 3, 1, 4, 2, 0, 2, 1, 2, 3, 2, 4, 3, 0, 3, 1, 3, 2, 3, 4, 4, 0, 4, 1, 4, 2, 4, 3]

/-- examples/Tsp/demo.cpp:30-35. -/
def demoMatrix : List Num :=
  [0, dec8 15175578773, dec8 5618610887, dec8 71831915651, dec8 29302503715,
   dec8 15175578773, 0, dec8 56842312860, dec8 8325740946, dec8 54545357536,
   dec8 5618610887, dec8 56842312860, 0, dec8 44555107005, dec8 88809445172,
   dec8 71831915651, dec8 8325740946, dec8 44555107005, 0, dec8 71905730714,
   dec8 29302503715, dec8 54545357536, dec8 88809445172, dec8 71905730714, 0]

/-- examples/Tsp/demo.cpp:38-41. -/
def demoEdgeCosts : List Num :=
  [dec8 15175578773, dec8 5618610887, dec8 71831915651, dec8 29302503715, dec8 15175578773, dec8 56842312860, dec8 8325740946,
   dec8 54545357536, dec8 5618610887, dec8 56842312860, dec8 44555107005, dec8 88809445172, dec8 71831915651, dec8 8325740946,
   dec8 44555107005, dec8 71905730714, dec8 29302503715, dec8 54545357536, dec8 88809445172, dec8 71905730714]

/-- examples/Tsp/demo.cpp:44-54: the table of degree costs, row by row. -/
def demoDegreeCosts : List Num :=
  [dec8 15175578773, dec8 15175578773, 0, 0, 0, dec8 5618610887, 0, dec8 5618610887, 0, 0,
   dec8 71831915651, 0, 0, dec8 71831915651, 0, dec8 29302503715, 0, 0, 0, dec8 29302503715,
   dec8 15175578773, dec8 15175578773, 0, 0, 0, 0, dec8 56842312860, dec8 56842312860, 0, 0,
   0, dec8 8325740946, 0, dec8 8325740946, 0, 0, dec8 54545357536, 0, 0, dec8 54545357536,
   dec8 5618610887, 0, dec8 5618610887, 0, 0, 0, dec8 56842312860, dec8 56842312860, 0, 0,
   0, 0, dec8 44555107005, dec8 44555107005, 0, 0, 0, dec8 88809445172, 0, dec8 88809445172,
   dec8 71831915651, 0, 0, dec8 71831915651, 0, 0, dec8 8325740946, 0, dec8 8325740946, 0,
   0, 0, dec8 44555107005, dec8 44555107005, 0, 0, 0, 0, dec8 71905730714, dec8 71905730714,
   dec8 29302503715, 0, 0, 0, dec8 29302503715, 0, dec8 54545357536, 0, 0, dec8 54545357536,
   0, 0, dec8 88809445172, 0, dec8 88809445172, 0, 0, 0, dec8 71905730714, dec8 71905730714]

/-- examples/Tsp/demo.cpp:57-61: the start messages and the degree costs point to the same array; `initialize` copies both before any message is
computed. -/
def tspDemoFlat : TspFlat := ⟨demoEdges, demoEdgeCosts, demoMatrix, demoDegreeCosts, demoDegreeCosts⟩

/-- examples/Tsp/demo.cpp:63-79: five nodes, twenty edges; the outer option says that `fuel` was enough, the inner one that the program comes to its end. -/
def tspDemo (numIter : ℕ) (augmentation reset flag : Bool) (alpha : ℚ) (thr : Num) (maxCount : ℕ) (maxAugm : ℤ)
    (order : ℕ → List (ℕ × ℕ) → List ℕ) (fuel : ℕ) : Option (Option TspState) :=
  match tspDecode 5 20 flag alpha tspDemoFlat with
  | none => some none
  | some (inp, e2d) => tspSolve (tspSetup inp numIter reset augmentation thr maxCount maxAugm order) fuel (tspStart inp e2d)

/-- examples/Ksat/demo.cpp:21-48. -/
def ksatDemoFlat : KsatFlat where
  used := [0, 2, 3, 4]
  conns := ([[1], [], [0, 1], [0, 1], [0]] : List (List ℕ)).flatten
  sizes := [1, 0, 2, 2, 1]
  conx := [4, 2, 3, 2, 0, 3]
  conxType := [-1, -1, -1, 1, 1, -1]
  cost := [dec8 (-266808398), dec8 (-11790238), dec8 437984813, dec8 (-713066003), dec8 (-215600797)]
  messages := [0, 0, dec8 437984813, dec8 (-713066003), dec8 (-215600797), dec8 (-266808398), 0, dec8 437984813, dec8 (-713066003), 0]

/-- examples/Ksat/demo.cpp:51-61: five variables, two clauses of three literals, four used variables; the printed numbers. -/
def ksatDemo (numIter : ℕ) (flag : Bool) (alpha : ℚ) : Option (List Num) := do
  let (inp, v2k) ← ksatDecode 5 2 4 3 flag alpha ksatDemoFlat
  let ext ← ksatSolve inp v2k numIter
  (List.range 5).mapM ext.rd

/-- examples/KcMwm/demo.cpp:16-55.  `non_zero_weight_indices` has ten entries, the last two are zero. -/
def kcDemoFlat : KcFlat where
  messages := [fin (-22), fin (-31), fin (-68), fin (-39), 0, 0, fin (-31), fin (-68), fin (-39), fin (-84)]
  maxState := [3, 3]
  reward := [fin (-22), fin (-31), fin (-68), fin (-39), fin (-84)]
  rewardProject := [fin 44, fin 1, fin 41, fin 10, fin 3, fin 7, fin 17, fin 56, fin 98, fin 63]
  weights := [2, 1, 1, 1, 0, 0, 1, 1, 1, 2]
  nz := [0, 1, 2, 3, 1, 2, 3, 4, 0, 0]
  sizes := [4, 4]
  maxSize := 4

/-- examples/KcMwm/demo.cpp:32-68: two departments, five teams, two projects; the printed numbers. -/
def kcDemo (numIter : ℕ) (flag : Bool) (alpha : ℚ) : Option (List Num) := do
  let (inp, a) ← kcDecode 2 5 2 flag alpha kcDemoFlat
  let (ext, _) ← kcSolve inp a numIter
  (List.range 5).mapM fun t => do
    let x ← ext.rd t
    let r ← inp.reward.rd t
    some (x + r)

end Verif.Model
