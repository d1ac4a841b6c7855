import Verif.Model.RoundedTsp

/-!
Model of the two programs in /repo/test/src/test_EOP, which compute the beliefs of the teams (there: packages) in two ways and compare the results for
equality.  `r` rounds the result of every addition, as in `Model/RoundedTsp.lean`; with `r = fin` arithmetic is exact.  The drawn numbers are
parameters, and so are the numbers of rows and columns.
-/

namespace Verif.Model.Rounded
open Verif Num Model

/-- test_EOP.cpp:56-60, test_EOP.py:34-36: add the rows to an array, entry by entry. -/
def eopRows (r : ℚ → Num) (bins : Mat Num) (dst : Arr Num) : Option (Arr Num) :=
  loopUp bins.rows (fun b dst => loopUp bins.cols (fun i dst => do
    let x ← dst.rd i
    let y ← bins.rd b i
    dst.wr i (rn r (x + y))) dst) dst

/-- test_EOP.cpp:36-52: start from `rOric2PackageM` and add the rows with `transform`. -/
def eopTransform (r : ℚ → Num) (bins : Mat Num) (oric : Arr Num) : Option (Arr Num) :=
  loopUp bins.rows (fun b dst => do
    let row ← bins.rdRow b
    addTo r row dst dst) oric

/-- test_EOP.cpp:54-63, test_EOP.py:32-39: start from zeros, add the rows, then `oric`. -/
def eopDummy (r : ℚ → Num) (bins : Mat Num) (oric : Arr Num) : Option (Arr Num) := do
  let s ← eopRows r bins (Arr.fill bins.cols 0)
  loopUp bins.cols (fun i dst => do
    let x ← dst.rd i
    let y ← oric.rd i
    dst.wr i (rn r (x + y))) s

/-- test_EOP.py:24: `np.sum(extrinsic_output_bin, axis=0) + oric_to_package_m`.  The sum over the first axis starts from the first row and adds the
others in order. -/
def eopNumpy (r : ℚ → Num) (bins : Mat Num) (oric : Arr Num) : Option (Arr Num) :=
  if oric.size = bins.cols ∧ 0 < bins.rows then
    some ⟨bins.cols, fun i => rn r (((List.range (bins.rows - 1)).foldl (fun x b => rn r (x + bins.data (b + 1) i)) (bins.data 0 i)) + oric.data i)⟩
  else none

/-- `a == b` for floating point numbers. -/
def eqNum (a b : Num) : Bool := a == b && a != nan

/-- test_EOP.cpp:33-73: `some true` is "Succeeded", `some false` is "Failed". -/
def testEop (r : ℚ → Num) (bins : Mat Num) (oric : Arr Num) : Option Bool := do
  let a ← eopTransform r bins oric
  let b ← eopDummy r bins oric
  some ((List.range bins.cols).all (fun i => eqNum (b.data i) (a.data i)))

/-- test_EOP.py:41: the printed truth value. -/
def testEopPy (r : ℚ → Num) (bins : Mat Num) (oric : Arr Num) : Option Bool := do
  let a ← eopNumpy r bins oric
  let b ← eopDummy r bins oric
  some ((List.range bins.cols).all (fun i => eqNum (b.data i) (a.data i)))

end Verif.Model.Rounded
