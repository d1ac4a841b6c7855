import Verif.Model.KcRun

/-!
Model of the interface of the assignment solver: `ImpaKcMwm.process_inputs_ctypes` and `iterate` (/repo/src/impa/Impa.py),
`InputsKcMwm::process_inputs` (/repo/include/impalib/input_output.hpp) and `WrapperKcMwm` (/repo/src/impa/Wrapper.cpp).
A pointer argument is the list of the values stored behind it; reading past its end is undefined (`none`).
Conversions to `int32` and to `impalib_type` are exact (DESIGN.md).
-/

namespace Verif.Model
open Verif Num

/-- The range `[p + a, p + b)` of a pointer argument, as read by `copy`. -/
def slice {α : Type} (mem : List α) (a b : ℕ) : Option (List α) :=
  if a ≤ b ∧ b ≤ mem.length then some ((mem.take b).drop a) else none

/-- `np.array(rows).flatten()`: row-major; rows of different lengths are a `ValueError`. -/
def flattenRows {α : Type} (rows : List (List α)) : Option (List α) :=
  if ∀ r ∈ rows, ∀ r' ∈ rows, r.length = r'.length then some rows.flatten else none

/-- `M.flatten()` of a numpy matrix: row-major. -/
def flattenMat {α : Type} (m : Mat α) : List α := (List.range m.rows).flatMap (fun i => (List.range m.cols).map (m.data i))

/-- The attributes of `ImpaKcMwm` used by `process_inputs_ctypes`; `num_departments` is `max_state.size` (Impa.py:1189). -/
structure KcPy where
  numTeams : ℕ
  numProjects : ℕ
  maxState : List ℕ
  weights : List (List ℕ)
  reward : List Num
  rewardProject : List (List Num)

/-- What `WrapperKcMwm` receives (Impa.py:1505-1516). -/
structure KcFlat where
  messages : List Num
  maxState : List ℕ
  reward : List Num
  rewardProject : List Num
  weights : List ℕ
  nz : List ℕ
  sizes : List ℕ
  maxSize : ℕ

/-- Impa.py:1459-1463: the initial messages from teams to departments. -/
def kcStart (py : KcPy) : Option (Mat Num) :=
  loopUp py.maxState.length (fun i m => loopUp py.numTeams (fun j m => do
    let row ← py.weights[i]?
    let w ← row[j]?
    if w ≠ 0 then do
      let r ← py.reward[j]?
      m.wr i j r
    else some m) m) (Mat.fill py.maxState.length py.numTeams 0)

/-- Impa.py:1468-1470: `[i for i, e in enumerate(row) if e != 0]`. -/
def nonZeroIndices (row : List ℕ) : List ℕ := (List.range row.length).filter (fun i => row.getD i 0 ≠ 0)

/-- Impa.py:1466-1470: one list per department. -/
def kcNonZero (py : KcPy) : Option (List (List ℕ)) :=
  loopUp py.maxState.length (fun d l => do
    let row ← py.weights[d]?
    some (l ++ [nonZeroIndices row])) []

/-- Impa.py:1493-1497: the lists padded with zeros to a matrix. -/
def kcPadded (rows cols : ℕ) (nz : List (List ℕ)) : Option (Mat ℕ) :=
  loopUp nz.length (fun i m => loopUp (nz.getD i []).length (fun j m => m.wr i j ((nz.getD i []).getD j 0)) m) (Mat.fill rows cols 0)

/-- Impa.py:1430-1516 `process_inputs_ctypes`.  `max([])` is a `ValueError`. -/
def kcFlatten (py : KcPy) : Option KcFlat := do
  let messages ← kcStart py
  let nz ← kcNonZero py
  let rewardProject ← flattenRows py.rewardProject
  let weights ← flattenRows py.weights
  let sizes := nz.map List.length
  let maxSize ← sizes.max?
  let arr ← kcPadded py.maxState.length maxSize nz
  some { messages := flattenMat messages, maxState := py.maxState, reward := py.reward, rewardProject := rewardProject,
         weights := weights, nz := flattenMat arr, sizes := sizes, maxSize := maxSize }

/-- input_output.hpp:62-108: the constructor and `process_inputs`.  Returns the inputs and `Team2KnapsackM`. -/
def kcDecode (numDepartments numTeams numProjects : ℕ) (flag : Bool) (alpha : ℚ) (f : KcFlat) : Option (KcInputs × Mat Num) := do
  let reward ← slice f.reward 0 numTeams
  let maxState ← slice f.maxState 0 numDepartments
  let (nzs, a, weights) ← loopUp numDepartments (fun d s => do
      let size ← f.sizes[d]?
      let a ← slice f.messages (numTeams * d) (numTeams * (d + 1))
      let a ← s.2.1.wrRow d (Arr.ofList a)
      let w ← slice f.weights (numTeams * d) (numTeams * (d + 1))
      let w ← s.2.2.wrRow d (Arr.ofList w)
      let nz ← slice f.nz (f.maxSize * d) (size + f.maxSize * d)
      some (s.1 ++ [nz], a, w))
    (([] : List (List ℕ)), Mat.fill numDepartments numTeams (0 : Num), Mat.fill numDepartments numTeams (0 : ℕ))
  let rewardProject ← loopUp numProjects (fun p m => do
      let r ← slice f.rewardProject (numTeams * p) (numTeams * (p + 1))
      m.wrRow p (Arr.ofList r)) (Mat.fill numProjects numTeams (0 : Num))
  some ({ numDepartments := numDepartments, numTeams := numTeams, numProjects := numProjects, flag := flag, alpha := alpha,
          reward := Arr.ofList reward, maxState := Arr.ofList maxState, nzs := nzs, sizes := Arr.ofList f.sizes,
          weights := weights, rewardProject := rewardProject }, a)

/-- Wrapper.cpp:38-46: the outputs as they are copied into the caller's arrays. -/
def kcWrapper (numIter numDepartments numTeams numProjects : ℕ) (flag : Bool) (alpha : ℚ) (f : KcFlat) (outTeam outMwm : List Num) :
    Option (List Num × List Num) := do
  let (inp, a) ← kcDecode numDepartments numTeams numProjects flag alpha f
  let (ext, intr) ← kcSolve inp a numIter
  let ext ← slice ext.toList 0 numTeams
  let outTeam ← (if ext.length ≤ outTeam.length then some (ext ++ outTeam.drop ext.length) else none)
  let intr ← slice intr.toList 0 (numTeams * numProjects)
  let outMwm ← (if intr.length ≤ outMwm.length then some (intr ++ outMwm.drop intr.length) else none)
  some (outTeam, outMwm)

/-- `np.reshape(l, (m, n))`; another number of entries is a `ValueError`. -/
def reshape {α : Type} [Inhabited α] (l : List α) (m n : ℕ) : Option (Mat α) :=
  if l.length = m * n then some ⟨m, n, fun i j => l.getD (n * i + j) default⟩ else none

/-- `x + y` of one-dimensional numpy arrays: an array of one entry is repeated, other different lengths are a `ValueError`. -/
def npAdd (x y : List Num) : Option (List Num) :=
  if x.length = y.length then some (List.zipWith (· + ·) x y)
  else if x.length = 1 then some (y.map (x.getD 0 0 + ·))
  else if y.length = 1 then some (x.map (· + y.getD 0 0))
  else none

/-- Impa.py:1518-1565 `iterate`: `(intrinsic_output, intrinsic_out_mwm)`. -/
def kcIteratePy (numIter : ℕ) (flag : Bool) (alpha : ℚ) (py : KcPy) : Option (List Num × Mat Num) := do
  let f ← kcFlatten py
  let (ext, intr) ← kcWrapper numIter py.maxState.length py.numTeams py.numProjects flag alpha f
    (List.replicate py.numTeams 0) (List.replicate (py.numProjects * py.numTeams) 0)
  let mwm ← reshape intr py.numProjects py.numTeams
  let output ← npAdd ext py.reward
  some (output, mwm)

end Verif.Model
