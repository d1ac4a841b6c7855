import Verif.Model.KcCall
import Verif.Model.RoundedTsp

/-!
The assignment solver with rounding: the same code as in `Model/Knapsack.lean`, `Model/TeamKnapsack.lean`, `Model/Oric.lean`,
`Model/ProjectInequality.lean`, `Model/Equality.lean`, `Model/KcRun.lean`, `Model/KcIO.lean` and `Model/KcCall.lean`, but the result of every
addition, subtraction and multiplication on messages and costs is rounded by a function `r`, in the order of the C++ and Python expressions.
Everything else is as in `Model/RoundedTsp.lean`.  Functions without arithmetic on costs (`fillUp`, `knapFwdGap`, `knapBwdGap`, `minElement`,
`oricToTeamUpdate`, the decoding, the decision and the post-processing) are those of the exact model.
-/

namespace Verif.Model.Rounded
open Verif Num Model

/-- knapsack.hpp:102-118. -/
def knapFwdCell (r : ℚ → Num) (w : Arr ℕ) (m : Arr Num) (t : ℕ) (init : Arr Num) (a : ℕ) (st : Mat Num) : Option (Mat Num) := do
  let wt ← w.rd t
  if wt ≤ a ∧ ¬ (t = 0 ∧ a ≠ wt) then do
    let x ← init.rd a
    let y ← init.rd (a - wt)
    let mt ← m.rd t
    st.wr (t + 1) a (cmin x (rn r (y + mt)))
  else do
    let x ← init.rd a
    st.wr (t + 1) a x

/-- knapsack.hpp:99-147. -/
def knapFwdBody (r : ℚ → Num) (T cap : ℕ) (nz : List ℕ) (w : Arr ℕ) (m : Arr Num) (l : ℕ) (s : Mat Num × Arr Num) :
    Option (Mat Num × Arr Num) := do
  let (st, init) := s
  let t ← nz[l]?
  let st ← loopUp (cap + 1) (knapFwdCell r w m t init) st
  let init ← st.rdRow (t + 1)
  let st ← knapFwdGap T nz t init st
  some (st, init)

/-- knapsack.hpp:76-148. -/
def knapForward (r : ℚ → Num) (T cap : ℕ) (nz : List ℕ) (sz : ℕ) (w : Arr ℕ) (m : Arr Num) (st : Mat Num) : Option (Mat Num) := do
  let init := knapInitF cap
  let st ← st.wrRow 0 init
  let first ← nz[0]?
  let st ← if first ≠ 0 then fillUp 1 (first + 1) init st else some st
  let (st, _) ← loopUp sz (knapFwdBody r T cap nz w m) (st, init)
  some st

/-- knapsack.hpp:190-206. -/
def knapBwdCell (r : ℚ → Num) (cap : ℕ) (w : Arr ℕ) (m : Arr Num) (t : ℕ) (init : Arr Num) (a : ℕ) (st : Mat Num) : Option (Mat Num) := do
  let wt ← w.rd t
  if (t > 0 ∧ a + wt ≤ cap) ∨ (a = 0 ∧ t = 0) then do
    let x ← init.rd a
    let y ← init.rd (a + wt)
    let mt ← m.rd t
    st.wr t a (cmin x (rn r (y + mt)))
  else do
    let x ← init.rd a
    st.wr t a x

/-- knapsack.hpp:187-235. -/
def knapBwdBody (r : ℚ → Num) (T cap sz : ℕ) (nz : List ℕ) (w : Arr ℕ) (m : Arr Num) (l : ℕ) (s : Mat Num × Arr Num) :
    Option (Mat Num × Arr Num) := do
  let (st, init) := s
  let t ← nz[l]?
  let st ← loopUp (cap + 1) (knapBwdCell r cap w m t init) st
  let init ← st.rdRow t
  let st ← knapBwdGap T sz nz t init st
  some (st, init)

/-- knapsack.hpp:163-236. -/
def knapBackward (r : ℚ → Num) (T cap : ℕ) (nz : List ℕ) (sz : ℕ) (w : Arr ℕ) (m : Arr Num) (st : Mat Num) : Option (Mat Num) := do
  let init : Arr Num := Arr.fill (cap + 1) 0
  let st ← st.wrRow T init
  let last ← if sz = 0 then none else nz[sz - 1]?
  let first ← nz[0]?
  let st ← if (last : ℤ) ≠ (T : ℤ) - 1 then fillDown (T - 1) first init st else some st
  let (st, _) ← loopDown sz (knapBwdBody r T cap sz nz w m) (st, init)
  some st

/-- knapsack.hpp:281-296. -/
def knapPaths (r : ℚ → Num) (cap wt : ℕ) (mt : Num) (t : ℕ) (F B : Mat Num) (i : ℕ) (p : List Num × List Num) :
    Option (List Num × List Num) := do
  let (solid, dash) := p
  let solid ←
    if i + wt ≤ cap then do
      let f ← F.rd t i
      let b ← B.rd (t + 1) (i + wt)
      some (solid ++ [rn r (rn r (f + b) + mt)])
    else some solid
  let f ← F.rd t i
  let b ← B.rd (t + 1) i
  some (solid, dash ++ [rn r (f + b)])

/-- knapsack.hpp:262-305. -/
def knapOut (r : ℚ → Num) (cap : ℕ) (w : Arr ℕ) (m : Arr Num) (F B : Mat Num) (t : ℕ) (out : Arr Num) : Option (Arr Num) := do
  let wt ← w.rd t
  if wt ≠ 0 then do
    let mt ← m.rd t
    let (solid, dash) ←
      if t = 0 then do
        let f ← F.rd t t
        let b ← B.rd (t + 1) wt
        let b0 ← B.rd (t + 1) 0
        some ([rn r (rn r (f + b) + mt)], [rn r (f + b0)])
      else loopUp (cap + 1) (knapPaths r cap wt mt t F B) ([], [])
    let s ← minElement solid
    let d ← minElement dash
    out.wr t (rn r (rn r (s - d) - mt))
  else out.wr t 0

/-- knapsack.hpp:251-307. -/
def knapExtrinsic (r : ℚ → Num) (cap : ℕ) (w : Arr ℕ) (m : Arr Num) (F B : Mat Num) (out : Arr Num) : Option (Arr Num) :=
  loopUp w.size (knapOut r cap w m F B) out

/-- graphical_model.hpp:145-157. -/
def knapMessages (r : ℚ → Num) (T cap : ℕ) (nz : List ℕ) (sz : ℕ) (w : Arr ℕ) (m : Arr Num) (out : Arr Num) : Option (Arr Num) := do
  let F ← knapForward r T cap nz sz w m (Mat.fill (T + 1) (cap + 1) 0)
  let B ← knapBackward r T cap nz sz w m (Mat.fill (T + 1) (cap + 1) 0)
  knapExtrinsic r cap w m F B out

/-- knapsack.hpp:345-355. -/
def teamToKnapShared (r : ℚ → Num) (reward : Arr Num) (ext : Mat Num) (oric : Arr Num) (d t l : ℕ) (s : Mat Num × List ℕ) :
    Option (Mat Num × List ℕ) := do
  let c ← reward.rd l
  let x ← ext.rd t l
  let o ← oric.rd l
  let m ← s.1.wr d l (rn r (rn r (c + x) + o))
  let u ← eraseFound s.2 l
  some (m, u)

/-- knapsack.hpp:334-357. -/
def teamToKnapOther (r : ℚ → Num) (numTeams : ℕ) (nzs : List (List ℕ)) (reward : Arr Num) (ext : Mat Num) (oric : Arr Num) (d t : ℕ)
    (s : Mat Num × List ℕ) : Option (Mat Num × List ℕ) := do
  let a ← nzs[d]?
  let b ← nzs[t]?
  let inter ← setIntersection numTeams a b
  loopList inter (teamToKnapShared r reward ext oric d t) s

/-- knapsack.hpp:360-363. -/
def teamToKnapUnique (r : ℚ → Num) (reward oric : Arr Num) (d u : ℕ) (m : Mat Num) : Option (Mat Num) := do
  let c ← reward.rd u
  let o ← oric.rd u
  m.wr d u (rn r (c + o))

/-- knapsack.hpp:325-364. -/
def teamToKnapDept (r : ℚ → Num) (numDepartments numTeams : ℕ) (nzs : List (List ℕ)) (reward : Arr Num) (ext : Mat Num) (oric : Arr Num)
    (d : ℕ) (m : Mat Num) : Option (Mat Num) := do
  let u ← nzs[d]?
  let rest ← if d < numDepartments then some ((List.range numDepartments).eraseIdx d) else none
  let (m, u) ← loopList rest (teamToKnapOther r numTeams nzs reward ext oric d) (m, u)
  loopList u (teamToKnapUnique r reward oric d) m

/-- knapsack.hpp:320-365. -/
def teamToKnapsack (r : ℚ → Num) (numDepartments numTeams : ℕ) (nzs : List (List ℕ)) (m : Mat Num) (reward : Arr Num) (ext : Mat Num)
    (oric : Arr Num) : Option (Mat Num) :=
  loopUp ext.rows (teamToKnapDept r numDepartments numTeams nzs reward ext oric) m

/-- update_equality_constraint.hpp:74-88. -/
def teamToOric (r : ℚ → Num) (numTeams : ℕ) (dept : Mat Num) (team2oric reward : Arr Num) : Option (Arr Num) := do
  let s ← addRowsL r dept (Arr.fill numTeams 0)
  addTo r s reward team2oric

/-- update_equality_constraint.hpp:98-108. -/
def projectToOric (r : ℚ → Num) (proj2eq eq2oric reward : Mat Num) : Option (Mat Num) :=
  loopUp proj2eq.rows (fun p out => do
    let x ← proj2eq.rdRow p
    let c ← reward.rdRow p
    let o ← out.rdRow p
    let row ← addTo r x c o
    out.wrRow p row) eq2oric

/-- update_or_inequality_constraint.hpp:79-83. -/
def oricFwdStage (r : ℚ → Num) (eq2oric : Mat Num) (team2oric : Arr Num) (t : ℕ) (stage : ℕ) (fwd : Mat Num) : Option (Mat Num) := do
  let f0 ← fwd.rd stage 0
  let fwd ← fwd.wr (stage + 1) 0 f0
  let g1 ← fwd.rd stage 1
  let g0 ← fwd.rd stage 0
  let e ← eq2oric.rd stage t
  let m ← team2oric.rd t
  fwd.wr (stage + 1) 1 (cmin g1 (rn r (rn r (g0 + e) + m)))

/-- update_or_inequality_constraint.hpp:92-96. -/
def oricBwdStage (r : ℚ → Num) (eq2oric : Mat Num) (team2oric : Arr Num) (t : ℕ) (stage : ℕ) (bwd : Mat Num) : Option (Mat Num) := do
  let b0 ← bwd.rd (stage + 1) 0
  let b1 ← bwd.rd (stage + 1) 1
  let e ← eq2oric.rd stage t
  let m ← team2oric.rd t
  let bwd ← bwd.wr stage 0 (cmin b0 (rn r (rn r (b1 + e) + m)))
  let c1 ← bwd.rd (stage + 1) 1
  bwd.wr stage 1 c1

/-- update_or_inequality_constraint.hpp:101-107. -/
def oricOut (r : ℚ → Num) (fwd bwd : Mat Num) (team2oric : Arr Num) (reward : Mat Num) (t p : ℕ) (st : Mat Num × Mat Num) :
    Option (Mat Num × Mat Num) := do
  let (oric2eq, eq2proj) := st
  let f1 ← fwd.rd p 1
  let b0 ← bwd.rd (p + 1) 0
  let minimumValue := cmin f1 b0
  let minimumValue := cmin minimumValue 0
  let m ← team2oric.rd t
  let oric2eq ← oric2eq.wr p t (rn r (m - minimumValue))
  let o ← oric2eq.rd p t
  let c ← reward.rd p t
  let eq2proj ← eq2proj.wr p t (rn r (o + c))
  some (oric2eq, eq2proj)

/-- update_or_inequality_constraint.hpp:67-109. -/
def oricBody (r : ℚ → Num) (numProjects : ℕ) (eq2oric : Mat Num) (team2oric : Arr Num) (reward : Mat Num) (t : ℕ)
    (st : Mat Num × Mat Num × Mat Num × Mat Num) : Option (Mat Num × Mat Num × Mat Num × Mat Num) := do
  let (fwd, bwd, oric2eq, eq2proj) := st
  let fwd ← fwd.wrRow 0 initFwd2
  let fwd ← loopUp numProjects (oricFwdStage r eq2oric team2oric t) fwd
  let bwd ← bwd.wrRow numProjects initBwd2
  let bwd ← loopDown numProjects (oricBwdStage r eq2oric team2oric t) bwd
  let (oric2eq, eq2proj) ← loopUp numProjects (oricOut r fwd bwd team2oric reward t) (oric2eq, eq2proj)
  some (fwd, bwd, oric2eq, eq2proj)

/-- update_or_inequality_constraint.hpp:56-110. -/
def oricToProjectUpdate (r : ℚ → Num) (numProjects numTeams : ℕ) (eq2oric : Mat Num) (team2oric : Arr Num)
    (oric2eq eq2proj reward : Mat Num) : Option (Mat Num × Mat Num) := do
  let fwd := Mat.fill (numProjects + 1) 2 0
  let bwd := Mat.fill (numProjects + 1) 2 0
  let (_, _, o, e) ← loopUp numTeams (oricBody r numProjects eq2oric team2oric reward) (fwd, bwd, oric2eq, eq2proj)
  some (o, e)

/-- project_inequality_constraint.hpp:65-69. -/
def projFwdStage (r : ℚ → Num) (eq2proj : Mat Num) (p : ℕ) (stage : ℕ) (fwd : Mat Num) : Option (Mat Num) := do
  let f0 ← fwd.rd stage 0
  let fwd ← fwd.wr (stage + 1) 0 f0
  let g1 ← fwd.rd stage 1
  let g0 ← fwd.rd stage 0
  let x ← eq2proj.rd p stage
  fwd.wr (stage + 1) 1 (cmin g1 (rn r (g0 + x)))

/-- project_inequality_constraint.hpp:75-79. -/
def projBwdStage (r : ℚ → Num) (eq2proj : Mat Num) (p : ℕ) (stage : ℕ) (bwd : Mat Num) : Option (Mat Num) := do
  let b0 ← bwd.rd (stage + 1) 0
  let b1 ← bwd.rd (stage + 1) 1
  let x ← eq2proj.rd p stage
  let bwd ← bwd.wr stage 0 (cmin b0 (rn r (b1 + x)))
  let c1 ← bwd.rd (stage + 1) 1
  bwd.wr stage 1 c1

/-- project_inequality_constraint.hpp:54-89; the negation in line 86 is exact. -/
def projBody (r : ℚ → Num) (numTeams : ℕ) (eq2proj : Mat Num) (p : ℕ) (st : Mat Num × Mat Num × Mat Num) :
    Option (Mat Num × Mat Num × Mat Num) := do
  let (fwd, bwd, out) := st
  let fwd ← fwd.wrRow 0 initFwd2
  let fwd ← loopUp numTeams (projFwdStage r eq2proj p) fwd
  let bwd ← bwd.wrRow numTeams initBwd2
  let bwd ← loopDown numTeams (projBwdStage r eq2proj p) bwd
  let out ← loopUp numTeams (projOut fwd bwd p) out
  some (fwd, bwd, out)

/-- project_inequality_constraint.hpp:45-90. -/
def projectInequalityUpdate (r : ℚ → Num) (numTeams : ℕ) (eq2proj proj2eq : Mat Num) : Option (Mat Num) := do
  let fwd := Mat.fill (numTeams + 1) 2 0
  let bwd := Mat.fill (numTeams + 1) 2 0
  let (_, _, out) ← loopUp proj2eq.rows (projBody r numTeams eq2proj) (fwd, bwd, proj2eq)
  some out

/-- graphical_model.hpp:145-158. -/
def kcDept (r : ℚ → Num) (inp : KcInputs) (iter : ℕ) (a : Mat Num) (d : ℕ) (s : Mat Num × Mat Num × Mat Num) :
    Option (Mat Num × Mat Num × Mat Num) := do
  let cap ← inp.maxState.rd d
  let nz ← inp.nzs[d]?
  let sz ← inp.sizes.rd d
  let w ← inp.weights.rdRow d
  let m ← a.rdRow d
  let out ← s.1.rdRow d
  let row ← knapMessages r inp.numTeams cap nz sz w m out
  let dummy ← s.1.wrRow d row
  let (ext, old) ← filterAt r inp.flag inp.alpha iter dummy d (s.2.1, s.2.2)
  some (dummy, ext, old)

/-- input_output.hpp:138-145. -/
def kcIntrinsic (r : ℚ → Num) (numTeams : ℕ) (o2e p2e reward : Mat Num) (out : Arr Num) : Option (Arr Num) :=
  loopUp reward.rows (fun p out => loopUp reward.cols (fun t out => do
    let o ← o2e.rd p t
    let y ← p2e.rd p t
    let c ← reward.rd p t
    out.wr (p + t + p * (numTeams - 1)) (rn r (rn r (o + y) + c))) out) out

/-- input_output.hpp:155-162. -/
def kcExtrinsic (r : ℚ → Num) (ext : Mat Num) (o2t out : Arr Num) : Option (Arr Num) := do
  let out ← o2t.copyTo out
  addRowsL r ext out

/-- graphical_model.hpp:143-168. -/
def kcIter (r : ℚ → Num) (inp : KcInputs) (iter : ℕ) (s : KcState) : Option KcState := do
  let (dummy, ext, extOld) ← loopUp inp.numDepartments (kcDept r inp iter s.a) (s.dummy, s.ext, s.extOld)
  let t2o ← teamToOric r inp.numTeams ext s.t2o inp.reward
  let (o2e, e2p) ← oricToProjectUpdate r inp.numProjects inp.numTeams s.e2o t2o s.o2e s.e2p inp.rewardProject
  let p2e ← projectInequalityUpdate r inp.numTeams e2p s.p2e
  let e2o ← projectToOric r p2e s.e2o inp.rewardProject
  let o2t ← oricToTeamUpdate e2o s.o2t
  let outMwm ← kcIntrinsic r inp.numTeams o2e p2e inp.rewardProject s.outMwm
  let a ← teamToKnapsack r inp.numDepartments inp.numTeams inp.nzs s.a inp.reward ext o2t
  some ⟨a, dummy, ext, extOld, t2o, e2o, o2e, e2p, p2e, o2t, s.outTeam, outMwm⟩

/-- Wrapper.cpp:30-48 and graphical_model.hpp:142-171. -/
def kcSolve (r : ℚ → Num) (inp : KcInputs) (a : Mat Num) (numIter : ℕ) : Option (Arr Num × Arr Num) := do
  let s ← loopUp numIter (kcIter r inp) (kcInit inp a)
  let out ← kcExtrinsic r s.ext s.o2t s.outTeam
  some (out, s.outMwm)

/-- Wrapper.cpp:38-46. -/
def kcWrapper (r : ℚ → Num) (numIter numDepartments numTeams numProjects : ℕ) (flag : Bool) (alpha : ℚ) (f : KcFlat)
    (outTeam outMwm : List Num) : Option (List Num × List Num) := do
  let (inp, a) ← kcDecode numDepartments numTeams numProjects flag alpha f
  let (ext, intr) ← kcSolve r inp a numIter
  let ext ← slice ext.toList 0 numTeams
  let outTeam ← (if ext.length ≤ outTeam.length then some (ext ++ outTeam.drop ext.length) else none)
  let intr ← slice intr.toList 0 (numTeams * numProjects)
  let outMwm ← (if intr.length ≤ outMwm.length then some (intr ++ outMwm.drop intr.length) else none)
  some (outTeam, outMwm)

/-- `x + y` of numpy arrays, see `npAdd`. -/
def npAdd (r : ℚ → Num) (x y : List Num) : Option (List Num) :=
  if x.length = y.length then some (List.zipWith (fun a b => rn r (a + b)) x y)
  else if x.length = 1 then some (y.map (fun b => rn r (x.getD 0 0 + b)))
  else if y.length = 1 then some (x.map (fun a => rn r (a + y.getD 0 0)))
  else none

/-- Impa.py:1518-1565. -/
def kcIteratePy (r : ℚ → Num) (numIter : ℕ) (flag : Bool) (alpha : ℚ) (py : KcPy) : Option (List Num × Mat Num) := do
  let f ← kcFlatten py
  let (ext, intr) ← kcWrapper r numIter py.maxState.length py.numTeams py.numProjects flag alpha f
    (List.replicate py.numTeams 0) (List.replicate (py.numProjects * py.numTeams) 0)
  let mwm ← reshape intr py.numProjects py.numTeams
  let output ← npAdd r ext py.reward
  some (output, mwm)

/-- main_kc_mwm.py:61-74, see `Model.kcCall`. -/
def kcCall (r : ℚ → Num) (d : TeamData) (numIter : ℕ) (flag : Bool) (alpha : ℚ) (post : Bool) (option : ℕ) (threshold : Num) (l : KcLoad) :
    Option KcResult := do
  let (py, teams) ← kcInitialize d l
  let (beliefs, mwm) ← kcIteratePy r numIter flag alpha py
  let p := decisionMatrix threshold mwm
  if post then do
    let byTeams ← (if option = 1 then some false else if option = 2 then some true else none)
    let out ← kcPost teams byTeams py.numTeams threshold mwm beliefs
    let entries ← resultEntries teams (matchedPairs p) out
    some ⟨beliefs, out.final.sel, entries⟩
  else do
    let (_, locs) ← analyseTeams teams (selectedTeams p)
    let entries ← (List.range (selectedTeams p).length).mapM (plainEntry teams (matchedPairs p) (selectedTeams p) locs)
    some ⟨beliefs, selectedTeams p, entries⟩

end Verif.Model.Rounded
