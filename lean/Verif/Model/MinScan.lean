import Verif.Arr

/-!
The forward/backward minimum scan shared by the degree and the subtour elimination constraints.  The C++ code contains
three textual copies of it (degree: outgoing edges, degree: incoming edges, subtour); they differ only in the list of
edge indices and in the message matrix that is read, which are the parameters `l` and `msg` here.
-/

namespace Verif.Model
open Verif Num

/-- update_degree_constraint.hpp:95-103 and 127-135, subtour_elimination_constraint.hpp:69-76:
forward messages.  `l[0]` on an empty list is an out-of-range access. -/
def scanFwd (msg : ℕ → Option Num) (l : List ℕ) (fwd : Arr Num) : Option (Arr Num) := do
  let h ← l[0]?
  let fwd ← fwd.wr h pinf
  loopUp (l.length - 1) (fun i fwd => do
    let cur ← l[i + 1]?
    let prev ← l[i]?
    let f ← fwd.rd prev
    let m ← msg prev
    fwd.wr cur (cmin f m)) fwd

/-- update_degree_constraint.hpp:106-113 and 138-145, subtour_elimination_constraint.hpp:79-89: backward messages. -/
def scanBwd (msg : ℕ → Option Num) (l : List ℕ) (bwd : Arr Num) : Option (Arr Num) := do
  let h ← l[l.length - 1]?
  let bwd ← bwd.wr (h + 1) pinf
  loopDown (l.length - 1) (fun i bwd => do
    let prev ← l[i]?
    let cur ← l[i + 1]?
    let b ← bwd.rd (cur + 1)
    let m ← msg cur
    bwd.wr (prev + 1) (cmin b m)) bwd

end Verif.Model
