import Verif.Spec.MinSum
import Verif.Spec.Tsp
import Verif.Spec.Damping

/-! Specification of the min-sum algorithm for the TSP: one node per edge variable, for every city one "exactly one
outgoing edge" and one "exactly one incoming edge" constraint, and one "at least one edge" constraint per cut. -/

namespace Verif.Spec
open Verif

/-- Start node of edge `e`. -/
def src (edges : List (ℕ × ℕ)) (e : ℕ) : ℕ := (edges.getD e (0, 0)).1
/-- End node of edge `e`. -/
def dst (edges : List (ℕ × ℕ)) (e : ℕ) : ℕ := (edges.getD e (0, 0)).2
/-- The cut constraints that contain edge `e`. -/
def cuts (deltas : List (List ℕ)) (e : ℕ) : Finset ℕ :=
  (Finset.range deltas.length).filter (fun k => e ∈ deltas.getD k [])

/-- The damped message of the previous iteration, or the given start message. -/
def prev (flag : Bool) (alpha : ℚ) (start : ℚ) (q : ℕ → ℚ) : ℕ → ℚ
  | 0 => start
  | j + 1 => damped flag alpha q j

/-- `x j e v`: message from edge `e` to the degree constraint at `v`, at the start of iteration `j`;
`r j e v`: min-sum message from that constraint back to `e`; `y j k e`: message from `e` to cut constraint `k`;
`q j k e`: min-sum message from the cut constraint back to `e`.  `w e` is the cost of edge `e` as seen by cuts, `c e v` as
seen by the degree constraint at `v`.  `x0`, `s0` are start messages. -/
structure IsTspTrace (n : ℕ) (edges : List (ℕ × ℕ)) (deltas : List (List ℕ)) (w : ℕ → ℚ) (c : ℕ → ℕ → ℚ) (flag : Bool)
    (alpha : ℚ) (x0 s0 : ℕ → ℕ → ℚ) (x r y q : ℕ → ℕ → ℕ → ℚ) : Prop where
  init_src : ∀ e < edges.length, x 0 e (src edges e) = x0 e (src edges e)
  init_dst : ∀ e < edges.length, x 0 e (dst edges e) = x0 e (dst edges e)
  out : ∀ j, ∀ v < n, ∀ e ∈ outEdges edges v,
    IsMessage (outEdges edges v) ExactlyOne (fun e => x j e v) e (Num.fin (r j e v))
  inn : ∀ j, ∀ v < n, ∀ e ∈ inEdges edges v,
    IsMessage (inEdges edges v) ExactlyOne (fun e => x j e v) e (Num.fin (r j e v))
  to_cut : ∀ j, ∀ k < deltas.length, ∀ e ∈ deltas.getD k [],
    y j k e = w e + damped flag alpha (fun i => r i e (src edges e)) j + damped flag alpha (fun i => r i e (dst edges e)) j +
      ∑ k' ∈ (cuts deltas e).erase k, prev flag alpha (s0 k' e) (fun i => q i k' e) j
  cut : ∀ j, ∀ k < deltas.length, ∀ e ∈ deltas.getD k [],
    IsMessage (deltas.getD k []).toFinset AtLeastOne (y j k) e (Num.fin (q j k e))
  var_src : ∀ j, ∀ e < edges.length, x (j + 1) e (src edges e) = c e (src edges e) +
    damped flag alpha (fun i => r i e (dst edges e)) j + ∑ k ∈ cuts deltas e, damped flag alpha (fun i => q i k e) j
  var_dst : ∀ j, ∀ e < edges.length, x (j + 1) e (dst edges e) = c e (dst edges e) +
    damped flag alpha (fun i => r i e (src edges e)) j + ∑ k ∈ cuts deltas e, damped flag alpha (fun i => q i k e) j

/-- Extrinsic output of edge `e` after `K` iterations: its two degree messages and all its cut messages.  `d0` and `s0`
are the messages from before the run. -/
def tspOutput (flag : Bool) (alpha : ℚ) (edges : List (ℕ × ℕ)) (deltas : List (List ℕ)) (d0 s0 : ℕ → ℕ → ℚ)
    (r q : ℕ → ℕ → ℕ → ℚ) (K e : ℕ) : ℚ :=
  prev flag alpha (d0 e (src edges e)) (fun i => r i e (src edges e)) K +
    prev flag alpha (d0 e (dst edges e)) (fun i => r i e (dst edges e)) K +
    ∑ k ∈ cuts deltas e, prev flag alpha (s0 k e) (fun i => q i k e) K

/-- Start messages of an augmented run: the edge's entry `C u v` of the cost matrix if messages are reset, otherwise the
messages `x` left by the previous run. -/
def augStart (edges : List (ℕ × ℕ)) (reset : Bool) (C : ℕ → ℕ → ℚ) (x : ℕ → ℕ → ℚ) (e v : ℕ) : ℚ :=
  if reset = true ∧ (v = src edges e ∨ v = dst edges e) then C (src edges e) (dst edges e) else x e v

/-- All ordered pairs of distinct nodes are edges. -/
def Complete (n : ℕ) (edges : List (ℕ × ℕ)) : Prop := ∀ u < n, ∀ v < n, u ≠ v → (u, v) ∈ edges

/-- Every node has at least two outgoing and two incoming edges. -/
def TwoWays (n : ℕ) (edges : List (ℕ × ℕ)) : Prop :=
  ∀ v < n, 2 ≤ (outEdges edges v).card ∧ 2 ≤ (inEdges edges v).card

/-- Cut constraints: at least two distinct edges each. -/
def CutsOk (E : ℕ) (deltas : List (List ℕ)) : Prop :=
  ∀ l ∈ deltas, l.Nodup ∧ 2 ≤ l.length ∧ ∀ e ∈ l, e < E

end Verif.Spec
