import Verif.Spec.TspRun
import Verif.Spec.Loops

/-! Specification of the whole TSP algorithm: rounds of min-sum message passing, each with the cuts found so far. -/

namespace Verif.Spec
open Verif

/-- An instance with the settings of the algorithm.  `w` are the edge costs as seen by cuts and decisions, `c` as seen by
degree constraints, `C` is the cost matrix; `iters` is the number of iterations per round. -/
structure TspProblem where
  n : ℕ
  edges : List (ℕ × ℕ)
  w : ℕ → ℚ
  c : ℕ → ℕ → ℚ
  C : ℕ → ℕ → ℚ
  flag : Bool
  alpha : ℚ
  iters : ℕ
  reset : Bool
  thr : Num

/-- One round: its cuts, the messages it starts with (`x0` from edges to degree constraints, `d0` back, `s0` from
cuts), its min-sum messages (see `IsTspTrace`) and the edges selected at the end. -/
structure TspRound where
  cuts : List (List ℕ)
  x0 : ℕ → ℕ → ℚ
  d0 : ℕ → ℕ → ℚ
  s0 : ℕ → ℕ → ℚ
  x : ℕ → ℕ → ℕ → ℚ
  r : ℕ → ℕ → ℕ → ℚ
  y : ℕ → ℕ → ℕ → ℚ
  q : ℕ → ℕ → ℕ → ℚ
  sel : List (ℕ × ℕ)

/-- Extrinsic output of an edge at the end of the round. -/
def TspRound.output (R : TspRound) (P : TspProblem) (e : ℕ) : ℚ :=
  tspOutput P.flag P.alpha P.edges R.cuts R.d0 R.s0 R.r R.q P.iters e

/-- `sel` lists the edges whose belief is not above the threshold, in the order of the edge list, `cost` is their cost. -/
def Selects (edges : List (ℕ × ℕ)) (w : ℕ → ℚ) (belief : ℕ → ℚ) (thr : Num) (sel : List (ℕ × ℕ)) (cost : ℚ) : Prop :=
  ∃ L : List ℕ, L.Pairwise (· < ·) ∧ (∀ e, e ∈ L ↔ e < edges.length ∧ ¬ Above (Num.fin (belief e)) thr) ∧
    sel.map some = L.map (fun e => edges[e]?) ∧ cost = (L.map w).sum

/-- The round runs min-sum with its cuts and selects edges by their beliefs. -/
structure TspRound.Ok (P : TspProblem) (R : TspRound) : Prop where
  trace : IsTspTrace P.n P.edges R.cuts P.w P.c P.flag P.alpha R.x0 R.s0 R.x R.r R.y R.q
  selects : ∃ cost, Selects P.edges P.w (fun e => R.output P e + P.w e) P.thr R.sel cost

/-- Round `R'` comes right after round `R`: it goes on with the messages of `R` (unless they are reset); cuts stay; new ones
are the cuts of selected cycles and start with zero messages; every node on a selected cycle is on a cycle that gets its cut. -/
structure TspRound.Next (P : TspProblem) (R R' : TspRound) : Prop where
  start : ∀ e < P.edges.length, ∀ v, v = src P.edges e ∨ v = dst P.edges e →
    R'.x0 e v = augStart P.edges P.reset P.C (R.x P.iters) e v
  degree : ∀ e < P.edges.length, ∀ v, v = src P.edges e ∨ v = dst P.edges e →
    R'.d0 e v = prev P.flag P.alpha (R.d0 e v) (fun i => R.r i e v) P.iters
  old_cut : ∀ k < R.cuts.length, ∀ e ∈ R.cuts.getD k [], R'.s0 k e = prev P.flag P.alpha (R.s0 k e) (fun i => R.q i k e) P.iters
  new_cut : ∀ k, R.cuts.length ≤ k → k < R'.cuts.length → ∀ e ∈ R'.cuts.getD k [], R'.s0 k e = 0
  keep : R.cuts <+: R'.cuts
  nodup : R.cuts.Nodup → R'.cuts.Nodup
  sound : ∀ d ∈ R'.cuts, d ∈ R.cuts ∨ d ≠ [] ∧ ∃ l, IsCycle (Joined R.sel) l ∧ IsCut P.edges (· ∈ l) d
  complete : ∀ v, Relation.TransGen (Joined R.sel) v v →
    ∃ l, IsCycle (Joined R.sel) l ∧ v ∈ l ∧ ∀ d, IsCut P.edges (· ∈ l) d → d = [] ∨ d ∈ R'.cuts

/-- Rounds `0, ..., k` of the algorithm, from start messages `x0`.  Round 0 has no cuts. -/
structure TspRounds (P : TspProblem) (x0 : ℕ → ℕ → ℚ) (R : ℕ → TspRound) (k : ℕ) : Prop where
  first_cuts : (R 0).cuts = []
  first_start : ∀ e < P.edges.length, ∀ v, v = src P.edges e ∨ v = dst P.edges e → (R 0).x0 e v = x0 e v
  first_degree : ∀ e < P.edges.length, ∀ v, v = src P.edges e ∨ v = dst P.edges e → (R 0).d0 e v = 0
  ok : ∀ i ≤ k, (R i).Ok P
  next : ∀ i < k, (R i).Next P (R (i + 1))

end Verif.Spec
