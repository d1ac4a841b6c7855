import Verif.Proofs.TspTotal
import Verif.Properties.TspSolve
import Verif.Spec.TspRounds

/-! # The rounds of the TSP solver are the rounds of the specification -/

namespace Verif.Proofs
open Verif Num Spec Model

theorem cuts_complete {n mc : ℕ} {edges sel : List (ℕ × ℕ)} {order : List ℕ} {s s' : TspAnalysis} (ho : StartOrder sel order)
    (h : analyse n mc edges sel order s = some s') (ht' : s'.tourFlag = false) :
    ∀ v, Relation.TransGen (Joined sel) v v →
      ∃ l, IsCycle (Joined sel) l ∧ v ∈ l ∧ ∀ d, IsCut edges (· ∈ l) d → d = [] ∨ d ∈ s'.deltas := by
  intro v hv
  obtain ⟨loops, h1, h2, -⟩ := Properties.C17_subtours ho
  obtain ⟨l, hl, hvl⟩ := (Properties.C17_nodes_covered ho h1 v).mp hv
  simp only [analyse, h1, Option.bind_eq_bind, Option.bind_some, Option.some.injEq] at h
  subst h
  refine ⟨l, h2 l hl, hvl, fun d hd => ?_⟩
  match loops, hl, ht' with
  | [], hl, _ => simp at hl
  | a :: rest, hl, ht' =>
    by_cases hc : rest = [] ∧ a.length = n
    · simp only [analyseLoops, if_pos hc] at ht'
      simp at ht'
    · simp only [analyseLoops, if_neg hc, analyseLoops_foldl]
      obtain ⟨-, -, -, d4⟩ := addDelta_foldl edges (a :: rest) s.deltas
      rw [isCut_unique hd (leavingEdges_isCut edges l)]
      exact d4 l hl

section
variable {inp : TspInputs} {w : ℕ → ℚ} {cc : ℕ → ℕ → ℚ} {C : ℕ → ℕ → ℚ} {numIter : ℕ} {reset augmentation : Bool} {thr : Num}
  {maxCount : ℕ} {maxAugm : ℤ} {order : ℕ → List (ℕ × ℕ) → List ℕ}

/-- What the specification says about the decision and outputs after a round. -/
structure Outcome (P : TspProblem) (E : ℕ) (R : TspRound) (st : TspState) : Prop where
  selected : st.selected = R.sel
  cost : ∃ q, Selects P.edges P.w (fun e => R.output P e + P.w e) P.thr R.sel q ∧ st.cost = fin q
  ext : st.ext.Is E (R.output P)
  intr : st.intr.Is E (fun e => R.output P e + P.w e)

/-- The messages a round leaves. -/
structure Leaves (inp : TspInputs) (P : TspProblem) (R : TspRound) (m : TspMsgs) : Prop where
  ok : TspMsgsOk inp R.cuts m
  x : ∀ e < inp.edges.length, ∀ v, v = src inp.edges e ∨ v = dst inp.edges e → m.e2d.val e v = R.x P.iters e v
  d : ∀ e < inp.edges.length, ∀ v, v = src inp.edges e ∨ v = dst inp.edges e →
    m.deg.val e v = prev P.flag P.alpha (R.d0 e v) (fun i => R.r i e v) P.iters
  s : ∀ k < R.cuts.length, ∀ e ∈ R.cuts.getD k [], m.s2e.val k e = prev P.flag P.alpha (R.s0 k e) (fun i => R.q i k e) P.iters

theorem selects_of_hard (h : TspOk inp w cc) {intr : Arr Num} {b : ℕ → ℚ} (hi : intr.Is inp.numEdges b) {sel : List (ℕ × ℕ)} {total : Num}
    (hh : hardDecision inp.numEdges thr intr inp.edges inp.cost = some (sel, total)) :
    ∃ q, Selects inp.edges w b thr sel q ∧ total = fin q := by
  obtain ⟨L, sel', total', h1, h2, h3, h4, h5⟩ := Properties.C14_hard_decision thr hi.1 h.len h.cost
  rw [hh] at h1
  simp only [Option.some.injEq, Prod.mk.injEq] at h1
  obtain ⟨rfl, rfl⟩ := h1
  refine ⟨_, ⟨L, h2, fun e => ?_, h4, rfl⟩, h5⟩
  rw [h3, h.len]
  constructor
  · rintro ⟨a, b⟩; rw [hi.2 e a] at b; exact ⟨a, b⟩
  · rintro ⟨a, b⟩; rw [← hi.2 e a] at b; exact ⟨a, b⟩

/-- The relaxed round. -/
theorem relaxed_round (h : TspOk inp w cc) {e2d : Mat Num} {x0 : ℕ → ℕ → ℚ}
    (he : e2d.Is inp.numEdges inp.numNodes x0) {st : TspState}
    (hs : iterateRelaxed (tspSetup inp numIter reset augmentation thr maxCount maxAugm order) (tspStart inp e2d) = some st) :
    ∃ R : TspRound, R.Ok (tspProblem inp w cc C numIter reset thr) ∧ R.cuts = [] ∧ R.x0 = x0 ∧ R.d0 = (fun _ _ => 0) ∧
      Outcome (tspProblem inp w cc C numIter reset thr) inp.numEdges R st ∧
      Leaves inp (tspProblem inp w cc C numIter reset thr) R st.msgs := by
  obtain ⟨⟨x, r, y, q, ht⟩, hrun⟩ := Properties.C12_relaxed_run h he (fun _ _ => 0)
  obtain ⟨m, ext, intr, r1, r2, r3, r4, r5, r6⟩ := hrun x r y q ht numIter
  obtain ⟨m1, ext1, intr1, sel, total, an, f1, f2, f3, rfl⟩ := iterateRelaxed_facts hs
  have e1 : (tspSetup inp numIter reset augmentation thr maxCount maxAugm order).relaxed [] (tspStart inp e2d).msgs ((tspStart inp e2d).ext, (tspStart inp e2d).intr) = some (m, ext, intr) := r1
  rw [e1] at f1
  simp only [Option.some.injEq, Prod.mk.injEq] at f1
  obtain ⟨rfl, rfl, rfl⟩ := f1
  obtain ⟨c, hc, hct⟩ := selects_of_hard h r5 f2
  have hE : ∀ {e}, e < inp.edges.length → e < inp.numEdges := fun he => by rw [← h.len]; exact he
  refine ⟨⟨[], x0, fun _ _ => 0, fun _ _ => 0, x, r, y, q, sel⟩, ⟨ht, c, hc⟩, rfl, rfl, rfl, ⟨rfl, ⟨c, hc, hct⟩, r4, r5⟩,
    ⟨r2, fun e he v hv => ?_, fun e he v hv => r6 e (hE he) v hv, fun k hk => by simp at hk⟩⟩
  rcases hv with rfl | rfl
  · exact (r3 e (hE he)).1
  · exact (r3 e (hE he)).2

/-- An augmentation round. -/
theorem augmented_round (h : TspOk inp w cc) (hC : inp.costMatrix.Is inp.numNodes inp.numNodes C) {st st1 : TspState} (hi : SolverInv inp st)
    (hs : iterateAugmented (tspSetup inp numIter reset augmentation thr maxCount maxAugm order) st = some st1) :
    ∃ R : TspRound, R.Ok (tspProblem inp w cc C numIter reset thr) ∧ R.cuts = st.an.deltas ∧
      R.x0 = augStart inp.edges reset C st.msgs.e2d.val ∧ R.d0 = st.msgs.deg.val ∧ R.s0 = st.msgs.s2e.val ∧
      Outcome (tspProblem inp w cc C numIter reset thr) inp.numEdges R st1 ∧
      Leaves inp (tspProblem inp w cc C numIter reset thr) R st1.msgs := by
  obtain ⟨⟨x, r, y, q, ht⟩, hrun⟩ := Properties.C38_augmented_run h hi.cuts hC reset hi.msgs
  obtain ⟨m, ext, intr, r1, r2, r3, r4, r5, r6, r7⟩ := hrun x r y q ht numIter (st.ext, st.intr) hi.ext hi.intr
  obtain ⟨intr1, f1, f2, f3, f4, -⟩ := iterateAugmented_facts hs
  have e1 : (tspSetup inp numIter reset augmentation thr maxCount maxAugm order).augmented st.an.deltas st.msgs (st.ext, st.intr) = some (m, ext, intr) := r1
  rw [e1] at f1
  simp only [Option.some.injEq, Prod.mk.injEq] at f1
  obtain ⟨rfl, rfl, rfl⟩ := f1
  obtain ⟨c, hc, hct⟩ := selects_of_hard h r5 f3
  have hE : ∀ {e}, e < inp.edges.length → e < inp.numEdges := fun he => by rw [← h.len]; exact he
  refine ⟨⟨st.an.deltas, augStart inp.edges reset C st.msgs.e2d.val, st.msgs.deg.val, st.msgs.s2e.val, x, r, y, q, st1.selected⟩,
    ⟨ht, c, hc⟩, rfl, rfl, rfl, rfl, ⟨rfl, ⟨c, hc, hct⟩, r4, by rw [f2]; exact r5⟩,
    ⟨r2, fun e he v hv => ?_, fun e he v hv => r6 e (hE he) v hv, r7⟩⟩
  rcases hv with rfl | rfl
  · exact (r3 e (hE he)).1
  · exact (r3 e (hE he)).2

/-- The step from one round to the next. -/
theorem next_round (h : TspOk inp w cc) {s : TspAnalysis} {st st2 : TspState} {R R' : TspRound}
    (ho : ∀ k sel, StartOrder sel (order k sel)) {j : ℕ}
    (hsel : st.selected = R.sel) (hcuts : R.cuts = s.deltas)
    (han : analyse inp.numNodes maxCount inp.edges st.selected (order j st.selected) s = some st.an)
    (ht' : st.an.tourFlag = false)
    (hl : Leaves inp (tspProblem inp w cc C numIter reset thr) R st.msgs) (ha : addMissingRows st = some st2)
    (hx : R'.x0 = augStart inp.edges reset C st2.msgs.e2d.val) (hd : R'.d0 = st2.msgs.deg.val) (hs : R'.s0 = st2.msgs.s2e.val)
    (hc' : R'.cuts = st.an.deltas) : R.Next (tspProblem inp w cc C numIter reset thr) R' := by
  obtain ⟨c1, c2, c3, -⟩ := Properties.C19_round (ho _ _) han
  have hc4 := cuts_complete (ho _ _) han ht'
  obtain ⟨more, hm⟩ := c1
  have hrows : st.msgs.s2e.rows = R.cuts.length := hl.ok.s2e.1
  have hE : ∀ {e}, e < inp.edges.length → e < inp.numEdges := fun he => by rw [← h.len]; exact he
  -- the state with the rows added
  have key : st2.msgs.e2d = st.msgs.e2d ∧ st2.msgs.deg = st.msgs.deg ∧
      (∀ k < R.cuts.length, ∀ e, st2.msgs.s2e.val k e = st.msgs.s2e.val k e) ∧
      (∀ k, R.cuts.length ≤ k → k < st.an.deltas.length → ∀ e, st2.msgs.s2e.val k e = 0) := by
    unfold addMissingRows at ha
    split at ha
    · rename_i hh
      simp only [Option.some.injEq] at ha; subst ha
      exact ⟨rfl, rfl, fun _ _ _ => rfl, fun k a b => by omega⟩
    · split at ha
      · simp at ha
      · simp only [Option.some.injEq] at ha; subst ha
        refine ⟨rfl, rfl, fun k hk e => ?_, fun k hk hk' e => ?_⟩
        · show (if k < st.msgs.s2e.rows then st.msgs.s2e.data k e else 0).val = _
          rw [if_pos (by omega)]; rfl
        · show (if k < st.msgs.s2e.rows then st.msgs.s2e.data k e else 0).val = _
          rw [if_neg (by omega)]; rfl
  obtain ⟨k1, k2, k3, k4⟩ := key
  exact {
    start := fun e he v hv => by
      rw [hx, k1]
      show augStart inp.edges reset C st.msgs.e2d.val e v = augStart inp.edges reset C (R.x numIter) e v
      unfold augStart
      rw [hl.x e he v hv]; rfl
    degree := fun e he v hv => by rw [hd, k2]; exact hl.d e he v hv
    old_cut := fun k hk e he => by rw [hs, k3 k hk]; exact hl.s k hk e he
    new_cut := fun k hk hk' e _ => by rw [hs]; exact k4 k hk (by rw [← hc']; exact hk') e
    keep := by rw [hcuts, hc']; exact ⟨more, hm⟩
    nodup := by rw [hcuts, hc']; exact c2
    sound := fun d hd => by
      rw [hc'] at hd
      rcases c3 d hd with a | ⟨a, l, -, b, c⟩
      · exact Or.inl (hcuts ▸ a)
      · exact Or.inr ⟨a, l, hsel ▸ b, c⟩
    complete := fun v hv => by
      obtain ⟨l, a, b, c⟩ := hc4 v (hsel ▸ hv)
      exact ⟨l, hsel ▸ a, b, fun d hd => by rw [hc']; exact c d hd⟩ }

/-- What is known after a run of `k` augmentation rounds. -/
theorem run_rounds (h : TspOk inp w cc) (hC : inp.costMatrix.Is inp.numNodes inp.numNodes C) (hn : 3 ≤ inp.numNodes)
    (hcomp : Complete inp.numNodes inp.edges) (ho : ∀ k sel, StartOrder sel (order k sel)) {e2d : Mat Num} {x0 : ℕ → ℕ → ℚ}
    (he : e2d.Is inp.numEdges inp.numNodes x0) {st1 : TspState} {f : ℕ → TspState} {k : ℕ}
    (h1 : iterateRelaxed (tspSetup inp numIter reset augmentation thr maxCount maxAugm order) (tspStart inp e2d) = some st1)
    (hf0 : ∃ m, f 0 = { st1 with msgs := m }) (hf : 0 < k → f 0 = addFirstRows st1)
    (hr : AugRun (tspSetup inp numIter reset augmentation thr maxCount maxAugm order) f k) :
    ∃ R, TspRounds (tspProblem inp w cc C numIter reset thr) x0 R k ∧
      ∀ i ≤ k, Outcome (tspProblem inp w cc C numIter reset thr) inp.numEdges (R i) (f i) := by
  obtain ⟨R0, a1, a2, a3, a4, a5, a6⟩ := relaxed_round (C := C) h he h1
  have out0 : Outcome (tspProblem inp w cc C numIter reset thr) inp.numEdges R0 (f 0) := by
    obtain ⟨m, hm⟩ := hf0
    rw [hm]; exact ⟨a5.selected, a5.cost, a5.ext, a5.intr⟩
  by_cases hk0 : k = 0
  · subst hk0
    refine ⟨fun _ => R0, ⟨a2, fun e he v hv => by rw [a3], fun e he v hv => by rw [a4], fun i hi => a1, fun i hi => by omega⟩,
      fun i hi => ?_⟩
    obtain rfl : i = 0 := by omega
    exact out0
  -- rows are added after the relaxed round
  have hrel : ∃ s, iterateRelaxed (tspSetup inp numIter reset augmentation thr maxCount maxAugm order) (tspStart inp e2d) = some s ∧
      TspMsgsOk inp [] s.msgs ∧ CutsOk inp.numEdges s.an.deltas ∧ s.ext.size = inp.numEdges ∧ s.intr.size = inp.numEdges :=
    relaxed_total h hn hcomp ho he
  obtain ⟨s, s1, s2, s3, s4, s5⟩ := hrel
  rw [h1] at s1
  obtain rfl : st1 = s := by simpa using s1
  have hrow0 : st1.msgs.s2e.rows = 0 := s2.s2e.1
  have ham0 : addMissingRows st1 = some (f 0) := by
    rw [hf (by omega)]
    unfold addMissingRows addFirstRows
    rw [hrow0]
    by_cases hd : st1.an.deltas.length = 0
    · rw [if_pos hd.symm, if_neg (by omega)]
    · rw [if_neg (by omega), if_neg (by omega), if_pos (by omega), Nat.sub_zero]
  have inv0 : SolverInv inp (f 0) := by
    rw [hf (by omega)]
    unfold addFirstRows
    split
    · exact ⟨by simpa using tspAddCuts_ok s2 st1.an.deltas, s3, s4, s5⟩
    · have : st1.an.deltas = [] := List.eq_nil_of_length_eq_zero (by omega)
      exact ⟨by rw [this]; exact s2, s3, s4, s5⟩
  have inv : ∀ i < k, SolverInv inp (f i) := by
    intro i
    induction i with
    | zero => intro _; exact inv0
    | succ i ih =>
      intro hi
      obtain ⟨t, t1, t2⟩ := hr.round i (by omega)
      rcases t2 with ⟨b, -⟩ | ⟨-, b⟩
      · omega
      · obtain ⟨u1, u2, v1, v2, v3⟩ := round_total (numIter := numIter) (reset := reset) (augmentation := augmentation) (thr := thr)
          (maxCount := maxCount) (maxAugm := maxAugm) h hC hn hcomp ho (ih (by omega))
        rw [t1] at v1
        obtain rfl : t = u1 := by simpa using v1
        rw [b] at v2
        obtain rfl : f (i + 1) = u2 := by simpa using v2
        exact v3
  have step : ∀ i, ∃ (t : TspState) (R : TspRound), i < k →
      iterateAugmented (tspSetup inp numIter reset augmentation thr maxCount maxAugm order) (f i) = some t ∧
      ((i + 1 = k ∧ f k = t) ∨ addMissingRows t = some (f (i + 1))) ∧
      R.Ok (tspProblem inp w cc C numIter reset thr) ∧ R.cuts = (f i).an.deltas ∧
      R.x0 = augStart inp.edges reset C (f i).msgs.e2d.val ∧ R.d0 = (f i).msgs.deg.val ∧ R.s0 = (f i).msgs.s2e.val ∧
      Outcome (tspProblem inp w cc C numIter reset thr) inp.numEdges R t ∧
      Leaves inp (tspProblem inp w cc C numIter reset thr) R t.msgs := by
    intro i
    by_cases hi : i < k
    · obtain ⟨t, t1, t2⟩ := hr.round i hi
      obtain ⟨R, b⟩ := augmented_round (C := C) h hC (inv i hi) t1
      refine ⟨t, R, fun _ => ⟨t1, ?_, b⟩⟩
      rcases t2 with ⟨b, -, c⟩ | ⟨-, c⟩
      · exact Or.inl ⟨b, c⟩
      · exact Or.inr c
    · exact ⟨st1, R0, fun hh => absurd hh hi⟩
  choose t Q hQ using step
  refine ⟨fun i => if i = 0 then R0 else Q (i - 1), ⟨?_, ?_, ?_, ?_, ?_⟩, ?_⟩
  · simpa using a2
  · intro e he v hv; simp [a3]
  · intro e he v hv; simp [a4]
  · intro i hi
    by_cases h0 : i = 0
    · simpa [h0] using a1
    · simp only [if_neg h0]; exact (hQ (i - 1) (by omega)).2.2.1
  · intro i hi
    simp only [Nat.add_one_ne_zero, if_false, Nat.add_sub_cancel]
    obtain ⟨q1, q2, q3, q4, q5, q6, q7, q8, q9⟩ := hQ i hi
    by_cases h0 : i = 0
    · subst h0
      simp only [if_true]
      obtain ⟨m1, ext1, intr1, sel, total, an, -, f2, f3, rfl⟩ := iterateRelaxed_facts h1
      have htf := (hr.going 0 hi).1
      obtain ⟨m, hm⟩ := hf0
      rw [hm] at htf
      exact next_round (s := {}) (st2 := f 0) h ho a5.selected a2 f3 htf a6 ham0 q5 q6 q7 (by rw [q4, hm])
    · simp only [if_neg h0]
      obtain ⟨p1, p2, p3, p4, p5, p6, p7, p8, p9⟩ := hQ (i - 1) (by omega)
      rw [show i - 1 + 1 = i by omega] at p2
      rcases p2 with ⟨b, -⟩ | p2
      · omega
      obtain ⟨_, -, -, -, g4, -⟩ := iterateAugmented_facts p1
      obtain ⟨-, m, hm⟩ := addMissingRows_facts p2
      have htf := (hr.going i hi).1
      rw [hm] at htf
      exact next_round (st2 := f i) h ho p8.selected p4 g4 htf p9 p2 q5 q6 q7 (by rw [q4, hm])
  · intro i hi
    by_cases h0 : i = 0
    · simpa [h0] using out0
    · simp only [if_neg h0]
      obtain ⟨p1, p2, p3, p4, p5, p6, p7, p8, p9⟩ := hQ (i - 1) (by omega)
      rw [show i - 1 + 1 = i by omega] at p2
      rcases p2 with ⟨b, c⟩ | p2
      · subst b; rw [c]; exact p8
      · obtain ⟨-, m, hm⟩ := addMissingRows_facts p2
        rw [hm]; exact ⟨p8.selected, p8.cost, p8.ext, p8.intr⟩

/-- If the solver does not return, then because of a selection of cost zero. -/
theorem exit_run (h : TspOk inp w cc) (hC : inp.costMatrix.Is inp.numNodes inp.numNodes C) (hn : 3 ≤ inp.numNodes)
    (hcomp : Complete inp.numNodes inp.edges) (ho : ∀ k sel, StartOrder sel (order k sel)) {e2d : Mat Num} {x0 : ℕ → ℕ → ℚ}
    (he : e2d.Is inp.numEdges inp.numNodes x0) {fuel : ℕ}
    (hs : tspSolve (tspSetup inp numIter reset augmentation thr maxCount maxAugm order) fuel (tspStart inp e2d) = some none) :
    ∃ (st1 : TspState) (k : ℕ) (f : ℕ → TspState),
      iterateRelaxed (tspSetup inp numIter reset augmentation thr maxCount maxAugm order) (tspStart inp e2d) = some st1 ∧
      (∃ m, f 0 = { st1 with msgs := m }) ∧ f 0 = addFirstRows st1 ∧
      AugRun (tspSetup inp numIter reset augmentation thr maxCount maxAugm order) f k ∧ augmentation = true ∧ (f k).cost = 0 := by
  obtain ⟨st1, r1, r2, r3, r4, r5⟩ := relaxed_total (numIter := numIter) (reset := reset) (augmentation := augmentation)
    (thr := thr) (maxCount := maxCount) (maxAugm := maxAugm) h hn hcomp ho he
  unfold tspSolve at hs
  rw [r1] at hs
  simp only at hs
  by_cases hgo : (!st1.an.satisfied && (tspSetup inp numIter reset augmentation thr maxCount maxAugm order).augmentation) = true
  · rw [if_pos hgo] at hs
    unfold performAugmentation at hs
    have inv0 : SolverInv inp (addFirstRows st1) := by
      unfold addFirstRows
      split
      · exact ⟨by simpa using tspAddCuts_ok r2 st1.an.deltas, r3, r4, r5⟩
      · have : st1.an.deltas = [] := List.eq_nil_of_length_eq_zero (by omega)
        exact ⟨by rw [this]; exact r2, r3, r4, r5⟩
    obtain ⟨k, f, f0, hr, hz, -⟩ := augmentLoop_total h hC hn hcomp ho fuel inv0 hs
    refine ⟨st1, k, f, r1, ?_, f0, hr, by simpa [tspSetup] using (Bool.and_eq_true _ _ ▸ hgo).2, hz⟩
    rw [f0, addFirstRows]; split
    · exact ⟨_, rfl⟩
    · exact ⟨st1.msgs, rfl⟩
  · rw [if_neg hgo] at hs; simp at hs
end

/-! ## The specification determines the selections -/

theorem rounds_cuts_lt {P : TspProblem} {x0 : ℕ → ℕ → ℚ} {R : ℕ → TspRound} {k : ℕ} (hR : TspRounds P x0 R k) :
    ∀ i ≤ k, ∀ l ∈ (R i).cuts, ∀ e ∈ l, e < P.edges.length := by
  intro i
  induction i with
  | zero => intro _ l hl; rw [hR.first_cuts] at hl; simp at hl
  | succ i ih =>
    intro hi l hl e he
    rcases (hR.next i (by omega)).sound l hl with a | ⟨-, c, -, hc⟩
    · exact ih (by omega) l a e he
    · obtain ⟨p, hp, -⟩ := (hc.2 e).mp he
      exact (List.getElem?_eq_some_iff.mp hp).1

theorem selects_unique {edges : List (ℕ × ℕ)} {w b b' : ℕ → ℚ} {thr : Num} {sel sel' : List (ℕ × ℕ)} {c c' : ℚ}
    (h : Selects edges w b thr sel c) (h' : Selects edges w b' thr sel' c') (hb : ∀ e < edges.length, b e = b' e) : sel = sel' := by
  obtain ⟨L, l1, l2, l3, -⟩ := h
  obtain ⟨L', m1, m2, m3, -⟩ := h'
  have hL : L = L' := by
    refine List.Perm.eq_of_pairwise (le := (· < ·)) (fun a b _ _ h1 h2 => absurd h1 (by omega)) l1 m1 ?_
    refine (List.perm_ext_iff_of_nodup (l1.imp fun h => Nat.ne_of_lt h) (m1.imp fun h => Nat.ne_of_lt h)).mpr fun e => ?_
    rw [l2, m2]
    constructor
    · rintro ⟨a, d⟩; exact ⟨a, hb e a ▸ d⟩
    · rintro ⟨a, d⟩; exact ⟨a, hb e a ▸ d⟩
  subst hL
  rw [← m3] at l3
  exact (List.map_injective_iff.mpr (Option.some_injective _)) l3

theorem rounds_unique {P : TspProblem} {x0 : ℕ → ℕ → ℚ} (hok : EdgesOk P.n P.edges) {R R' : ℕ → TspRound} {k : ℕ} (hR : TspRounds P x0 R k)
    (hR' : TspRounds P x0 R' k) (hc : ∀ i ≤ k, (R i).cuts = (R' i).cuts) :
    ∀ i ≤ k, (R i).sel = (R' i).sel ∧ ∀ e < P.edges.length, (R i).output P e = (R' i).output P e := by
  have hlt := rounds_cuts_lt hR
  -- equal starts give equal rounds
  have same : ∀ i ≤ k,
      (∀ e < P.edges.length, ∀ v, v = src P.edges e ∨ v = dst P.edges e → (R i).x0 e v = (R' i).x0 e v) →
      (∀ j < (R i).cuts.length, ∀ e ∈ (R i).cuts.getD j [], (R i).s0 j e = (R' i).s0 j e) → ∀ j,
      (∀ e < P.edges.length, ∀ v, v = src P.edges e ∨ v = dst P.edges e → (R i).x j e v = (R' i).x j e v ∧ (R i).r j e v = (R' i).r j e v) ∧
      ∀ l < (R i).cuts.length, ∀ e ∈ (R i).cuts.getD l [], (R i).y j l e = (R' i).y j l e ∧ (R i).q j l e = (R' i).q j l e := by
    intro i hi hx hs
    have t' := (hR'.ok i hi).trace
    rw [← hc i hi] at t'
    have t'' : IsTspTrace P.n P.edges (R i).cuts P.w P.c P.flag P.alpha (R i).x0 (R i).s0 (R' i).x (R' i).r (R' i).y (R' i).q := { t' with
      init_src := fun e he => (t'.init_src e he).trans (hx e he _ (Or.inl rfl)).symm
      init_dst := fun e he => (t'.init_dst e he).trans (hx e he _ (Or.inr rfl)).symm
      to_cut := fun j l hl e he => by
        rw [t'.to_cut j l hl e he]
        congr 1
        refine Finset.sum_congr rfl fun l' hl' => ?_
        have hm := mem_cuts.mp (Finset.mem_of_mem_erase hl')
        rw [hs l' hm.1 e hm.2] }
    exact tspTrace_unique hok (hlt i hi) (hR.ok i hi).trace t''
  have starts : ∀ i ≤ k,
      (∀ e < P.edges.length, ∀ v, v = src P.edges e ∨ v = dst P.edges e → (R i).x0 e v = (R' i).x0 e v) ∧
      (∀ e < P.edges.length, ∀ v, v = src P.edges e ∨ v = dst P.edges e → (R i).d0 e v = (R' i).d0 e v) ∧
      (∀ j < (R i).cuts.length, ∀ e ∈ (R i).cuts.getD j [], (R i).s0 j e = (R' i).s0 j e) := by
    intro i
    induction i with
    | zero =>
      intro _
      refine ⟨fun e he v hv => ?_, fun e he v hv => ?_, fun j hj => ?_⟩
      · rw [hR.first_start e he v hv, hR'.first_start e he v hv]
      · rw [hR.first_degree e he v hv, hR'.first_degree e he v hv]
      · rw [hR.first_cuts] at hj; simp at hj
    | succ i ih =>
      intro hi
      obtain ⟨a, b, c⟩ := ih (by omega)
      have hu := same i (by omega) a c
      have n1 := hR.next i (by omega)
      have n2 := hR'.next i (by omega)
      refine ⟨fun e he v hv => ?_, fun e he v hv => ?_, fun j hj e he => ?_⟩
      · rw [n1.start e he v hv, n2.start e he v hv]
        unfold augStart
        rw [((hu P.iters).1 e he v hv).1]
      · rw [n1.degree e he v hv, n2.degree e he v hv, b e he v hv, prev_congr fun l _ => ((hu l).1 e he v hv).2]
      · by_cases hj' : j < (R i).cuts.length
        · have hg : (R (i + 1)).cuts.getD j [] = (R i).cuts.getD j [] := by
            obtain ⟨more, hm⟩ := n1.keep
            rw [← hm, List.getD_eq_getElem?_getD, List.getElem?_append_left hj', ← List.getD_eq_getElem?_getD]
          rw [hg] at he
          rw [n1.old_cut j hj' e he, n2.old_cut j (by rw [← hc i (by omega)]; exact hj') e (by rw [← hc i (by omega)]; exact he),
            c j hj' e he, prev_congr fun l _ => ((hu l).2 j hj' e he).2]
        · rw [n1.new_cut j (by omega) hj e he, n2.new_cut j (by rw [← hc i (by omega)]; omega) (by rw [← hc (i + 1) hi]; exact hj) e
            (by rw [← hc (i + 1) hi]; exact he)]
  intro i hi
  obtain ⟨a, b, c⟩ := starts i hi
  have hu := same i hi a c
  have hout : ∀ e < P.edges.length, (R i).output P e = (R' i).output P e := by
    intro e he
    unfold TspRound.output tspOutput
    rw [← hc i hi, b e he _ (Or.inl rfl), b e he _ (Or.inr rfl), prev_congr fun l _ => ((hu l).1 e he _ (Or.inl rfl)).2,
      prev_congr fun l _ => ((hu l).1 e he _ (Or.inr rfl)).2]
    congr 1
    refine Finset.sum_congr rfl fun j hj => ?_
    have hm := mem_cuts.mp hj
    rw [c j hm.1 e hm.2, prev_congr fun l _ => ((hu l).2 j hm.1 e hm.2).2]
  refine ⟨?_, hout⟩
  obtain ⟨_, s1⟩ := (hR.ok i hi).selects
  obtain ⟨_, s2⟩ := (hR'.ok i hi).selects
  exact selects_unique s1 s2 fun e he => by rw [hout e he]

end Verif.Proofs
