import Verif.Proofs.TspSolve
import Verif.Proofs.TspTrace
import Verif.Properties.TspLoops

/-! # The TSP solver returns -/

namespace Verif.Proofs
open Verif Num Spec Model

theorem augRun_zero {c : TspSetup} (st : TspState) : AugRun c (fun _ => st) 0 := ⟨by simp, by simp⟩

theorem augRun_cons {c : TspSetup} {st st1 st2 : TspState} {f : ℕ → TspState} {k : ℕ}
    (hgo : st.an.tourFlag = false ∧ st.an.satisfied = false ∧ st.an.noConsFlag = false ∧ st.noImprovFlag = false ∧
      st.solOscFlag = false ∧ st.cost ≠ 0) (hi : iterateAugmented c st = some st1) (hl : (st1.numAugm : ℤ) ≠ c.maxAugm)
    (ha : addMissingRows st1 = some st2) (f0 : f 0 = st2) (hr : AugRun c f k) :
    AugRun c (fun i => if i = 0 then st else f (i - 1)) (k + 1) := by
  refine ⟨fun i hi' => ?_, fun i hi' => ?_⟩
  · by_cases h0 : i = 0
    · subst h0; exact hgo
    · simp only [if_neg h0]; exact hr.going (i - 1) (by omega)
  · by_cases h0 : i = 0
    · subst h0
      refine ⟨st1, hi, Or.inr ⟨hl, ?_⟩⟩
      simp only [Nat.zero_add, one_ne_zero, if_false, Nat.sub_self, f0]; exact ha
    · obtain ⟨s, s1, s2⟩ := hr.round (i - 1) (by omega)
      have e : i - 1 + 1 = i := by omega
      rw [e] at s2
      simp only [if_neg h0, Nat.add_one_ne_zero, if_false, Nat.add_sub_cancel]
      refine ⟨s, s1, ?_⟩
      rcases s2 with ⟨t1, t2, t3⟩ | t
      · exact Or.inl ⟨by omega, t2, t3⟩
      · exact Or.inr t

theorem checkImprovement_same (mc : ℕ) (sel : List (ℕ × ℕ)) (s : TspState) :
    (checkImprovement mc sel s).an = s.an ∧ (checkImprovement mc sel s).numAugm = s.numAugm := by
  unfold checkImprovement
  by_cases a : s.old ≠ []
  · by_cases b : sel = s.old
    · by_cases d : s.noImprovCount + 1 > mc
      · simp only [if_pos a, if_pos b, if_pos d]; trivial
      · simp only [if_pos a, if_pos b, if_neg d]; trivial
    · simp only [if_pos a, if_neg b]; trivial
  · simp only [if_neg a]; trivial

theorem checkOscillation_same (mc : ℕ) (sel : List (ℕ × ℕ)) (s : TspState) :
    (checkOscillation mc sel s).an = s.an ∧ (checkOscillation mc sel s).numAugm = s.numAugm := by
  unfold checkOscillation
  by_cases a : s.oldOld ≠ []
  · by_cases b : sel = s.oldOld ∧ s.oldOld ≠ s.old
    · by_cases d : s.solOscCount + 1 > mc
      · simp only [if_pos a, if_pos b, if_pos d]; trivial
      · simp only [if_pos a, if_pos b, if_neg d]; trivial
    · simp only [if_pos a, if_neg b]; trivial
  · simp only [if_neg a]; trivial

section
variable {inp : TspInputs} {w : ℕ → ℚ} {cc : ℕ → ℕ → ℚ} {C : ℕ → ℕ → ℚ} {numIter : ℕ} {reset augmentation : Bool} {thr : Num}
  {maxCount : ℕ} {maxAugm : ℤ} {order : ℕ → List (ℕ × ℕ) → List ℕ}

/-- The state between rounds. -/
structure SolverInv (inp : TspInputs) (st : TspState) : Prop where
  msgs : TspMsgsOk inp st.an.deltas st.msgs
  cuts : CutsOk inp.numEdges st.an.deltas
  ext : st.ext.size = inp.numEdges
  intr : st.intr.size = inp.numEdges

theorem cutsOk_analyse (h : TspOk inp w cc) (hn : 3 ≤ inp.numNodes) (hcomp : Complete inp.numNodes inp.edges) {sel : List (ℕ × ℕ)}
    {order : List ℕ} (ho : StartOrder sel order) {s s' : TspAnalysis}
    (ha : analyse inp.numNodes maxCount inp.edges sel order s = some s') (hd : CutsOk inp.numEdges s.deltas) :
    (∃ more, s'.deltas = s.deltas ++ more) ∧ CutsOk inp.numEdges s'.deltas := by
  obtain ⟨⟨more, h1⟩, -, h3, -⟩ := Properties.C19_round ho ha
  refine ⟨⟨more, h1.symm⟩, fun d hdm => ?_⟩
  rcases h3 d hdm with h' | ⟨hne, l, -, -, hc⟩
  · exact hd d h'
  · rw [← h.len]; exact Properties.C19_two_edges hn h.edges hcomp hc hne

theorem round_total (h : TspOk inp w cc) (hC : inp.costMatrix.Is inp.numNodes inp.numNodes C) (hn : 3 ≤ inp.numNodes)
    (hcomp : Complete inp.numNodes inp.edges) (ho : ∀ k sel, StartOrder sel (order k sel)) {st : TspState} (hi : SolverInv inp st) :
    ∃ st1 st2, iterateAugmented (tspSetup inp numIter reset augmentation thr maxCount maxAugm order) st = some st1 ∧
      addMissingRows st1 = some st2 ∧ SolverInv inp st2 := by
  obtain ⟨x, r, y, q, -, hrun⟩ := tspAugmented_run h hi.cuts hC reset hi.msgs
  obtain ⟨m', ext, intr, r1, r2, -, r4, r5, -⟩ := hrun numIter (st.ext, st.intr) hi.ext hi.intr
  have hh := hardDecision_eq (thr := thr) r5.1 h.len h.cost.1
  set sel := (chosen inp.numEdges thr intr).map (fun e => inp.edges.getD e (0, 0))
  obtain ⟨an, han⟩ := analyse_some (n := inp.numNodes) (mc := maxCount) (edges := inp.edges) (ho (st.numAugm + 1) sel) st.an
  have hsome : ∃ st1, iterateAugmented (tspSetup inp numIter reset augmentation thr maxCount maxAugm order) st = some st1 := by
    have key : ∀ s0 : TspState, s0.an = st.an → s0.numAugm = st.numAugm + 1 →
        (checkOscillation maxCount sel (checkImprovement maxCount sel s0)).an = st.an ∧
        (checkOscillation maxCount sel (checkImprovement maxCount sel s0)).numAugm = st.numAugm + 1 := by
      intro s0 a1 a2
      obtain ⟨i1, i2⟩ := checkImprovement_same maxCount sel s0
      obtain ⟨o1, o2⟩ := checkOscillation_same maxCount sel (checkImprovement maxCount sel s0)
      exact ⟨by rw [o1, i1, a1], by rw [o2, i2, a2]⟩
    unfold iterateAugmented
    simp only [tspSetup, r1, Option.bind_eq_bind, Option.bind_some, hh]
    obtain ⟨k1, k2⟩ := key { st with numAugm := st.numAugm + 1, msgs := m', ext := ext, intr := intr, cost := (chosen inp.numEdges thr intr).foldl (fun acc e => acc + inp.cost.data e) 0 } rfl rfl
    by_cases hold : (checkOscillation maxCount sel (checkImprovement maxCount sel { st with numAugm := st.numAugm + 1, msgs := m', ext := ext, intr := intr, cost := (chosen inp.numEdges thr intr).foldl (fun acc e => acc + inp.cost.data e) 0 })).old ≠ []
    · simp only [if_pos hold, k1, k2, han]; exact ⟨_, rfl⟩
    · simp only [if_neg hold, k1, k2, han]; exact ⟨_, rfl⟩
  obtain ⟨st1, h1⟩ := hsome
  obtain ⟨intr', f1, f2, f3, f4, -⟩ := iterateAugmented_facts h1
  simp only [tspSetup] at f1 f3 f4
  rw [r1] at f1
  simp only [Option.some.injEq, Prod.mk.injEq] at f1
  obtain ⟨g1, g2, g3⟩ := f1
  obtain ⟨⟨more, hm⟩, hcut⟩ := cutsOk_analyse h hn hcomp (ho _ _) f4 hi.cuts
  have hok : TspMsgsOk inp st.an.deltas st1.msgs := g1 ▸ r2
  have e1 : st1.ext.size = inp.numEdges := by rw [← g2]; exact r4.1
  have e2 : st1.intr.size = inp.numEdges := by rw [f2, ← g3]; exact r5.1
  have hrows : st1.msgs.s2e.rows = st.an.deltas.length := hok.s2e.1
  by_cases hmore : more = []
  · subst hmore
    rw [List.append_nil] at hm
    refine ⟨st1, st1, h1, ?_, ⟨hm ▸ hok, hcut, e1, e2⟩⟩
    unfold addMissingRows
    rw [if_pos (by rw [hrows, hm])]
  · have hpos : 0 < more.length := List.length_pos_of_ne_nil hmore
    have hlen : st1.an.deltas.length = st.an.deltas.length + more.length := by rw [hm, List.length_append]
    refine ⟨st1, { st1 with msgs := tspAddCuts more.length st1.msgs }, h1, ?_, ⟨?_, hcut, e1, e2⟩⟩
    · unfold addMissingRows
      rw [if_neg (by omega), if_neg (by omega), hlen, hrows, Nat.add_sub_cancel_left]
    · show TspMsgsOk inp st1.an.deltas _
      rw [hm]; exact tspAddCuts_ok hok more

theorem augmentLoop_total (h : TspOk inp w cc) (hC : inp.costMatrix.Is inp.numNodes inp.numNodes C) (hn : 3 ≤ inp.numNodes)
    (hcomp : Complete inp.numNodes inp.edges) (ho : ∀ k sel, StartOrder sel (order k sel)) (fuel : ℕ) :
    ∀ {st : TspState}, SolverInv inp st →
      augmentLoop (tspSetup inp numIter reset augmentation thr maxCount maxAugm order) fuel st = some none →
      ∃ k f, f 0 = st ∧ AugRun (tspSetup inp numIter reset augmentation thr maxCount maxAugm order) f k ∧ (f k).cost = 0 ∧
        (f k).an.tourFlag = false ∧ (f k).an.satisfied = false ∧ (f k).an.noConsFlag = false ∧ (f k).noImprovFlag = false ∧
        (f k).solOscFlag = false ∧ augmentation = true ∧ (0 < k → ((f k).numAugm : ℤ) ≠ maxAugm) := by
  induction fuel with
  | zero => intro st _ h; simp [augmentLoop] at h
  | succ fuel ih =>
    intro st hinv hl
    obtain ⟨st1, st2, s1, s2, s3⟩ := round_total (numIter := numIter) (reset := reset) (augmentation := augmentation) (thr := thr)
      (maxCount := maxCount) (maxAugm := maxAugm) h hC hn hcomp ho hinv
    rw [augmentLoop] at hl
    by_cases h1 : (!st.an.satisfied && (tspSetup inp numIter reset augmentation thr maxCount maxAugm order).augmentation && !st.an.tourFlag) = true
    · rw [if_pos h1] at hl
      by_cases h2 : (st.an.noConsFlag || st.noImprovFlag || st.solOscFlag) = true
      · rw [if_pos h2] at hl; simp at hl
      · rw [if_neg h2] at hl
        have htf : st.an.tourFlag = false := by
          simp only [Bool.and_eq_true, Bool.not_eq_true'] at h1; exact h1.2
        by_cases h3 : st.cost = 0
        · simp only [Bool.and_eq_true, Bool.not_eq_true', Bool.or_eq_true, not_or, Bool.not_eq_true] at h1 h2
          exact ⟨0, fun _ => st, rfl, augRun_zero st, h3, htf, h1.1.1, h2.1.1, h2.1.2, h2.2, h1.1.2, fun h => absurd h (lt_irrefl 0)⟩
        · rw [if_neg h3, s1] at hl
          simp only at hl
          by_cases h4 : (st1.numAugm : ℤ) = (tspSetup inp numIter reset augmentation thr maxCount maxAugm order).maxAugm
          · rw [if_pos h4] at hl; simp at hl
          · rw [if_neg h4, s2] at hl
            obtain ⟨k, f, f0, hr, hz, ht⟩ := ih s3 hl
            have hlim : k = 0 → ((f k).numAugm : ℤ) ≠ maxAugm := by
              rintro rfl
              obtain ⟨-, m, hm⟩ := addMissingRows_facts s2
              rw [f0, hm]; exact h4
            have hgo : st.an.tourFlag = false ∧ st.an.satisfied = false ∧ st.an.noConsFlag = false ∧ st.noImprovFlag = false ∧
                st.solOscFlag = false ∧ st.cost ≠ 0 := by
              simp only [Bool.and_eq_true, Bool.not_eq_true', Bool.or_eq_true, not_or, Bool.not_eq_true] at h1 h2
              exact ⟨h1.2, h1.1.1, h2.1.1, h2.1.2, h2.2, h3⟩
            refine ⟨k + 1, _, rfl, augRun_cons hgo s1 h4 s2 f0 hr, by simpa using hz, ?_⟩
            simp only [Nat.add_one_ne_zero, if_false, Nat.add_sub_cancel]
            exact ⟨ht.1, ht.2.1, ht.2.2.1, ht.2.2.2.1, ht.2.2.2.2.1, ht.2.2.2.2.2.1, fun _ =>
              (Nat.eq_zero_or_pos k).elim hlim ht.2.2.2.2.2.2⟩
    · rw [if_neg h1] at hl; simp at hl

/-- After the relaxed run. -/
theorem relaxed_total (h : TspOk inp w cc) (hn : 3 ≤ inp.numNodes)
    (hcomp : Complete inp.numNodes inp.edges) (ho : ∀ k sel, StartOrder sel (order k sel)) {e2d : Mat Num} {x0 : ℕ → ℕ → ℚ}
    (he : e2d.Is inp.numEdges inp.numNodes x0) :
    ∃ st, iterateRelaxed (tspSetup inp numIter reset augmentation thr maxCount maxAugm order) (tspStart inp e2d) = some st ∧
      TspMsgsOk inp [] st.msgs ∧ CutsOk inp.numEdges st.an.deltas ∧ st.ext.size = inp.numEdges ∧ st.intr.size = inp.numEdges := by
  obtain ⟨x, r, y, q, -, hrun⟩ := tspRelaxed_run h (tspInit_ok he)
  obtain ⟨m', ext, intr, r1, r2, -, r4, r5, -⟩ := hrun numIter (Arr.fill inp.numEdges 0, Arr.fill inp.numEdges 0) rfl rfl
  have hh := hardDecision_eq (thr := thr) r5.1 h.len h.cost.1
  set sel := (chosen inp.numEdges thr intr).map (fun e => inp.edges.getD e (0, 0))
  obtain ⟨an, han⟩ := analyse_some (n := inp.numNodes) (mc := maxCount) (edges := inp.edges) (ho 0 sel) {}
  refine ⟨{ tspStart inp e2d with msgs := m', ext := ext, intr := intr, cost := (chosen inp.numEdges thr intr).foldl (fun acc e => acc + inp.cost.data e) 0, an := an, selected := sel }, ?_, r2, ?_, r4.1, r5.1⟩
  · unfold iterateRelaxed
    have e1 : (tspSetup inp numIter reset augmentation thr maxCount maxAugm order).relaxed [] (tspStart inp e2d).msgs ((tspStart inp e2d).ext, (tspStart inp e2d).intr) = some (m', ext, intr) := r1
    simp only [e1, Option.bind_eq_bind, Option.bind_some]
    simp only [tspSetup, hh, Option.bind_some]
    have e2 : analyse inp.numNodes maxCount inp.edges sel (order (tspStart inp e2d).numAugm sel) (tspStart inp e2d).an = some an := han
    rw [e2]; rfl
  · exact (cutsOk_analyse h hn hcomp (ho _ _) han (fun l hl => by simp at hl)).2
end

end Verif.Proofs
