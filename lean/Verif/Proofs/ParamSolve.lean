import Verif.Proofs.ParamTsp
import Verif.Proofs.TspNear

/-! The rounded TSP solver tends to the exact one as long as no belief equals the threshold. -/

namespace Verif.Proofs
open Verif Num Filter Spec Model

variable {ι : Type} {l : Filter ι} {r : ι → ℚ → Num} {R : Num → (ι → Num) → Prop} {inp : TspInputs} {J : ι → TspInputs}

/-- A related family eventually compares with the threshold as the number itself. -/
def Decides (l : Filter ι) (R : Num → (ι → Num) → Prop) (thr a : Num) : Prop := ∀ b, R a b → ∀ᶠ i in l, Num.gt (b i) thr = Num.gt a thr

theorem rel_hardDecision (hR : Calc l r R) {intr : Arr Num} {b : ι → Arr Num} (h : RelArr l R intr b) (numEdges : ℕ) {thr : Num}
    (edges : List (ℕ × ℕ)) {cost : Arr Num} {d : ι → Arr Num} (hc : RelArr l R cost d) (hne : ∀ e < intr.size, Decides l R thr (intr.data e)) :
    RelO l (RelP (fun (a : List (ℕ × ℕ)) b => ∀ᶠ i in l, b i = a) (R)) (hardDecision numEdges thr intr edges cost)
      (fun i => Rounded.hardDecision (r i) numEdges thr (b i) edges (d i)) := by
  have hev : ∀ᶠ i in l, ∀ e ∈ Finset.range intr.size, Num.gt ((b i).data e) thr = Num.gt (intr.data e) thr := by
    rw [Filter.eventually_all_finset]
    intro e he
    exact hne e (Finset.mem_range.mp he) _ (h.data e (Finset.mem_range.mp he))
  have hhd : ∀ᶠ i in l, (⟨(b i).size, fun e => if gt ((b i).data e) thr then 0 else 1⟩ : Arr ℕ).copyTo (Arr.fill numEdges 2147483647) =
      (⟨intr.size, fun e => if gt (intr.data e) thr then 0 else 1⟩ : Arr ℕ).copyTo (Arr.fill numEdges 2147483647) := by
    filter_upwards [hev, h.size] with i h1 h2
    unfold Arr.copyTo
    simp only [h2]
    split
    · congr 2
      funext e
      split
      · next he => rw [h1 e (Finset.mem_range.mpr he)]
      · rfl
    · rfl
  unfold hardDecision Rounded.hardDecision
  refine RelO.congr (y := fun i => ((⟨intr.size, fun e => if gt (intr.data e) thr then 0 else 1⟩ : Arr ℕ).copyTo (Arr.fill numEdges 2147483647)).bind _) ?_
    (by filter_upwards [hhd] with i hi; rw [← hi]; rfl)
  refine RelO.bind_same fun hd _ => RelO.bind_same fun sel _ => ?_
  refine RelO.bind (R := R) (RelO.loopUp hR.zero fun e _ s t hst => RelO.bind_same fun x _ => ?_)
    fun s t _ hst => RelO.some ⟨Eventually.of_forall fun _ => rfl, hst⟩
  by_cases hx : x = 1
  · simp only [if_pos hx]
    exact (hc.rd _).bind fun c d _ hcd => RelO.some (hR.add hst hcd)
  · simp only [if_neg hx]
    exact RelO.some hst

theorem RelInputs.split (hJ : RelInputs l R inp J) :
    ∃ (c : ι → Arr Num) (cm dc : ι → Mat Num), J = fun i => { inp with cost := c i, costMatrix := cm i, degCost := dc i } := ⟨_, _, _, funext hJ.shape⟩

/-- Solver states that tend to a state: eventually the same in everything discrete. -/
def RelState (l : Filter ι) (R : Num → (ι → Num) → Prop) (st : TspState) (ts : ι → TspState) : Prop :=
  ∃ U E I C, (∀ᶠ i in l, ts i = { st with msgs := U i, ext := E i, intr := I i, cost := C i }) ∧ RelMsgs l R st.msgs U ∧ RelArr l R st.ext E ∧
    RelArr l R st.intr I ∧ R st.cost C

theorem RelState.congr {st : TspState} {ts us : ι → TspState} (h : RelState l R st ts) (he : ∀ᶠ i in l, ts i = us i) : RelState l R st us := by
  obtain ⟨U, E, I, C, h1, h2⟩ := h
  exact ⟨U, E, I, C, by filter_upwards [h1, he] with i e1 e2; rw [← e2, e1], h2⟩

theorem checkImprovement_with (maxCount : ℕ) (sel : List (ℕ × ℕ)) (st : TspState) (m : TspMsgs) (e t : Arr Num) (c : Num) :
    checkImprovement maxCount sel { st with msgs := m, ext := e, intr := t, cost := c } =
      { checkImprovement maxCount sel st with msgs := m, ext := e, intr := t, cost := c } := by
  unfold checkImprovement
  by_cases h1 : st.old ≠ []
  · by_cases h2 : sel = st.old
    · by_cases h3 : st.noImprovCount + 1 > maxCount
      · simp only [if_pos h1, if_pos h2, if_pos h3]
      · simp only [if_pos h1, if_pos h2, if_neg h3]
    · simp only [if_pos h1, if_neg h2]
  · simp only [if_neg h1]

theorem checkOscillation_with (maxCount : ℕ) (sel : List (ℕ × ℕ)) (st : TspState) (m : TspMsgs) (e t : Arr Num) (c : Num) :
    checkOscillation maxCount sel { st with msgs := m, ext := e, intr := t, cost := c } =
      { checkOscillation maxCount sel st with msgs := m, ext := e, intr := t, cost := c } := by
  unfold checkOscillation
  by_cases h1 : st.oldOld ≠ []
  · by_cases h2 : sel = st.oldOld ∧ st.oldOld ≠ st.old
    · by_cases h3 : st.solOscCount + 1 > maxCount
      · simp only [if_pos h1, if_pos h2, if_pos h3]
      · simp only [if_pos h1, if_pos h2, if_neg h3]
    · simp only [if_pos h1, if_neg h2]
  · simp only [if_neg h1]

section
variable (hR : Calc l r R) (hJ : RelInputs l R inp J) (hd : Damps r R inp.flag inp.alpha) {numIter maxCount : ℕ} {reset augmentation : Bool} {thr : Num}
  {maxAugm : ℤ} {order : ℕ → List (ℕ × ℕ) → List ℕ} {st st1 : TspState} {ts : ι → TspState}
include hR hJ hd

theorem rel_iterateRelaxed (h : RelState l R st ts)
    (h1 : iterateRelaxed (tspSetup inp numIter reset augmentation thr maxCount maxAugm order) st = some st1)
    (hne : ∀ e < st1.intr.size, Decides l R thr (st1.intr.data e)) :
    ∃ us, (∀ᶠ i in l, Rounded.iterateRelaxed (r i) (Rounded.tspSetup (r i) (J i) numIter reset augmentation thr maxCount maxAugm order) (ts i) = some (us i)) ∧
      RelState l R st1 us := by
  obtain ⟨jc, jm, jd, rfl⟩ := hJ.split
  obtain ⟨U, E, I, C, e0, e1, e2, e3, e4⟩ := h
  unfold iterateRelaxed at h1
  simp only [Option.bind_eq_bind, Option.bind_eq_some_iff, Option.some.injEq, Prod.exists] at h1
  obtain ⟨m, ext, intr, g1, sel, total, g2, an, g3, rfl⟩ := h1
  obtain ⟨p, p1, p2⟩ := rel_tspRelaxed hR hJ hd numIter e1 (o := (st.ext, st.intr)) (o' := fun i => (E i, I i)) ⟨e2, e3⟩ _ g1
  obtain ⟨q, q1, q2⟩ := rel_hardDecision hR p2.2.2 inp.numEdges inp.edges hJ.cost hne _ g2
  refine ⟨fun i => { st with msgs := (p i).1, ext := (p i).2.1, intr := (p i).2.2, cost := (q i).2, an := an, selected := sel }, ?_,
    ⟨_, _, _, _, Eventually.of_forall fun _ => rfl, p2.1, p2.2.1, p2.2.2, q2.2⟩⟩
  filter_upwards [e0, p1, q1, q2.1] with i f0 f1 f2 f3
  unfold Rounded.iterateRelaxed
  rw [f0]
  simp only [Rounded.tspSetup, Model.tspSetup] at g3 ⊢
  rw [f1]
  simp only [Option.bind_eq_bind, Option.bind_some]
  rw [f2]
  simp only [Option.bind_some]
  rw [f3, g3]
  rfl

omit hR hJ hd in
/-- The part of an augmentation round after the decision on the edges. -/
theorem tail_with {c : TspSetup} {m m' : TspMsgs} {e e' t t' : Arr Num} {total total' : Num} {sel : List (ℕ × ℕ)}
    (h : (let s : TspState := { st with msgs := m, ext := e, intr := t, cost := total }
      let s := checkOscillation c.maxCount sel (checkImprovement c.maxCount sel s)
      let s := if s.old ≠ [] then { s with oldOld := s.old } else s
      let s : TspState := { s with old := sel, selected := sel }
      (analyse c.numNodes c.maxCount c.edges sel (c.order s.numAugm sel) s.an).bind fun an => some { s with an := an }) = some st1) :
    (let s : TspState := { st with msgs := m', ext := e', intr := t', cost := total' }
      let s := checkOscillation c.maxCount sel (checkImprovement c.maxCount sel s)
      let s := if s.old ≠ [] then { s with oldOld := s.old } else s
      let s : TspState := { s with old := sel, selected := sel }
      (analyse c.numNodes c.maxCount c.edges sel (c.order s.numAugm sel) s.an).bind fun an => some { s with an := an }) =
      some { st1 with msgs := m', ext := e', intr := t', cost := total' } ∧ st1.msgs = m ∧ st1.ext = e ∧ st1.intr = t ∧ st1.cost = total := by
  simp only [checkImprovement_with, checkOscillation_with] at h ⊢
  set s1 := checkOscillation c.maxCount sel (checkImprovement c.maxCount sel st) with hs1
  by_cases h0 : s1.old ≠ []
  · simp only [if_pos h0, Option.bind_eq_some_iff, Option.some.injEq] at h ⊢
    obtain ⟨an, han, rfl⟩ := h
    exact ⟨⟨an, han, rfl⟩, rfl, rfl, rfl, rfl⟩
  · simp only [if_neg h0, Option.bind_eq_some_iff, Option.some.injEq] at h ⊢
    obtain ⟨an, han, rfl⟩ := h
    exact ⟨⟨an, han, rfl⟩, rfl, rfl, rfl, rfl⟩

theorem rel_iterateAugmented (h : RelState l R st ts)
    (h1 : iterateAugmented (tspSetup inp numIter reset augmentation thr maxCount maxAugm order) st = some st1)
    (hne : ∀ e < st1.intr.size, Decides l R thr (st1.intr.data e)) :
    ∃ us, (∀ᶠ i in l, Rounded.iterateAugmented (r i) (Rounded.tspSetup (r i) (J i) numIter reset augmentation thr maxCount maxAugm order) (ts i) = some (us i)) ∧
      RelState l R st1 us := by
  obtain ⟨jc, jm, jd, rfl⟩ := hJ.split
  obtain ⟨U, E, I, C, e0, e1, e2, e3, e4⟩ := h
  unfold iterateAugmented at h1
  simp only [Option.bind_eq_bind] at h1
  rw [Option.bind_eq_some_iff] at h1
  obtain ⟨⟨m, ext, intr⟩, g1, h1⟩ := h1
  simp only at h1
  rw [Option.bind_eq_some_iff] at h1
  obtain ⟨⟨sel, total⟩, g2, h1⟩ := h1
  simp only at h1
  obtain ⟨-, t1, t2, t3, t4⟩ := tail_with (m' := m) (e' := ext) (t' := intr) (total' := total) (st := { st with numAugm := st.numAugm + 1 }) h1
  rw [t3] at hne
  obtain ⟨p, p1, p2⟩ := rel_tspAugmented hR hJ hd reset st.an.deltas numIter e1 (o := (st.ext, st.intr)) (o' := fun i => (E i, I i)) ⟨e2, e3⟩ _ g1
  obtain ⟨q, q1, q2⟩ := rel_hardDecision hR p2.2.2 inp.numEdges inp.edges hJ.cost hne _ g2
  refine ⟨fun i => { st1 with msgs := (p i).1, ext := (p i).2.1, intr := (p i).2.2, cost := (q i).2 }, ?_,
    ⟨_, _, _, _, Eventually.of_forall fun _ => rfl, by rw [t1]; exact p2.1, by rw [t2]; exact p2.2.1, by rw [t3]; exact p2.2.2, by rw [t4]; exact q2.2⟩⟩
  filter_upwards [e0, p1, q1, q2.1] with i f0 f1 f2 f3
  obtain ⟨t5, -⟩ := tail_with (m' := (p i).1) (e' := (p i).2.1) (t' := (p i).2.2) (total' := (q i).2) (st := { st with numAugm := st.numAugm + 1 }) h1
  unfold Rounded.iterateAugmented
  rw [f0]
  simp only [Option.bind_eq_bind]
  refine Eq.trans (congrArg (fun z => Option.bind z _) f1) ?_
  rw [Option.bind_some]
  refine Eq.trans (congrArg (fun z => Option.bind z _) f2) ?_
  simp only [Option.bind_some]
  rw [f3]
  exact t5

omit hR hJ hd in
theorem RelMsgs.addCuts (hR : Calc l r R) {M : TspMsgs} {U : ι → TspMsgs} (h : RelMsgs l R M U) (k : ℕ) : RelMsgs l R (tspAddCuts k M) (fun i => tspAddCuts k (U i)) :=
  ⟨h.e2d, h.degDummy, h.deg, h.degOld, h.e2s, h.s2e.pushZeros hR k, h.s2e.pushZeros hR k, h.subOld⟩

omit hR hJ hd in
theorem rel_addMissingRows (hR : Calc l r R) (h : RelState l R st ts) (h1 : addMissingRows st = some st1) :
    ∃ us, (∀ᶠ i in l, addMissingRows (ts i) = some (us i)) ∧ RelState l R st1 us := by
  obtain ⟨U, E, I, C, e0, e1, e2, e3, e4⟩ := h
  unfold addMissingRows at h1
  by_cases c1 : st.msgs.s2e.rows = st.an.deltas.length
  · rw [if_pos c1] at h1
    obtain rfl := Option.some.inj h1
    refine ⟨ts, ?_, U, E, I, C, e0, e1, e2, e3, e4⟩
    filter_upwards [e0, e1.s2e.rows] with i f0 f1
    unfold addMissingRows
    rw [f0]
    exact if_pos (by rw [← c1]; exact f1)
  · rw [if_neg c1] at h1
    by_cases c2 : st.an.deltas.length < st.msgs.s2e.rows
    · rw [if_pos c2] at h1; cases h1
    · rw [if_neg c2] at h1
      obtain rfl := Option.some.inj h1
      refine ⟨fun i => { st with msgs := tspAddCuts (st.an.deltas.length - st.msgs.s2e.rows) (U i), ext := E i, intr := I i, cost := C i }, ?_,
        _, _, _, _, Eventually.of_forall fun _ => rfl, e1.addCuts hR _, e2, e3, e4⟩
      filter_upwards [e0, e1.s2e.rows] with i f0 f1
      unfold addMissingRows
      rw [f0]
      simp only [f1]
      rw [if_neg c1, if_neg c2]

omit hR hJ hd in
theorem rel_addFirstRows (hR : Calc l r R) (h : RelState l R st ts) : RelState l R (addFirstRows st) (fun i => addFirstRows (ts i)) := by
  obtain ⟨U, E, I, C, e0, e1, e2, e3, e4⟩ := h
  unfold addFirstRows
  by_cases c1 : st.an.deltas.length > 0
  · rw [if_pos c1]
    refine ⟨fun i => tspAddCuts st.an.deltas.length (U i), E, I, C, ?_, e1.addCuts hR _, e2, e3, e4⟩
    filter_upwards [e0] with i f0
    rw [f0]
    exact if_pos c1
  · rw [if_neg c1]
    refine ⟨U, E, I, C, ?_, e1, e2, e3, e4⟩
    filter_upwards [e0] with i f0
    rw [f0]
    exact if_neg c1

theorem rel_augmentLoop (fuel : ℕ) :
    ∀ {st st1 : TspState}, augmentLoop (tspSetup inp numIter reset augmentation thr maxCount maxAugm order) fuel st = some (some st1) →
      ∃ k f, f 0 = st ∧ f k = st1 ∧ AugRun (tspSetup inp numIter reset augmentation thr maxCount maxAugm order) f k ∧ st1.numAugm = st.numAugm + k ∧
        ((∀ i, 0 < i → i ≤ k → ∀ e < (f i).intr.size, Decides l R thr ((f i).intr.data e)) → ∀ ts, RelState l R st ts →
          ∃ us, (∀ᶠ i in l, Rounded.augmentLoop (r i) (Rounded.tspSetup (r i) (J i) numIter reset augmentation thr maxCount maxAugm order) fuel (ts i) =
            some (some (us i))) ∧ RelState l R st1 us) := by
  induction fuel with
  | zero => intro _ _ hr; simp [augmentLoop] at hr
  | succ fuel ih =>
    intro st st1 hr
    rw [augmentLoop] at hr
    by_cases h1 : (!st.an.satisfied && augmentation && !st.an.tourFlag) = true
    swap
    · rw [if_neg (by exact h1)] at hr
      simp only [Option.some.injEq] at hr
      subst hr
      refine ⟨0, fun _ => st, rfl, rfl, ⟨by simp, by simp⟩, rfl, fun _ ts hS => ⟨ts, ?_, hS⟩⟩
      obtain ⟨U, E, I, C, e0, -⟩ := hS
      filter_upwards [e0] with i f0
      rw [Rounded.augmentLoop, f0]
      exact if_neg (by exact h1)
    by_cases h2 : (st.an.noConsFlag || st.noImprovFlag || st.solOscFlag) = true
    · rw [if_pos (by exact h1), if_pos h2] at hr
      simp only [Option.some.injEq] at hr
      subst hr
      refine ⟨0, fun _ => st, rfl, rfl, ⟨by simp, by simp⟩, rfl, fun _ ts hS => ⟨ts, ?_, hS⟩⟩
      obtain ⟨U, E, I, C, e0, -⟩ := hS
      filter_upwards [e0] with i f0
      rw [Rounded.augmentLoop, f0]
      rw [if_pos (by exact h1), if_pos h2]
    rw [if_pos (by exact h1), if_neg h2] at hr
    by_cases h3 : st.cost = 0
    · rw [if_pos h3] at hr; simp at hr
    rw [if_neg h3] at hr
    have hgo : st.an.tourFlag = false ∧ st.an.satisfied = false ∧ st.an.noConsFlag = false ∧ st.noImprovFlag = false ∧
        st.solOscFlag = false ∧ st.cost ≠ 0 := by
      simp only [Bool.and_eq_true, Bool.not_eq_true', Bool.or_eq_true, not_or, Bool.not_eq_true] at h1 h2
      exact ⟨h1.2, h1.1.1, h2.1.1, h2.1.2, h2.2, h3⟩
    cases u1 : iterateAugmented (tspSetup inp numIter reset augmentation thr maxCount maxAugm order) st with
    | none => rw [u1] at hr; simp at hr
    | some u =>
    rw [u1] at hr
    simp only at hr
    have hnum : u.numAugm = st.numAugm + 1 := by
      obtain ⟨intr1, f1, f2, f3, f4, f5, -⟩ := iterateAugmented_facts u1
      exact f5
    have unfold' : ∀ {i : ι} {st' u' : TspState} {out : Option (Option TspState)}, st'.an = st.an → st'.noImprovFlag = st.noImprovFlag →
        st'.solOscFlag = st.solOscFlag → st'.cost ≠ 0 →
        Rounded.iterateAugmented (r i) (Rounded.tspSetup (r i) (J i) numIter reset augmentation thr maxCount maxAugm order) st' = some u' →
        ((u'.numAugm : ℤ) = maxAugm → some (some u') = out) →
        ((u'.numAugm : ℤ) ≠ maxAugm → ∃ v', addMissingRows u' = some v' ∧
          Rounded.augmentLoop (r i) (Rounded.tspSetup (r i) (J i) numIter reset augmentation thr maxCount maxAugm order) fuel v' = out) →
        Rounded.augmentLoop (r i) (Rounded.tspSetup (r i) (J i) numIter reset augmentation thr maxCount maxAugm order) (fuel + 1) st' = out := by
      intro i st' u' out e1 e2 e3 e4 e5 e6 e7
      rw [Rounded.augmentLoop, e1, e2, e3, if_pos (by exact h1), if_neg h2, if_neg e4, e5]
      simp only
      show (if (u'.numAugm : ℤ) = maxAugm then _ else _) = out
      split
      · rename_i hh; exact e6 hh
      · rename_i hh
        obtain ⟨v', k1, k2⟩ := e7 hh
        rw [k1]
        exact k2
    by_cases h4 : (u.numAugm : ℤ) = maxAugm
    · rw [if_pos (by exact h4)] at hr
      simp only [Option.some.injEq] at hr
      subst hr
      refine ⟨1, fun i => if i = 0 then st else u, rfl, rfl, ⟨?_, ?_⟩, hnum, fun hne ts hS => ?_⟩
      · intro i hi; obtain rfl : i = 0 := by omega
        exact hgo
      · intro i hi'; obtain rfl : i = 0 := by omega
        exact ⟨u, u1, Or.inl ⟨rfl, h4, rfl⟩⟩
      · obtain ⟨us, k1, k2⟩ := rel_iterateAugmented hR hJ hd hS u1 (hne 1 one_pos le_rfl)
        refine ⟨us, ?_, k2⟩
        obtain ⟨U, E, I, C, e0, -, -, -, e4⟩ := hS
        obtain ⟨U', E', I', C', e0', -⟩ := k2
        filter_upwards [e0, hR.ne e4 h3, k1, e0'] with i f0 f1 f2 f3
        refine unfold' (u' := us i) (by rw [f0]) (by rw [f0]) (by rw [f0]) (by rw [f0]; exact f1) f2 (fun _ => rfl) (fun hh => absurd ?_ hh)
        rw [f3]; exact h4
    · rw [if_neg (by exact h4)] at hr
      cases u2 : addMissingRows u with
      | none => rw [u2] at hr; simp at hr
      | some v =>
      rw [u2] at hr
      have hvi : v.intr = u.intr ∧ v.numAugm = u.numAugm := by
        unfold addMissingRows at u2
        split at u2
        · simp only [Option.some.injEq] at u2; subst u2; exact ⟨rfl, rfl⟩
        · split at u2
          · simp at u2
          · simp only [Option.some.injEq] at u2; subst u2; exact ⟨rfl, rfl⟩
      obtain ⟨k, f, f0, fk, hrun, hk, hcont⟩ := ih hr
      refine ⟨k + 1, fun i => if i = 0 then st else f (i - 1), rfl, by simpa using fk, ⟨?_, ?_⟩, by rw [hk, hvi.2, hnum]; omega, fun hne ts hS => ?_⟩
      · intro i hi'
        by_cases h0 : i = 0
        · subst h0; exact hgo
        · simp only [h0, if_false]
          exact hrun.going (i - 1) (by omega)
      · intro i hi'
        by_cases h0 : i = 0
        · subst h0
          exact ⟨u, u1, Or.inr ⟨h4, by simp [f0, u2]⟩⟩
        · obtain ⟨s, s1, s2⟩ := hrun.round (i - 1) (by omega)
          refine ⟨s, by simpa [h0] using s1, ?_⟩
          rcases s2 with ⟨t1, t2, t3⟩ | ⟨t1, t2⟩
          · exact Or.inl ⟨by omega, t2, by simpa using t3⟩
          · refine Or.inr ⟨t1, ?_⟩
            simp only [Nat.add_eq_zero_iff, one_ne_zero, and_false, if_false, Nat.add_sub_cancel]
            rw [show i - 1 + 1 = i by omega] at t2
            exact t2
      · obtain ⟨us, k1, k2⟩ := rel_iterateAugmented hR hJ hd hS u1 (by
          have := hne 1 (by omega) (by omega)
          simp only [one_ne_zero, if_false, Nat.sub_self, f0, hvi.1] at this
          exact this)
        obtain ⟨vs, k3, k4⟩ := rel_addMissingRows hR k2 u2
        obtain ⟨ws, k5, k6⟩ := hcont (fun i h0 hik => by
          have := hne (i + 1) (by omega) (by omega)
          simpa using this) vs k4
        refine ⟨ws, ?_, k6⟩
        obtain ⟨U, E, I, C, e0, -, -, -, e4⟩ := hS
        obtain ⟨U', E', I', C', e0', -⟩ := k2
        filter_upwards [e0, hR.ne e4 h3, k1, e0', k3, k5] with i f0 f1 f2 f3 f4 f5
        refine unfold' (u' := us i) (by rw [f0]) (by rw [f0]) (by rw [f0]) (by rw [f0]; exact f1) f2 (fun hh => absurd ?_ h4) (fun _ => ⟨vs i, f4, f5⟩)
        rw [f3] at hh; exact hh

end

section
variable (hR : Calc l r R) (hJ : RelInputs l R inp J) (hd : Damps r R inp.flag inp.alpha) {w : ℕ → ℚ} {cc C : ℕ → ℕ → ℚ} {numIter maxCount : ℕ} {reset augmentation : Bool} {thr : Num}
  {maxAugm : ℤ} {order : ℕ → List (ℕ × ℕ) → List ℕ}
include hR hJ hd

/-- The whole solver. -/
theorem rel_solve (h : TspOk inp w cc) (hC : inp.costMatrix.Is inp.numNodes inp.numNodes C)
    (hn : 3 ≤ inp.numNodes) (hcomp : Complete inp.numNodes inp.edges) (ho : ∀ k sel, StartOrder sel (order k sel))
    {e2d : Mat Num} {f2d : ι → Mat Num} (hf : RelMat l R e2d f2d) {x0 : ℕ → ℕ → ℚ} (he : e2d.Is inp.numEdges inp.numNodes x0) {fuel : ℕ} {st1 : TspState}
    (hs : tspSolve (tspSetup inp numIter reset augmentation (thr) maxCount maxAugm order) fuel (tspStart inp e2d) = some (some st1)) :
    ∃ k Q, TspRounds (tspProblem inp w cc C numIter reset thr) x0 Q k ∧ st1.numAugm = k ∧
      Outcome (tspProblem inp w cc C numIter reset thr) inp.numEdges (Q k) st1 ∧
      ((∀ i ≤ k, ∀ e < inp.numEdges, Decides l R thr (fin (belief (tspProblem inp w cc C numIter reset thr) (Q i) e))) →
        ∃ us, (∀ᶠ i in l, Rounded.tspSolve (r i) (Rounded.tspSetup (r i) (J i) numIter reset augmentation (thr) maxCount maxAugm order) fuel (tspStart (J i) (f2d i)) =
          some (some (us i))) ∧ RelState l R st1 us) := by
  obtain ⟨st, r1, r2, r3, r4, r5⟩ := relaxed_total (numIter := numIter) (reset := reset) (augmentation := augmentation)
    (thr := thr) (maxCount := maxCount) (maxAugm := maxAugm) h hn hcomp ho he
  have hnum : st.numAugm = 0 := by
    obtain ⟨m1, ext1, intr1, sel, total, an, -, f2, f3, rfl⟩ := iterateRelaxed_facts r1
    rfl
  have hfill : ∀ k j, RelMat l R (Mat.fill k j 0) (fun _ => Mat.fill k j 0) := fun k j =>
    ⟨Eventually.of_forall fun _ => rfl, Eventually.of_forall fun _ => rfl, fun _ _ _ _ => hR.zero⟩
  have hstart : RelState l R (tspStart inp e2d) (fun i => tspStart (J i) (f2d i)) := by
    obtain ⟨jc, jm, jd, rfl⟩ := hJ.split
    exact ⟨fun i => tspInit inp (f2d i), fun _ => Arr.fill inp.numEdges 0, fun _ => Arr.fill inp.numEdges 0, fun _ => 0, Eventually.of_forall fun _ => rfl,
      ⟨hf, hfill _ _, hfill _ _, hfill _ _, hfill _ _, hfill _ _, hfill _ _, hfill _ _⟩, RelArr.fill hR.zero _, RelArr.fill hR.zero _, hR.zero⟩
  have hval : ∀ {Q : TspRound} {s : TspState}, Outcome (tspProblem inp w cc C numIter reset thr) inp.numEdges Q s →
      (∀ e < inp.numEdges, Decides l R thr (fin (belief (tspProblem inp w cc C numIter reset thr) Q e))) →
      ∀ e < s.intr.size, Decides l R thr (s.intr.data e) := by
    intro Q s hout hne e he
    rw [hout.intr.1] at he
    rw [hout.intr.2 e he]
    exact hne e he
  unfold tspSolve at hs
  rw [r1] at hs
  simp only at hs
  by_cases h1 : (!st.an.satisfied && augmentation) = true
  · rw [if_pos (by exact h1)] at hs
    unfold performAugmentation at hs
    have shape : ∀ t : TspState, ∃ m, addFirstRows t = { t with msgs := m } := by
      intro t
      unfold addFirstRows
      split
      · exact ⟨_, rfl⟩
      · exact ⟨t.msgs, rfl⟩
    obtain ⟨k, f, f0, fk, hrun, hk, hcont⟩ := rel_augmentLoop hR hJ hd fuel hs
    obtain ⟨Q, hQ, hout⟩ := run_rounds h hC hn hcomp ho he r1 (by rw [f0]; exact shape st) (fun _ => f0) hrun
    refine ⟨k, Q, hQ, ?_, fk ▸ hout k le_rfl, fun hne => ?_⟩
    · obtain ⟨m, hm⟩ := shape st
      rw [hk, hm]
      show st.numAugm + k = k
      omega
    · have h0 := hval (hout 0 (Nat.zero_le _)) (hne 0 (Nat.zero_le _))
      obtain ⟨m, hm⟩ := shape st
      rw [f0, hm] at h0
      obtain ⟨ts, k1, k2⟩ := rel_iterateRelaxed hR hJ hd hstart r1 h0
      obtain ⟨us, k3, k4⟩ := hcont (fun i _ hik => hval (hout i hik) (hne i hik)) _ (rel_addFirstRows hR k2)
      refine ⟨us, ?_, k4⟩
      obtain ⟨U, E, I, C, e0, -⟩ := k2
      filter_upwards [k1, k3, e0] with i g1 g2 g3
      unfold Rounded.tspSolve
      rw [g1]
      simp only
      rw [← g2]
      refine if_pos ?_
      rw [g3]; exact h1
  · rw [if_neg (by exact h1)] at hs
    simp only [Option.some.injEq] at hs
    subst hs
    obtain ⟨Q, hQ, hout⟩ := run_rounds (f := fun _ => st) (k := 0) h hC hn hcomp ho he r1 ⟨st.msgs, rfl⟩ (fun h => by omega) ⟨by simp, by simp⟩
    refine ⟨0, Q, hQ, hnum, hout 0 le_rfl, fun hne => ?_⟩
    obtain ⟨ts, k1, k2⟩ := rel_iterateRelaxed hR hJ hd hstart r1 (hval (hout 0 le_rfl) (hne 0 le_rfl))
    refine ⟨ts, ?_, k2⟩
    obtain ⟨U, E, I, C, e0, -⟩ := k2
    filter_upwards [k1, e0] with i g1 g3
    unfold Rounded.tspSolve
    rw [g1]
    refine if_neg ?_
    rw [g3]; exact h1

end

end Verif.Proofs
