import Verif.Proofs.ExactCuts

/-! A call of the TSP solver with augmentation rounds computes exactly if its messages stay small multiples of a unit. -/

namespace Verif.Proofs
open Verif Num Spec Model Properties

variable {r : ℚ → Num} {u : ℚ} {M : ℕ}

theorem hardDecision_count {E : ℕ} {thr : Num} {intr cost : Arr Num} {edges : List (ℕ × ℕ)} {sel : List (ℕ × ℕ)} {total : Num}
    (h : hardDecision E thr intr edges cost = some (sel, total)) : sel.length ≤ E := by
  unfold hardDecision at h
  simp only [Option.bind_eq_bind, Option.bind_eq_some_iff] at h
  obtain ⟨hd, -, sel', h2, total', -, h4⟩ := h
  obtain ⟨rfl, rfl⟩ := Prod.mk.inj (Option.some.inj h4)
  refine keepUp (fun e (s : List (ℕ × ℕ)) => s.length ≤ e) le_rfl (fun e he a ha => Same.read fun x hx => ?_) h2
  split
  · exact Same.read fun c _ => Same.some (by rw [List.length_append, List.length_singleton]; omega)
  · exact Same.some (by omega)

/-- The state at the start of a round. -/
structure RoundInv (u : ℚ) (M : ℕ) (B : ℚ) (inp : TspInputs) (st : TspState) : Prop where
  msgs : RoundSmall u M inp st.msgs
  rows : st.msgs.s2e.rows = st.an.deltas.length
  ext : RowAll (fun _ => Small u (M - B)) st.ext
  size : st.ext.size = inp.numEdges

theorem RoundSmall.addCuts {inp : TspInputs} {m : TspMsgs} (h : RoundSmall u M inp m) (k : ℕ) : RoundSmall u M inp (tspAddCuts k m) := by
  have hp : MatAll (fun _ _ => Small u M) (Mat.pushZeros k m.s2e) := fun i hi j hj => by
    show Small u M (if i < m.s2e.rows then m.s2e.data i j else 0)
    split
    · next hi => exact h.s2e i hi j hj
    · exact Small.zero (by positivity)
  exact ⟨h.e2d, h.dummy, h.deg, h.rows, hp, hp⟩

section
variable (hr : KeepsMultiples r u M) {inp : TspInputs} {B : ℕ} (hd : inp.flag = false ∨ inp.alpha = 0)
  (hc : MatAll (fun _ _ => Small u B) inp.degCost) (hw : RowAll (fun _ => Small u B) inp.cost) (hE : inp.numEdges ≤ inp.edges.length)
  (hcost : inp.numEdges * B ≤ M) {K : ℕ} {reset augmentation : Bool} {thr : Num} {maxCount : ℕ} {maxAugm : ℤ} {order : ℕ → List (ℕ × ℕ) → List ℕ}
include hr hd hc hw hE hcost

theorem exact_first {e2d : Mat Num} (he : MatAll (fun _ _ => Small u B) e2d) (hM : (2 * K + 1) * B ≤ M) {s1 : TspState}
    (h : iterateRelaxed (tspSetup inp K reset augmentation thr maxCount maxAugm order) (tspStart inp e2d) = some s1) :
    Rounded.iterateRelaxed r (Rounded.tspSetup r inp K reset augmentation thr maxCount maxAugm order) (tspStart inp e2d) = some s1 ∧ s1.numAugm = 0 ∧
      RoundInv u M B inp (addFirstRows s1) ∧ RowAll (fun _ => Small u (M - B)) s1.ext := by
  have hMq : (2 * K + 1) * (B : ℚ) ≤ M := by exact_mod_cast hM
  have hB : (0 : ℚ) ≤ B := by positivity
  have hKB : (0 : ℚ) ≤ K * B := by positivity
  obtain ⟨m1, ext1, intr1, sel, total, an, f1, f2, f3, rfl⟩ := iterateRelaxed_facts h
  obtain ⟨g1, g2⟩ := exact_tspRelaxed hr hd hc hw hE he hM (small_fill (by positivity) _) _ f1
  have g3 := exact_hardDecision hr hw f2 (le_trans (Nat.mul_le_mul_right _ (hardDecision_count f2)) hcost)
  have hext : RowAll (fun _ => Small u (M - B)) ext1 := fun i hi => (g2 i hi).mono (by linarith)
  have hm1 : RoundSmall u M inp m1 ∧ m1.s2e.rows = 0 ∧ ext1.size = inp.numEdges := by
    unfold tspSetup tspRelaxed at f1
    simp only [Option.bind_eq_bind, Option.bind_eq_some_iff] at f1
    obtain ⟨m', h1, e', h2, i', h3, h4⟩ := f1
    obtain ⟨rfl, rfl, rfl⟩ := by simpa using Option.some.inj h4
    have k1 := (Same.loopUp (RelaxedSmall u B inp) (n := K) (f := tspRelaxedIter inp) (g := Rounded.tspRelaxedIter r inp) (s := tspInit inp e2d)
      ⟨by simp only [Nat.cast_zero, zero_mul, zero_add]; exact he, fun _ _ _ _ => ⟨Small.zero (by simp), fun _ _ _ _ => rfl⟩,
        fun _ _ _ _ => ⟨Small.zero (by simp), fun _ _ _ _ => rfl⟩, rfl⟩ (fun k hk a ha => exact_relaxedIter hr hB hd hc (by
          have : (k : ℚ) + 1 ≤ K := by exact_mod_cast hk
          nlinarith) ha)) m' h1
    have k2 := keepUp (fun _ (m : TspMsgs) => m.s2e = Mat.fill 0 inp.numEdges 0 ∧ m.subDummy = Mat.fill 0 inp.numEdges 0) ⟨rfl, rfl⟩ (fun k _ a ha => Same.of fun b hb => by
      unfold tspRelaxedIter at hb
      simp only [Option.bind_eq_bind, Option.bind_eq_some_iff] at hb
      obtain ⟨_, -, ⟨_, _⟩, -, _, -, hb⟩ := hb
      rw [← Option.some.inj hb]
      exact ha) h1
    refine ⟨⟨k1.2.e2d.mono fun _ _ _ hx => hx.mono (by linarith), k1.2.dummy.mono fun _ _ _ hx => hx.mono (by linarith),
      k1.2.deg.mono fun _ _ _ hx => hx.mono (by linarith), k1.2.rows, ?_, ?_⟩, ?_, ?_⟩
    · rw [k2.1]; exact fun i hi => by simp [Mat.fill] at hi
    · rw [k2.2]; exact fun i hi => by simp [Mat.fill] at hi
    · rw [k2.1]; rfl
    · have : ∀ {d : Mat Num} {x y : Arr Num}, tspExtrinsicRelaxed d x = some y → y.size = x.size := fun {d x y} h =>
        keepUp (fun _ (a : Arr Num) => a.size = x.size) rfl (fun k _ a ha => Same.read fun s _ => Same.of fun b hb => (arr_wr hb).2.1.trans ha) h
      rw [this h2]; rfl
  refine ⟨?_, rfl, ?_, hext⟩
  · have e1 : (Rounded.tspSetup r inp K reset augmentation thr maxCount maxAugm order).relaxed [] (tspStart inp e2d).msgs
      ((tspStart inp e2d).ext, (tspStart inp e2d).intr) = some (m1, ext1, intr1) := g1
    have e2 : Rounded.hardDecision r (Rounded.tspSetup r inp K reset augmentation thr maxCount maxAugm order).numEdges
      (Rounded.tspSetup r inp K reset augmentation thr maxCount maxAugm order).thr intr1 
      (Rounded.tspSetup r inp K reset augmentation thr maxCount maxAugm order).edges
      (Rounded.tspSetup r inp K reset augmentation thr maxCount maxAugm order).cost = some (sel, total) := g3
    have e3 : analyse (Rounded.tspSetup r inp K reset augmentation thr maxCount maxAugm order).numNodes
      (Rounded.tspSetup r inp K reset augmentation thr maxCount maxAugm order).maxCount
      (Rounded.tspSetup r inp K reset augmentation thr maxCount maxAugm order).edges sel
      ((Rounded.tspSetup r inp K reset augmentation thr maxCount maxAugm order).order (tspStart inp e2d).numAugm sel) (tspStart inp e2d).an = some an := f3
    unfold Rounded.iterateRelaxed
    simp only [e1, e2, e3, Option.bind_eq_bind, Option.bind_some]
  · unfold addFirstRows
    simp only
    split
    · refine ⟨hm1.1.addCuts _, ?_, hext, hm1.2.2⟩
      show m1.s2e.rows + an.deltas.length = an.deltas.length
      rw [hm1.2.1]; omega
    · refine ⟨hm1.1, ?_, hext, hm1.2.2⟩
      show m1.s2e.rows = an.deltas.length
      rw [hm1.2.1]; omega

variable (hu : 0 < u) {X D : ℕ} (hM : (D + 3) * X + B ≤ M)
  (hreset : ∀ c ∈ inp.edges, ∀ x, inp.costMatrix.rd c.1 c.2 = some x → Small u B x)
include hu hM hreset

theorem exact_round {st st1 : TspState} (hi : RoundInv u M B inp st) (hD : st.an.deltas.length ≤ D)
    (hin : ∀ i ≤ K, ∀ m, roundMsgs inp reset st.an.deltas st.msgs i = some m → MessagesWithin (X * u) m)
    (h : iterateAugmented (tspSetup inp K reset augmentation thr maxCount maxAugm order) st = some st1) :
    Rounded.iterateAugmented r (Rounded.tspSetup r inp K reset augmentation thr maxCount maxAugm order) st = some st1 ∧
      RoundSmall u M inp st1.msgs ∧ RowAll (fun _ => Small u (M - B)) st1.ext ∧ st1.ext.size = inp.numEdges := by
  have hMq : ((D : ℚ) + 3) * X + B ≤ M := by exact_mod_cast hM
  have hX : (0 : ℚ) ≤ X := by positivity
  obtain ⟨intr, f1, -, f3, -⟩ := iterateAugmented_facts h
  obtain ⟨g1, g2, -, g4, g5⟩ := exact_tspAugmented hr hu (by positivity) hX hd hc hw hMq hE hi.msgs hreset (by rw [hi.rows]; exact hD) hin
    (o := (st.ext, st.intr)) hi.size _ f1
  have g3 := exact_hardDecision hr hw f3 (le_trans (Nat.mul_le_mul_right _ (hardDecision_count f3)) hcost)
  refine ⟨?_, g2, fun i hi => (g4 i hi).mono (by linarith), g5⟩
  rw [← h]
  unfold iterateAugmented Rounded.iterateAugmented
  have e1 : (Rounded.tspSetup r inp K reset augmentation thr maxCount maxAugm order).augmented st.an.deltas st.msgs (st.ext, st.intr) = some (st1.msgs, st1.ext, intr) := g1
  simp only [Option.bind_eq_bind, e1, f1, Option.bind_some]
  have e2 : Rounded.hardDecision r (Rounded.tspSetup r inp K reset augmentation thr maxCount maxAugm order).numEdges
      (Rounded.tspSetup r inp K reset augmentation thr maxCount maxAugm order).thr intr
      (Rounded.tspSetup r inp K reset augmentation thr maxCount maxAugm order).edges
      (Rounded.tspSetup r inp K reset augmentation thr maxCount maxAugm order).cost = some (st1.selected, st1.cost) := g3
  simp only [e2, f3, Option.bind_some]
  rfl

theorem exact_augmentLoop {e2d : Mat Num} {fuel : ℕ} {st' : TspState} : ∀ {st : TspState},
    roundState (tspSetup inp K reset augmentation thr maxCount maxAugm order) (tspStart inp e2d) st.numAugm = some st → RoundInv u M B inp st →
    RoundsWithin inp reset K (tspSetup inp K reset augmentation thr maxCount maxAugm order) (tspStart inp e2d) st'.numAugm D (X * u) →
    augmentLoop (tspSetup inp K reset augmentation thr maxCount maxAugm order) fuel st = some (some st') →
    Rounded.augmentLoop r (Rounded.tspSetup r inp K reset augmentation thr maxCount maxAugm order) fuel st = some (some st') ∧
      RowAll (fun _ => Small u (M - B)) st'.ext := by
  induction fuel with
  | zero => intro st _ _ _ h; cases h
  | succ fuel ih =>
    intro st hs hi hin h
    have hnum0 := augmentLoop_num h
    unfold augmentLoop at h
    unfold Rounded.augmentLoop
    have haug : (Rounded.tspSetup r inp K reset augmentation thr maxCount maxAugm order).augmentation =
      (tspSetup inp K reset augmentation thr maxCount maxAugm order).augmentation := rfl
    have hmax : (Rounded.tspSetup r inp K reset augmentation thr maxCount maxAugm order).maxAugm =
      (tspSetup inp K reset augmentation thr maxCount maxAugm order).maxAugm := rfl
    rw [haug]
    split at h
    · next g1 =>
      rw [if_pos g1]
      split at h
      · next g2 =>
        rw [if_pos g2]
        obtain rfl := Option.some.inj (Option.some.inj h)
        exact ⟨rfl, hi.ext⟩
      · next g2 =>
        rw [if_neg g2]
        split at h
        · cases h
        · next g3 =>
          rw [if_neg g3]
          split at h
          · cases h
          · next st1 h1 =>
            obtain ⟨intr, -, -, -, -, hnum, -⟩ := iterateAugmented_facts h1
            have hlt : st.numAugm < st'.numAugm := by
              split at h
              · rw [← Option.some.inj (Option.some.inj h)]; omega
              · split at h
                · cases h
                · next st2 h2 =>
                  have h3 := augmentLoop_num h
                  have h4 : st2.numAugm = st1.numAugm := by
                    unfold addMissingRows at h2
                    split at h2
                    · rw [← Option.some.inj h2]
                    · split at h2
                      · cases h2
                      · rw [← Option.some.inj h2]
                  omega
            obtain ⟨w1, w2⟩ := hin st.numAugm hlt st hs
            obtain ⟨k1, k2, k3, k4⟩ := exact_round hr hd hc hw hE hcost hu hM hreset hi w1 w2 h1
            rw [k1]
            simp only
            rw [hmax]
            split at h
            · next g4 =>
              rw [if_pos g4]
              obtain rfl := Option.some.inj (Option.some.inj h)
              exact ⟨rfl, k3⟩
            · next g4 =>
              rw [if_neg g4]
              split at h
              · cases h
              · next st2 h2 =>
                have h5 : st2.numAugm = st1.numAugm ∧ RoundInv u M B inp st2 := by
                  unfold addMissingRows at h2
                  split at h2
                  · next hrow => rw [← Option.some.inj h2]; exact ⟨rfl, k2, hrow, k3, k4⟩
                  · next hrow =>
                    split at h2
                    · cases h2
                    · next hrow2 =>
                      rw [← Option.some.inj h2]
                      refine ⟨rfl, k2.addCuts _, ?_, k3, k4⟩
                      show st1.msgs.s2e.rows + (st1.an.deltas.length - st1.msgs.s2e.rows) = st1.an.deltas.length
                      omega
                rw [h2]
                refine ih ?_ h5.2 hin h
                rw [h5.1, hnum, roundState, hs, Option.bind_some, h1, Option.bind_some, h2]
    · next g1 =>
      rw [if_neg g1]
      obtain rfl := Option.some.inj (Option.some.inj h)
      exact ⟨rfl, hi.ext⟩

/-- The whole solver. -/
theorem exact_tspRounds {e2d : Mat Num} (he : MatAll (fun _ _ => Small u B) e2d) (hM1 : (2 * K + 1) * B ≤ M) {fuel : ℕ} {st : TspState}
    (hin : RoundsWithin inp reset K (tspSetup inp K reset augmentation thr maxCount maxAugm order) (tspStart inp e2d) st.numAugm D (X * u))
    (h : tspSolve (tspSetup inp K reset augmentation thr maxCount maxAugm order) fuel (tspStart inp e2d) = some (some st)) :
    Rounded.tspSolve r (Rounded.tspSetup r inp K reset augmentation thr maxCount maxAugm order) fuel (tspStart inp e2d) = some (some st) ∧
      RowAll (fun _ => Small u (M - B)) st.ext := by
  unfold tspSolve at h
  unfold Rounded.tspSolve
  cases h1 : iterateRelaxed (tspSetup inp K reset augmentation thr maxCount maxAugm order) (tspStart inp e2d) with
  | none => rw [h1] at h; cases h
  | some s1 =>
    obtain ⟨g1, g2, g3, g4⟩ := exact_first hr hd hc hw hE hcost he hM1 h1
    rw [h1] at h
    rw [g1]
    have haug : (Rounded.tspSetup r inp K reset augmentation thr maxCount maxAugm order).augmentation =
      (tspSetup inp K reset augmentation thr maxCount maxAugm order).augmentation := rfl
    simp only at h ⊢
    rw [haug]
    split at h
    · next g5 =>
      rw [if_pos g5]
      have h5 : (addFirstRows s1).numAugm = s1.numAugm := by unfold addFirstRows; split <;> rfl
      refine exact_augmentLoop hr hd hc hw hE hcost hu hM hreset ?_ g3 hin h
      rw [h5, g2, roundState, h1, Option.map_some]
    · next g5 =>
      rw [if_neg g5]
      obtain rfl := Option.some.inj (Option.some.inj h)
      exact ⟨rfl, g4⟩

end

end Verif.Proofs
