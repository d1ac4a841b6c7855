import Verif.Proofs.ExactTspRun
import Verif.Proofs.ParamCall

/-! A call of the TSP solver without augmented rounds computes exactly on small multiples of a unit. -/

namespace Verif.Proofs
open Verif Num Spec Model Properties

theorem augmentLoop_num {c : TspSetup} : ∀ {fuel : ℕ} {st st' : TspState}, augmentLoop c fuel st = some (some st') → st.numAugm ≤ st'.numAugm := by
  intro fuel
  induction fuel with
  | zero => intro st st' h; cases h
  | succ fuel ih =>
    intro st st' h
    unfold augmentLoop at h
    split at h
    · split at h
      · rw [← Option.some.inj (Option.some.inj h)]
      · split at h
        · cases h
        · split at h
          · cases h
          · next st1 h1 =>
            obtain ⟨intr, -, -, -, -, hnum, -⟩ := iterateAugmented_facts h1
            split at h
            · rw [← Option.some.inj (Option.some.inj h)]; omega
            · split at h
              · cases h
              · next st2 h2 =>
                have h3 := ih h
                have h4 : st2.numAugm = st1.numAugm := by
                  unfold addMissingRows at h2
                  split at h2
                  · rw [← Option.some.inj h2]
                  · split at h2
                    · cases h2
                    · rw [← Option.some.inj h2]
                omega
    · rw [← Option.some.inj (Option.some.inj h)]

/-- A loop that does not count an augmentation performs none. -/
theorem augmentLoop_idle {r : ℚ → Num} {c c' : TspSetup} (hc : c'.augmentation = c.augmentation) {fuel : ℕ} {st st' : TspState}
    (h : augmentLoop c fuel st = some (some st')) (hn : st'.numAugm ≤ st.numAugm) : Rounded.augmentLoop r c' fuel st = some (some st') ∧ st' = st := by
  cases fuel with
  | zero => cases h
  | succ fuel =>
    unfold augmentLoop at h
    unfold Rounded.augmentLoop
    rw [hc]
    split at h
    · next g1 =>
      rw [if_pos g1]
      split at h
      · next g2 => rw [if_pos g2]; exact ⟨h, (Option.some.inj (Option.some.inj h)).symm⟩
      · split at h
        · cases h
        · split at h
          · cases h
          · next st1 h1 =>
            exfalso
            obtain ⟨intr, -, -, -, -, hnum, -⟩ := iterateAugmented_facts h1
            split at h
            · rw [← Option.some.inj (Option.some.inj h)] at hn; omega
            · split at h
              · cases h
              · next st2 h2 =>
                have h3 := augmentLoop_num h
                have h4 : st2.numAugm = st1.numAugm := by
                  unfold addMissingRows at h2
                  split at h2
                  · rw [← Option.some.inj h2]
                  · split at h2
                    · cases h2
                    · rw [← Option.some.inj h2]
                omega
    · next g1 => rw [if_neg g1]; exact ⟨h, (Option.some.inj (Option.some.inj h)).symm⟩

section
variable {r : ℚ → Num} {u : ℚ} {M : ℕ} (hr : KeepsMultiples r u M)
include hr

theorem exact_tspSolve {inp : TspInputs} {B : ℕ} (hd : inp.flag = false ∨ inp.alpha = 0) (hc : MatAll (fun _ _ => Small u B) inp.degCost)
    (hw : RowAll (fun _ => Small u B) inp.cost) (hE : inp.numEdges ≤ inp.edges.length) {e2d : Mat Num} (he : MatAll (fun _ _ => Small u B) e2d) {K : ℕ}
    (hM : (2 * K + 1) * B ≤ M) {reset augmentation : Bool} {thr : Num} {maxCount : ℕ} {maxAugm : ℤ}
    {order : ℕ → List (ℕ × ℕ) → List ℕ} {fuel : ℕ} {st : TspState}
    (h : tspSolve (tspSetup inp K reset augmentation thr maxCount maxAugm order) fuel (tspStart inp e2d) = some (some st)) (hn : st.numAugm = 0)
    (hM' : st.selected.length * B ≤ M) :
    Rounded.tspSolve r (Rounded.tspSetup r inp K reset augmentation thr maxCount maxAugm order) fuel (tspStart inp e2d) = some (some st) ∧
      RowAll (fun _ => Small u (2 * (K * B))) st.ext := by
  unfold tspSolve at h
  unfold Rounded.tspSolve
  cases h1 : iterateRelaxed (tspSetup inp K reset augmentation thr maxCount maxAugm order) (tspStart inp e2d) with
  | none => rw [h1] at h; cases h
  | some s1 =>
    have hrel : s1.selected.length * B ≤ M → Rounded.iterateRelaxed r (Rounded.tspSetup r inp K reset augmentation thr maxCount maxAugm order) (tspStart inp e2d) = some s1 ∧
        s1.numAugm = 0 ∧ RowAll (fun _ => Small u (2 * (K * B))) s1.ext := by
      intro hs
      obtain ⟨m1, ext1, intr1, sel, total, an, f1, f2, f3, rfl⟩ := iterateRelaxed_facts h1
      obtain ⟨g1, g2⟩ := exact_tspRelaxed hr hd hc hw hE he hM (small_fill (by positivity) _) _ f1
      have g3 := exact_hardDecision hr hw f2 hs
      refine ⟨?_, rfl, g2⟩
      have e1 : (Rounded.tspSetup r inp K reset augmentation thr maxCount maxAugm order).relaxed [] (tspStart inp e2d).msgs
        ((tspStart inp e2d).ext, (tspStart inp e2d).intr) = some (m1, ext1, intr1) := g1
      have e2 : Rounded.hardDecision r (Rounded.tspSetup r inp K reset augmentation thr maxCount maxAugm order).numEdges
        (Rounded.tspSetup r inp K reset augmentation thr maxCount maxAugm order).thr intr1 
        (Rounded.tspSetup r inp K reset augmentation thr maxCount maxAugm order).edges
        (Rounded.tspSetup r inp K reset augmentation thr maxCount maxAugm order).cost = some (sel, total) := g3
      have e3 : analyse (Rounded.tspSetup r inp K reset augmentation thr maxCount maxAugm order).numNodes
        (Rounded.tspSetup r inp K reset augmentation thr maxCount maxAugm order).maxCount
        (Rounded.tspSetup r inp K reset augmentation thr maxCount maxAugm order).edges sel
        ((Rounded.tspSetup r inp K reset augmentation thr maxCount maxAugm order).order (tspStart inp e2d).numAugm sel) (tspStart inp e2d).an = some an := f3
      unfold Rounded.iterateRelaxed
      simp only [e1, e2, e3, Option.bind_eq_bind, Option.bind_some]
    rw [h1] at h
    have haug : (Rounded.tspSetup r inp K reset augmentation thr maxCount maxAugm order).augmentation =
      (tspSetup inp K reset augmentation thr maxCount maxAugm order).augmentation := rfl
    simp only at h
    split at h
    · next g4 =>
      have h5 : (addFirstRows s1).numAugm = s1.numAugm ∧ (addFirstRows s1).ext = s1.ext ∧ (addFirstRows s1).selected = s1.selected := by
        unfold addFirstRows
        split <;> exact ⟨rfl, rfl, rfl⟩
      obtain ⟨h6, h7⟩ := augmentLoop_idle (r := r) haug h (by omega)
      obtain ⟨g1, g2, g3⟩ := hrel (by rw [h7, h5.2.2] at hM'; exact hM')
      rw [g1]
      simp only
      rw [haug, if_pos g4]
      refine ⟨h6, ?_⟩
      rw [h7, h5.2.1]
      exact g3
    · next g4 =>
      have h7 := Option.some.inj (Option.some.inj h)
      obtain ⟨g1, g2, g3⟩ := hrel (by rw [h7]; exact hM')
      rw [g1]
      simp only
      rw [haug, if_neg g4]
      exact ⟨h, h7 ▸ g3⟩

end

end Verif.Proofs
