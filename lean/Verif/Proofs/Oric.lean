import Verif.Model.Oric
import Verif.Proofs.ProjectInequality

/-! Loop invariants of the coupling constraint (ORIC) updates. -/

namespace Verif.Proofs
open Verif Num Model Spec

theorem oricFwdStage_inv {n T : ℕ} {e : ℕ → ℕ → ℚ} {m : ℕ → ℚ} {E : Mat Num} (hE : E.Is n T e) {M : Arr Num}
    (hM : M.Is T m) {t : ℕ} (ht : t < T) {i : ℕ} (hi : i < n) {f : Mat Num}
    (hf : FwdInv n (fun s => e s t + m t) i f) :
    ∃ f', oricFwdStage E M t i f = some f' ∧ FwdInv n (fun s => e s t + m t) (i + 1) f' := by
  obtain ⟨hr, hc, hd⟩ := hf
  refine ⟨⟨f.rows, f.cols, fun k l => if k = i + 1 ∧ l = 1 then cmin (f.data i 1) (f.data i 0 + fin (e i t) + fin (m t)) else
    if k = i + 1 ∧ l = 0 then f.data i 0 else f.data k l⟩, ?_, hr, hc, ?_⟩
  · simp [oricFwdStage, Mat.rd, Mat.wr, hr, hc, show i < n + 1 by omega, hi, hE.1, hE.2.1,
      hE.2.2 i hi t ht, hM.rd ht, ht]
  · intro k hk
    by_cases h : k = i + 1
    · subst h
      obtain ⟨h0, h1⟩ := hd i (le_refl _)
      simp only [true_and, if_true, zero_ne_one, if_false, h0]
      rw [← preVals_succ]
      refine h1.union ?_
      rw [fin_add, fin_add, zero_add]
      exact isMin_singleton _
    · simp only [h, false_and, if_false]
      exact hd k (by omega)

theorem oricBwdStage_inv {n T : ℕ} {e : ℕ → ℕ → ℚ} {m : ℕ → ℚ} {E : Mat Num} (hE : E.Is n T e) {M : Arr Num}
    (hM : M.Is T m) {t : ℕ} (ht : t < T) {i : ℕ} (hi : i < n) {b : Mat Num}
    (hb : BwdInv n (fun s => e s t + m t) (i + 1) b) :
    ∃ b', oricBwdStage E M t i b = some b' ∧ BwdInv n (fun s => e s t + m t) i b' := by
  obtain ⟨hr, hc, hd⟩ := hb
  refine ⟨⟨b.rows, b.cols, fun k l => if k = i ∧ l = 1 then b.data (i + 1) 1 else
    if k = i ∧ l = 0 then cmin (b.data (i + 1) 0) (b.data (i + 1) 1 + fin (e i t) + fin (m t)) else b.data k l⟩, ?_, hr, hc, ?_⟩
  · simp [oricBwdStage, Mat.rd, Mat.wr, hr, hc, show i < n + 1 by omega, hi, hE.1, hE.2.1,
      hE.2.2 i hi t ht, hM.rd ht, ht]
  · intro k hk hk'
    by_cases h : k = i
    · subst h
      obtain ⟨h0, h1⟩ := hd (k + 1) (le_refl _) (by omega)
      simp only [true_and, if_true, zero_ne_one, if_false, h0]
      rw [← sufVals_step _ hi]
      refine h1.union ?_
      rw [fin_add, fin_add, zero_add]
      exact isMin_singleton _
    · simp only [h, false_and, if_false]
      exact hd k (by omega) hk'

/-- The messages for one project. -/
theorem oricOut_step {P T : ℕ} {e : ℕ → ℕ → ℚ} {m : ℕ → ℚ} {r : ℕ → ℕ → ℚ} {M : Arr Num} (hM : M.Is T m) {R : Mat Num}
    (hR : R.Is P T r) {f b : Mat Num} {t : ℕ} (ht : t < T)
    (hf : FwdInv P (fun s => e s t + m t) P f) (hb : BwdInv P (fun s => e s t + m t) 0 b)
    {p : ℕ} (hp : p < P) {o q : Mat Num} (hor : o.rows = P) (hoc : o.cols = T) (hqr : q.rows = P) (hqc : q.cols = T) :
    ∃ v, IsLeast (restVals (fun s => e s t + m t) P p) v ∧
      oricOut f b M R t p (o, q) = some
        (⟨P, T, fun k l => if k = p ∧ l = t then fin (m t - v) else o.data k l⟩,
         ⟨P, T, fun k l => if k = p ∧ l = t then fin (m t - v + r p t) else q.data k l⟩) := by
  obtain ⟨fr, fc, fd⟩ := hf
  obtain ⟨br, bc, bd⟩ := hb
  have h := (((fd p hp.le).2.union (bd (p + 1) (by omega) (by omega)).2).union (isMin_singleton 0)).congr (rest_eq _ hp)
  obtain ⟨v, hv, hl⟩ := h.exists_fin ⟨0, Or.inl rfl⟩
  refine ⟨v, hl, ?_⟩
  simp [oricOut, Mat.rd, Mat.wr, fr, fc, br, bc, hor, hoc, hqr, hqc, hp, ht, show p < P + 1 by omega, zero_def, hv,
    hM.rd ht, hR.1, hR.2.1, hR.2.2 p hp t ht]

/-- Closed form of the messages to the projects. -/
theorem oricToProjectUpdate_eq {P T : ℕ} {e r : ℕ → ℕ → ℚ} {m : ℕ → ℚ} {E R O Q : Mat Num} {M : Arr Num}
    (hE : E.Is P T e) (hM : M.Is T m) (hR : R.Is P T r) (hor : O.rows = P) (hoc : O.cols = T)
    (hqr : Q.rows = P) (hqc : Q.cols = T) :
    ∃ o q, oricToProjectUpdate P T E M O Q R = some (o, q) ∧ o.rows = P ∧ o.cols = T ∧ q.rows = P ∧ q.cols = T ∧
      ∀ p < P, ∀ t < T, ∃ v, IsLeast (restVals (fun s => e s t + m t) P p) v ∧
        o.data p t = fin (m t - v) ∧ q.data p t = fin (m t - v + r p t) := by
  obtain ⟨⟨f, b, o, q⟩, hst, -, -, -, -, h1, h2, h3, h4, hod⟩ :=
    loopUp_inv (n := T) (body := oricBody P E M R)
      (s := (Mat.fill (P + 1) 2 0, Mat.fill (P + 1) 2 0, O, Q))
      (fun i st => st.1.rows = P + 1 ∧ st.1.cols = 2 ∧ st.2.1.rows = P + 1 ∧ st.2.1.cols = 2 ∧
        st.2.2.1.rows = P ∧ st.2.2.1.cols = T ∧ st.2.2.2.rows = P ∧ st.2.2.2.cols = T ∧
        ∀ p < P, ∀ t < i, ∃ v, IsLeast (restVals (fun s => e s t + m t) P p) v ∧
          st.2.2.1.data p t = fin (m t - v) ∧ st.2.2.2.data p t = fin (m t - v + r p t))
      ⟨rfl, rfl, rfl, rfl, hor, hoc, hqr, hqc, fun p hp t ht => absurd ht (by omega)⟩
      (by
        rintro i hi ⟨f, b, o, q⟩ ⟨fr, fc, br, bc, or, oc, qr, qc, od⟩
        simp only at fr fc br bc or oc qr qc od
        obtain ⟨f1, hf1, if1⟩ := fwdInv_init (x := fun s => e s i + m i) fr fc
        obtain ⟨f2, hf2, if2⟩ := loopUp_inv (n := P) (body := oricFwdStage E M i) (s := f1)
          (fun k f => FwdInv P (fun s => e s i + m i) k f) if1 (fun k hk f hf => oricFwdStage_inv hE hM hi hk hf)
        obtain ⟨b1, hb1, ib1⟩ := bwdInv_init (x := fun s => e s i + m i) br bc
        obtain ⟨b2, hb2, ib2⟩ := loopDown_inv (n := P) (body := oricBwdStage E M i) (s := b1)
          (fun k f => BwdInv P (fun s => e s i + m i) k f) ib1 (fun k hk f hf => oricBwdStage_inv hE hM hi hk hf)
        obtain ⟨⟨o', q'⟩, ho, ior, ioc, iqr, iqc, iod⟩ := loopUp_inv (n := P) (body := oricOut f2 b2 M R i) (s := (o, q))
          (fun k s => s.1.rows = P ∧ s.1.cols = T ∧ s.2.rows = P ∧ s.2.cols = T ∧
            (∀ p < P, ∀ t < i, ∃ v, IsLeast (restVals (fun s => e s t + m t) P p) v ∧
              s.1.data p t = fin (m t - v) ∧ s.2.data p t = fin (m t - v + r p t)) ∧
            ∀ p < k, ∃ v, IsLeast (restVals (fun s => e s i + m i) P p) v ∧
              s.1.data p i = fin (m i - v) ∧ s.2.data p i = fin (m i - v + r p i))
          ⟨or, oc, qr, qc, od, fun p hp => absurd hp (by omega)⟩
          (by
            rintro k hk ⟨o, q⟩ ⟨h1, h2, h3, h4, h5, h6⟩
            obtain ⟨v, hv, he⟩ := oricOut_step (e := e) hM hR hi if2 ib2 hk h1 h2 h3 h4
            refine ⟨_, he, rfl, rfl, rfl, rfl, ?_, ?_⟩
            · intro p hp t ht
              obtain ⟨v', hv', he'⟩ := h5 p hp t ht
              exact ⟨v', hv', by simpa [show t ≠ i by omega] using he'⟩
            · intro p hp
              by_cases hpk : p = k
              · subst hpk; exact ⟨v, hv, by simp⟩
              · obtain ⟨v', hv', he'⟩ := h6 p (by omega)
                exact ⟨v', hv', by simpa [hpk] using he'⟩)
        refine ⟨(f2, b2, o', q'), by simp [oricBody, hf1, hf2, hb1, hb2, ho], if2.1, if2.2.1, ib2.1, ib2.2.1,
          ior, ioc, iqr, iqc, ?_⟩
        intro p hp t ht
        by_cases hti : t = i
        · subst hti; exact iod.2 p hp
        · exact iod.1 p hp t (by omega))
  exact ⟨o, q, by simp only [oricToProjectUpdate]; rw [hst]; rfl, h1, h2, h3, h4, hod⟩

/-- Closed form of the message to the teams: the least of `1000000` and the messages of the projects. -/
theorem oricToTeamUpdate_eq {P T : ℕ} {e : ℕ → ℕ → ℚ} {E : Mat Num} {O : Arr Num} (hE : E.Is P T e) (hO : O.size = T) :
    ∃ o, oricToTeamUpdate E O = some o ∧ o.size = T ∧
      ∀ t < T, ∃ v, IsLeast {q | q = 1000000 ∨ ∃ p < P, e p t = q} v ∧ o.data t = fin v := by
  obtain ⟨o, ho, h1, h2⟩ := loopUp_inv (n := O.size) (body := oricTeamBody E) (s := O)
    (fun i o => o.size = T ∧ ∀ t < i, ∃ v, IsLeast {q | q = 1000000 ∨ ∃ p < P, e p t = q} v ∧ o.data t = fin v)
    ⟨hO, fun t ht => absurd ht (by omega)⟩
    (by
      rintro i hi o ⟨ho, hd⟩
      rw [hO] at hi
      obtain ⟨w, hw, v, hv, rfl⟩ := loopUp_inv (n := E.rows) (body := oricTeamMin E i) (s := fin 1000000)
        (fun k w => ∃ v, IsLeast {q | q = 1000000 ∨ ∃ p < k, e p i = q} v ∧ w = fin v)
        ⟨1000000, ⟨Or.inl rfl, by rintro q (rfl | ⟨p, hp, _⟩); exact le_refl _; omega⟩, rfl⟩
        (by
          rintro k hk w ⟨v, hv, rfl⟩
          rw [hE.1] at hk
          refine ⟨fin (min v (e k i)), ?_, min v (e k i), ⟨?_, ?_⟩, rfl⟩
          · simp only [oricTeamMin, hE.rd hk hi]
            by_cases h : e k i < v
            · simp [h, min_eq_right h.le]
            · simp [h, min_eq_left (not_lt.mp h)]
          · rcases min_choice v (e k i) with h | h
            · rw [h]
              rcases hv.1 with h | ⟨p, hp, h⟩
              · exact Or.inl h
              · exact Or.inr ⟨p, by omega, h⟩
            · rw [h]; exact Or.inr ⟨k, by omega, rfl⟩
          · rintro q (rfl | ⟨p, hp, rfl⟩)
            · exact (min_le_left _ _).trans (hv.2 (Or.inl rfl))
            · by_cases hpk : p = k
              · subst hpk; exact min_le_right _ _
              · exact (min_le_left _ _).trans (hv.2 (Or.inr ⟨p, by omega, rfl⟩)))
      rw [hE.1] at hv
      refine ⟨⟨o.size, fun k => if k = i then fin v else o.data k⟩, by
        simp only [oricTeamBody, hw]; exact Arr.wr_of_lt (by omega), ho, ?_⟩
      intro t ht
      by_cases hti : t = i
      · subst hti; exact ⟨v, hv, by simp⟩
      · obtain ⟨v', hv', he⟩ := hd t (by omega)
        exact ⟨v', hv', by simpa [hti] using he⟩)
  exact ⟨o, ho, h1, by rw [hO] at h2; exact h2⟩

end Verif.Proofs
