import Verif.Proofs.PyKc

/-! # Whole runs of the pure Python assignment solver -/

namespace Verif.Proofs
open Verif Num Model Spec

section
variable {inp : KcInputs} {wf : ℕ → ℕ → ℕ} {cap : ℕ → ℕ} {w : ℕ → ℚ} {R : ℕ → ℕ → ℚ}

/-- What holds at the start of iteration `j`. -/
structure PyKcInv (inp : KcInputs) (wf : ℕ → ℕ → ℕ) (R : ℕ → ℕ → ℚ) (j : ℕ) (s : PyKcState) : Prop where
  a : s.a.Is inp.numDepartments inp.numTeams s.a.val
  dummy_rows : s.dummy.rows = inp.numDepartments
  dummy_cols : s.dummy.cols = inp.numTeams
  ext : s.ext.Is inp.numDepartments inp.numTeams s.ext.val
  ext_off : ∀ d < inp.numDepartments, ∀ t < inp.numTeams, wf d t = 0 → s.ext.val d t = 0
  old : j ≠ 0 → inp.flag = true → ∃ o, s.extOld = some o ∧ o.Is inp.numDepartments inp.numTeams s.ext.val
  e2o : s.e2o.Is inp.numProjects inp.numTeams s.e2o.val
  out : j ≠ 0 → ∃ o, s.outTeam = some o ∧ o.Is inp.numTeams (fun t => s.o2t.val t + ∑ d ∈ depts inp.numDepartments wf t, s.ext.val d t)
  mwm : j ≠ 0 → s.outMwm.Is inp.numProjects inp.numTeams (fun p t => s.o2e.val p t + s.p2e.val p t + R p t)

/-- What one iteration does. -/
structure PyKcStep (inp : KcInputs) (wf : ℕ → ℕ → ℕ) (cap : ℕ → ℕ) (w : ℕ → ℚ) (R : ℕ → ℕ → ℚ) (j : ℕ) (s s' : PyKcState) : Prop where
  dept : ∀ d < inp.numDepartments, ∀ t < inp.numTeams, wf d t ≠ 0 → IsMessage (users (wf d) 0 inp.numTeams) (Fits (wf d) (cap d)) (s.a.val d) t (fin (s'.dummy.val d t))
  damp : ∀ d < inp.numDepartments, ∀ t < inp.numTeams, s'.ext.val d t = dampStep inp.flag inp.alpha j (s'.dummy.val d t) (s.ext.val d t)
  coupling : ∀ p < inp.numProjects, ∀ t < inp.numTeams, IsMessage (couplingVars inp.numProjects) Coupled
    (couplingIn (w t + ∑ d ∈ depts inp.numDepartments wf t, s'.ext.val d t) (fun p => s.e2o.val p t)) (some p) (fin (s'.o2e.val p t))
  project : ∀ p < inp.numProjects, ∀ t < inp.numTeams, IsMessage (Finset.range inp.numTeams) AtMostOne (fun t => s'.o2e.val p t + R p t) t (fin (s'.p2e.val p t))
  edge : ∀ p < inp.numProjects, ∀ t < inp.numTeams, s'.e2o.val p t = R p t + s'.p2e.val p t
  team : ∀ t < inp.numTeams, IsMessage (couplingVars inp.numProjects) Coupled
    (couplingIn (w t + ∑ d ∈ depts inp.numDepartments wf t, s'.ext.val d t) (fun p => s'.e2o.val p t)) none (fin (s'.o2t.val t))
  next : ∀ d < inp.numDepartments, ∀ t < inp.numTeams, wf d t ≠ 0 → s'.a.val d t = w t + s'.o2t.val t + ∑ d' ∈ (depts inp.numDepartments wf t).erase d, s'.ext.val d' t

theorem pyKcIter_step (h : KcOk inp wf cap w R) (hfa : inp.flag = true → inp.alpha ≠ 0) (hP : 2 ≤ inp.numProjects)
    (hT : 2 ≤ inp.numTeams) (hne : inp.numProjects ≠ inp.numTeams) {j : ℕ} {s : PyKcState} (hs : PyKcInv inp wf R j s) :
    ∃ s', pyKcIter inp j s = some s' ∧ PyKcInv inp wf R (j + 1) s' ∧ PyKcStep inp wf cap w R j s s' := by
  obtain ⟨dummy, a1, a2, a3, a4⟩ := pyKcDepts_spec h hs.a hs.dummy_rows hs.dummy_cols
  have hd : dummy.Is inp.numDepartments inp.numTeams dummy.val := Mat.isFin a2 a3 fun d hd t ht => by
    obtain ⟨q, hq, -⟩ := a4 d hd t ht; exact ⟨q, hq⟩
  obtain ⟨ext, old, f1, f2, f3⟩ := pyFilter_is (k := j) hfa hd hs.old
  have hext := f2.self
  have hdamp : ∀ d < inp.numDepartments, ∀ t < inp.numTeams, ext.val d t = dampStep inp.flag inp.alpha j (dummy.val d t) (s.ext.val d t) :=
    fun d hd t ht => f2.val hd ht
  have hoff : ∀ d < inp.numDepartments, ∀ t < inp.numTeams, wf d t = 0 → ext.val d t = 0 := by
    intro d hd t ht hw
    obtain ⟨q, h1, -, h3⟩ := a4 d hd t ht
    rw [hdamp d hd t ht, hs.ext_off d hd t ht hw, show dummy.val d t = 0 by rw [Mat.val, h1, h3 hw]; rfl]
    simp [dampStep]
  obtain ⟨t2o, b1, b2⟩ := npAdd1_is (npSumAxis0_is hext) h.reward
  have b3 : t2o.Is inp.numTeams (fun t => w t + ∑ d ∈ depts inp.numDepartments wf t, ext.val d t) := b2.congr fun t ht => by
    rw [depts_sum (fun d hd hw => hoff d hd t ht hw), add_comm]
  obtain ⟨o2e, e2p, c1, c2, c3, c4, c5, c6⟩ := pyOricToProject_eq hs.e2o b3 h.rewardProject hP
  have ho2e : o2e.Is inp.numProjects inp.numTeams o2e.val := Mat.isFin c2 c3 fun p hp t ht => by
    obtain ⟨v, -, hv, -⟩ := c6 p hp t ht; exact ⟨_, hv⟩
  have he2p : e2p.Is inp.numProjects inp.numTeams (fun p t => o2e.val p t + R p t) := ⟨c4, c5, fun p hp t ht => by
    obtain ⟨v, -, hv, hq⟩ := c6 p hp t ht; rw [hq]; show _ = fin (o2e.val p t + R p t); rw [Mat.val, hv]; rfl⟩
  obtain ⟨p2e, d1, d2, d3, d4⟩ := pyProjectUpdate_eq he2p hT true
  have hp2e : p2e.Is inp.numProjects inp.numTeams p2e.val := Mat.isFin d2 d3 fun p hp t ht => by
    obtain ⟨q, -, hq⟩ := d4 p hp t ht; exact ⟨_, hq⟩
  obtain ⟨e2o, g1, g2⟩ := npAdd2_is hp2e h.rewardProject
  obtain ⟨o2t, k1, k2, k3⟩ := pyOricToTeam_eq g2 h.projects
  have ho2t : o2t.Is inp.numTeams o2t.val := Arr.isFin k2 fun t ht => by
    obtain ⟨v, -, hv⟩ := k3 t ht; exact ⟨v, hv⟩
  obtain ⟨op, l1, l2⟩ := npAdd2_is ho2e hp2e
  obtain ⟨mwm, l3, l4⟩ := npAdd2_is l2 h.rewardProject
  obtain ⟨a, m1, m2⟩ := pyTeamToDepartment_is h hext ho2t
  obtain ⟨out, n1, n2⟩ := npAdd1_is (npSumAxis0_is hext) ho2t
  have hbal : decide (inp.numProjects ≠ inp.numTeams) = true := by simpa using hne
  refine ⟨⟨a, dummy, ext, old, e2o, o2e, p2e, o2t, some out, mwm⟩, ?_,
    ⟨m2.self, a2, a3, hext, hoff, fun _ hf => ?_, g2.self, fun _ => ⟨out, rfl, n2.congr fun t ht => ?_⟩, fun _ => l4⟩,
    ⟨?_, hdamp, ?_, ?_, fun p hp t ht => ?_, ?_, ?_⟩⟩
  · simp only [pyKcIter, a1, f1, b1, c1, hbal, d1, g1, k1, l1, l3, m1, n1, Option.bind_eq_bind, Option.bind_some]
  · obtain ⟨o, o1, o2⟩ := f3 hf
    exact ⟨o, o1, o2.congr fun d hd t ht => (hdamp d hd t ht).symm⟩
  · rw [depts_sum (fun d hd hw => hoff d hd t ht hw), add_comm]
  · intro d hd' t ht hw
    obtain ⟨q, h1, h2, -⟩ := a4 d hd' t ht
    show IsMessage _ _ _ _ (fin (dummy.val d t))
    rw [← hd.2.2 d hd' t ht, h1]; exact h2 hw
  · intro p hp t ht
    obtain ⟨v, hm, hv, -⟩ := c6 p hp t ht
    show IsMessage _ _ _ _ (fin (o2e.val p t))
    rw [← ho2e.2.2 p hp t ht, hv]; exact coupling_project_message hp hm
  · intro p hp t ht
    obtain ⟨v, hl, hv⟩ := d4 p hp t ht
    show IsMessage _ _ _ _ (fin (p2e.val p t))
    rw [← hp2e.2.2 p hp t ht, hv, if_pos rfl]
    refine atMostOne_message (by simpa using ht) ⟨?_, ?_⟩
    · rcases min_choice v 0 with e | e <;> rw [e]
      · obtain ⟨s, s1, s2, s3⟩ := hl.1
        exact Or.inr ⟨s, by simpa using s1, s2, s3⟩
      · exact Or.inl rfl
    · rintro z (rfl | ⟨s, s1, s2, s3⟩)
      · exact min_le_right _ _
      · exact (min_le_left _ _).trans (hl.2 ⟨s, by simpa using s1, s2, s3⟩)
  · show e2o.val p t = R p t + p2e.val p t
    rw [g2.val hp ht, add_comm]
  · intro t ht
    obtain ⟨v, hl, hv⟩ := k3 t ht
    show IsMessage _ _ (couplingIn _ (fun p => e2o.val p t)) _ (fin (o2t.val t))
    rw [← ho2t.2 t ht, hv]
    refine coupling_team_message ?_
    have : {q | ∃ p < inp.numProjects, p2e.val p t + R p t = q} = {q | ∃ p < inp.numProjects, e2o.val p t = q} := by
      ext q
      constructor
      · rintro ⟨p, hp, e⟩; exact ⟨p, hp, by rw [g2.val hp ht]; exact e⟩
      · rintro ⟨p, hp, e⟩; exact ⟨p, hp, by rw [g2.val hp ht] at e; exact e⟩
    rw [← this]; exact hl
  · intro d hd t ht hw
    show a.val d t = _
    rw [m2.val hd ht, if_pos hw]

theorem pyKcInit_inv {A : Mat Num} {a0 : ℕ → ℕ → ℚ} (hA : A.Is inp.numDepartments inp.numTeams a0) : PyKcInv inp wf R 0 (pyKcInit inp A) where
  a := hA.self
  dummy_rows := rfl
  dummy_cols := rfl
  ext := ⟨rfl, rfl, fun _ _ _ _ => rfl⟩
  ext_off := fun _ _ _ _ _ => rfl
  old := fun hh => absurd rfl hh
  e2o := ⟨rfl, rfl, fun _ _ _ _ => rfl⟩
  out := fun hh => absurd rfl hh
  mwm := fun hh => absurd rfl hh

/-- The run is the textbook algorithm. -/
theorem pyKc_run (h : KcOk inp wf cap w R) (hfa : inp.flag = true → inp.alpha ≠ 0) (hP : 2 ≤ inp.numProjects)
    (hT : 2 ≤ inp.numTeams) (hne : inp.numProjects ≠ inp.numTeams) {A : Mat Num} {a0 : ℕ → ℕ → ℚ}
    (hA : A.Is inp.numDepartments inp.numTeams a0) :
    ∃ a raw o y e c, IsKcTrace inp.numDepartments inp.numTeams inp.numProjects wf cap w R inp.flag inp.alpha none a0 a raw o y e c ∧
      ∀ K, ∃ ext intr, pyKcSolve inp A (K + 1) = some (ext, intr) ∧
        ext.Is inp.numTeams (fun t => c K t + ∑ d ∈ depts inp.numDepartments wf t, damped inp.flag inp.alpha (fun i => raw i d t) K) ∧
        intr.Is inp.numProjects inp.numTeams (fun p t => o K p t + y K p t + R p t) := by
  obtain ⟨st, h0, hst⟩ := loop_trace (body := pyKcIter inp) (s0 := pyKcInit inp A) (PyKcInv inp wf R) (PyKcStep inp wf cap w R)
    (pyKcInit_inv hA) (fun k s hk => pyKcIter_step h hfa hP hT hne hk)
  have hd : ∀ k, ∀ d < inp.numDepartments, ∀ t < inp.numTeams, (st (k + 1)).ext.val d t =
      damped inp.flag inp.alpha (fun i => (st (i + 1)).dummy.val d t) k := by
    intro k d hd t ht
    refine damped_of_step (r := fun i => (st (i + 1)).dummy.val d t) (d := fun k => (st (k + 1)).ext.val d t) ?_ ?_ k
    · intro p
      have := (hst 0).2.2.damp d hd t ht
      simp only [dampStep] at this ⊢
      simpa using this
    · intro k; exact (hst (k + 1)).2.2.damp d hd t ht
  have hsum : ∀ k, ∀ t < inp.numTeams, ∀ S : Finset ℕ, S ⊆ depts inp.numDepartments wf t → ∑ d ∈ S, (st (k + 1)).ext.val d t =
      ∑ d ∈ S, damped inp.flag inp.alpha (fun i => (st (i + 1)).dummy.val d t) k := by
    intro k t ht S hS
    exact Finset.sum_congr rfl fun d hh => hd k d (mem_depts.mp (hS hh)).1 t ht
  refine ⟨fun k => (st k).a.val, fun k => (st (k + 1)).dummy.val, fun k => (st (k + 1)).o2e.val, fun k => (st (k + 1)).p2e.val,
    fun k => (st k).e2o.val, fun k => (st (k + 1)).o2t.val, ⟨?_, ?_, ?_, ?_, ?_, ?_, ?_, ?_⟩, ?_⟩
  · intro d hd t ht
    show (st 0).a.val d t = _
    rw [h0]; exact hA.val hd ht
  · intro k d hd t ht hw; exact (hst k).2.2.dept d hd t ht hw
  · intro p hp t ht
    show (st 0).e2o.val p t = _
    rw [h0]; rfl
  · intro k p hp t ht
    have := (hst k).2.2.coupling p hp t ht
    rw [hsum k t ht _ subset_rfl] at this; exact this
  · intro k p hp t ht; exact (hst k).2.2.project p hp t ht
  · intro k p hp t ht; exact (hst k).2.2.edge p hp t ht
  · intro k t ht
    have := (hst k).2.2.team t ht
    rw [hsum k t ht _ subset_rfl] at this; exact ⟨_, this, rfl⟩
  · intro k d hd t ht hw
    have := (hst k).2.2.next d hd t ht hw
    rw [hsum k t ht _ (Finset.erase_subset _ _)] at this; exact this
  · intro K
    obtain ⟨out, o1, o2⟩ := (hst (K + 1)).2.1.out (Nat.succ_ne_zero K)
    refine ⟨out, (st (K + 1)).outMwm, by simp only [pyKcSolve, (hst (K + 1)).1, o1, Option.bind_eq_bind, Option.bind_some],
      o2.congr fun t ht => ?_, (hst (K + 1)).2.1.mwm (Nat.succ_ne_zero K)⟩
    rw [hsum K t ht _ subset_rfl]

end

section
variable {D T P : ℕ} {wf : ℕ → ℕ → ℕ} {cap : ℕ → ℕ} {w : ℕ → ℚ} {R : ℕ → ℕ → ℚ} {flag : Bool} {alpha : ℚ} {l : ℚ}
  {a0 : ℕ → ℕ → ℚ} {a raw o y e a' raw' o' y' e' : ℕ → ℕ → ℕ → ℚ} {c c' : ℕ → ℕ → ℚ}

/-- As long as the textbook messages to teams stay within the limit, the bounded algorithm has the same messages. -/
theorem kcTrace_limit (h : IsKcTrace D T P wf cap w R flag alpha none a0 a raw o y e c)
    (h' : IsKcTrace D T P wf cap w R flag alpha (some l) a0 a' raw' o' y' e' c') {K : ℕ} (hK : ∀ j ≤ K, ∀ t < T, c j t ≤ l) :
    ∀ j ≤ K,
    (∀ d < D, ∀ t < T, wf d t ≠ 0 → a j d t = a' j d t ∧ raw j d t = raw' j d t) ∧
    (∀ p < P, ∀ t < T, e j p t = e' j p t ∧ o j p t = o' j p t ∧ y j p t = y' j p t) ∧ ∀ t < T, c j t = c' j t := by
  intro j
  induction j using Nat.strong_induction_on with
  | _ j ih =>
    intro hj
    have ha : ∀ d < D, ∀ t < T, wf d t ≠ 0 → a j d t = a' j d t := by
      intro d hd t ht hw
      cases j with
      | zero => rw [h.init d hd t ht, h'.init d hd t ht]
      | succ j =>
        rw [h.next j d hd t ht hw, h'.next j d hd t ht hw, (ih j (by omega) (by omega)).2.2 t ht]
        congr 1
        refine Finset.sum_congr rfl fun k hk => damped_congr fun i hi => ?_
        have := mem_depts.mp (Finset.mem_of_mem_erase hk)
        exact ((ih i (by omega) (by omega)).1 k this.1 t ht this.2).2
    have hraw : ∀ d < D, ∀ t < T, wf d t ≠ 0 → raw j d t = raw' j d t := by
      intro d hd t ht hw
      refine Num.fin.inj ((h.dept j d hd t ht hw).unique ((h'.dept j d hd t ht hw).congr_in (fun u hu => ?_) (mem_users0.mpr ⟨ht, hw⟩)))
      have := mem_users0.mp hu
      exact (ha d hd u this.1 this.2).symm
    have hsum : ∀ t < T, ∑ d ∈ depts D wf t, damped flag alpha (fun i => raw i d t) j =
        ∑ d ∈ depts D wf t, damped flag alpha (fun i => raw' i d t) j := by
      intro t ht
      refine Finset.sum_congr rfl fun k hk => damped_congr fun i hi => ?_
      have := mem_depts.mp hk
      rcases Nat.lt_or_eq_of_le hi with hi | rfl
      · exact ((ih i hi (by omega)).1 k this.1 t ht this.2).2
      · exact hraw k this.1 t ht this.2
    have he : ∀ p < P, ∀ t < T, e j p t = e' j p t := by
      intro p hp t ht
      cases j with
      | zero => rw [h.edge_init p hp t ht, h'.edge_init p hp t ht]
      | succ j => rw [h.edge j p hp t ht, h'.edge j p hp t ht, ((ih j (by omega) (by omega)).2.1 p hp t ht).2.2]
    have hcv : ∀ p < P, some p ∈ couplingVars P := fun p hp => by simp [couplingVars, hp]
    have hcong : ∀ (m : ℚ) (f g : ℕ → ℚ), (∀ p < P, f p = g p) → ∀ i ∈ couplingVars P, couplingIn m f i = couplingIn m g i := by
      intro m f g hfg i hi
      cases i with
      | none => rfl
      | some p => exact hfg p (by simpa [couplingVars] using hi)
    have ho : ∀ p < P, ∀ t < T, o j p t = o' j p t := by
      intro p hp t ht
      have h2 := h'.coupling j p hp t ht
      rw [← hsum t ht] at h2
      exact Num.fin.inj ((h.coupling j p hp t ht).unique (h2.congr_in (hcong _ _ _ fun p hp => (he p hp t ht).symm) (hcv p hp)))
    have hy : ∀ p < P, ∀ t < T, y j p t = y' j p t := by
      intro p hp t ht
      refine Num.fin.inj ((h.project j p hp t ht).unique ((h'.project j p hp t ht).congr_in (fun u hu => ?_)
        (Finset.mem_range.mpr ht)))
      simp only [ho p hp u (Finset.mem_range.mp hu)]
    refine ⟨fun d hd t ht hw => ⟨ha d hd t ht hw, hraw d hd t ht hw⟩, fun p hp t ht => ⟨he p hp t ht, ho p hp t ht, hy p hp t ht⟩,
      fun t ht => ?_⟩
    obtain ⟨v, hv, e1⟩ := h.team j t ht
    obtain ⟨v', hv', e2⟩ := h'.team j t ht
    rw [← hsum t ht] at hv'
    have hvv : v = v' := Num.fin.inj (hv.unique (hv'.congr_in (hcong _ _ _ fun p hp => by
      rw [h.edge j p hp t ht, h'.edge j p hp t ht, hy p hp t ht]) (by simp [couplingVars])))
    have e1 : c j t = v := e1
    have e2 : c' j t = min l v' := e2
    rw [e2, ← hvv, ← e1, min_eq_right (hK j hj t ht)]

end

end Verif.Proofs
