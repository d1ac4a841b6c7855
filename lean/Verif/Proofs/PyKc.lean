import Verif.Proofs.PyKnapsack
import Verif.Proofs.PyTsp
import Verif.Proofs.KcRun
import Mathlib.Tactic.Linarith

/-! # The pure Python assignment solver: the single updates -/

namespace Verif.Proofs
open Verif Num Model Spec

theorem mem_drop_range {n k s : ℕ} : s ∈ (List.range n).drop k ↔ k ≤ s ∧ s < n := by
  rw [List.range_eq_range', List.drop_range', List.mem_range']
  constructor
  · rintro ⟨i, hi, rfl⟩; omega
  · rintro ⟨h1, h2⟩; exact ⟨s - k, by omega, by omega⟩

theorem mem_take_range {n k s : ℕ} : s ∈ (List.range n).take k ↔ s < k ∧ s < n := by
  rw [List.take_range, List.mem_range]; omega

/-- The minimum of the listed entries of a finite sequence. -/
theorem npMin_list {l : List ℕ} (hl : l ≠ []) {f : ℕ → Num} {x : ℕ → ℚ} (h : ∀ s ∈ l, f s = fin (x s)) :
    ∃ q, npMin (l.map f) = some (fin q) ∧ IsLeast {r | ∃ s ∈ l, x s = r} q := by
  have e : l.map f = (l.map x).map fin := by
    rw [List.map_map]; exact List.map_congr_left fun s hs => h s hs
  obtain ⟨q, h1, -, h2⟩ := npMin_fin (l := l.map x) (by simpa using hl)
  refine ⟨q, by rw [e]; exact h1, ?_⟩
  have : {r | ∃ s ∈ l, x s = r} = {r | r ∈ l.map x} := by ext r; simp
  rw [this]; exact h2

/-- The project update: minus the smallest other entry, clipped at zero in the unbalanced case. -/
theorem pyProjectUpdate_eq {P T : ℕ} {A : Mat Num} {x : ℕ → ℕ → ℚ} (hA : A.Is P T x) (hT : 2 ≤ T) (u : Bool) :
    ∃ out, pyProjectUpdate u A = some out ∧ out.rows = P ∧ out.cols = T ∧
      ∀ p < P, ∀ t < T, ∃ v, IsLeast {q | ∃ s < T, s ≠ t ∧ x p s = q} v ∧
        out.data p t = fin (-(if u then min v 0 else v)) := by
  have key : ∀ p < P, ∀ t < T, ∃ v, IsLeast {q | ∃ s < T, s ≠ t ∧ x p s = q} v ∧
      (if t = 0 then npMin (((List.range T).drop 1).map (A.data p))
        else if t < T - 1 then (npMin (((List.range T).take t).map (A.data p))).bind fun lo =>
          (npMin (((List.range T).drop (t + 1)).map (A.data p))).bind fun hi => some (npMin2 lo hi)
        else npMin (((List.range T).take (T - 1)).map (A.data p))) = some (fin v) := by
    intro p hp t ht
    have hv : ∀ l : List ℕ, (∀ s ∈ l, s < T) → ∀ s ∈ l, A.data p s = fin (x p s) := fun l hl s hs => hA.2.2 p hp s (hl s hs)
    by_cases h0 : t = 0
    · obtain ⟨q, h1, h2⟩ := npMin_list (l := (List.range T).drop 1) (List.ne_nil_of_mem (mem_drop_range.mpr ⟨le_rfl, by omega⟩))
        (hv _ fun s hs => (mem_drop_range.mp hs).2)
      refine ⟨q, ?_, by rw [if_pos h0, h1]⟩
      have : {q | ∃ s < T, s ≠ t ∧ x p s = q} = {r | ∃ s ∈ (List.range T).drop 1, x p s = r} := by
        ext r
        simp only [Set.mem_ofPred_eq, mem_drop_range]
        constructor
        · rintro ⟨s, s1, s2, s3⟩; exact ⟨s, ⟨by omega, s1⟩, s3⟩
        · rintro ⟨s, ⟨s1, s2⟩, s3⟩; exact ⟨s, s2, by omega, s3⟩
      rw [this]; exact h2
    · by_cases h9 : t < T - 1
      · obtain ⟨q, h1, h2⟩ := npMin_list (l := (List.range T).take t) (List.ne_nil_of_mem (mem_take_range.mpr ⟨Nat.pos_of_ne_zero h0, by omega⟩))
          (hv _ fun s hs => (mem_take_range.mp hs).2)
        obtain ⟨r, g1, g2⟩ := npMin_list (l := (List.range T).drop (t + 1)) (List.ne_nil_of_mem (mem_drop_range.mpr ⟨le_rfl, by omega⟩))
          (hv _ fun s hs => (mem_drop_range.mp hs).2)
        refine ⟨min q r, ?_, by rw [if_neg h0, if_pos h9, h1, g1]; simp⟩
        have : {q | ∃ s < T, s ≠ t ∧ x p s = q} =
            {r | ∃ s ∈ (List.range T).take t, x p s = r} ∪ {r | ∃ s ∈ (List.range T).drop (t + 1), x p s = r} := by
          ext r
          simp only [Set.mem_union, Set.mem_ofPred_eq, mem_drop_range, mem_take_range]
          constructor
          · rintro ⟨s, s1, s2, s3⟩
            rcases Nat.lt_or_gt_of_ne s2 with h | h
            · exact Or.inl ⟨s, ⟨h, s1⟩, s3⟩
            · exact Or.inr ⟨s, ⟨h, s1⟩, s3⟩
          · rintro (⟨s, ⟨s1, s2⟩, s3⟩ | ⟨s, ⟨s1, s2⟩, s3⟩)
            · exact ⟨s, s2, by omega, s3⟩
            · exact ⟨s, s2, by omega, s3⟩
        rw [this]; exact h2.union g2
      · obtain ⟨q, h1, h2⟩ := npMin_list (l := (List.range T).take (T - 1)) (List.ne_nil_of_mem (mem_take_range.mpr ⟨(show 0 < T - 1 by omega), by omega⟩))
          (hv _ fun s hs => (mem_take_range.mp hs).2)
        refine ⟨q, ?_, by rw [if_neg h0, if_neg h9, h1]⟩
        have : {q | ∃ s < T, s ≠ t ∧ x p s = q} = {r | ∃ s ∈ (List.range T).take (T - 1), x p s = r} := by
          ext r
          simp only [Set.mem_ofPred_eq, mem_take_range]
          constructor
          · rintro ⟨s, s1, s2, s3⟩; exact ⟨s, ⟨by omega, s1⟩, s3⟩
          · rintro ⟨s, ⟨s1, s2⟩, s3⟩; exact ⟨s, s2, by omega, s3⟩
        rw [this]; exact h2
  choose! v hv1 hv2 using key
  obtain ⟨out, h1, h2, h3, h4⟩ := Mat.genM_eq (m := P) (n := T) (f := fun p => Arr.genM T (fun j => do
      let x ← (if j = 0 then npMin (((List.range T).drop 1).map (A.data p))
        else if j < T - 1 then do
          let lo ← npMin (((List.range T).take j).map (A.data p))
          let hi ← npMin (((List.range T).drop (j + 1)).map (A.data p))
          some (npMin2 lo hi)
        else npMin (((List.range T).take (T - 1)).map (A.data p)))
      some (-(pyRule u x)))) (g := fun p t => fin (-(if u then min (v p t) 0 else v p t)))
    (fun p hp => genM_eq fun t ht => by
      simp only [Option.bind_eq_bind]
      rw [hv2 p hp t ht, Option.bind_some]
      cases u <;> simp [pyRule, zero_def])
  refine ⟨out, ?_, h2, h3, fun p hp t ht => ⟨v p t, hv1 p hp t ht, h4 p hp t ht⟩⟩
  simp only [pyProjectUpdate, hA.1, hA.2.1]
  exact h1

theorem pyOricToProject_eq {P T : ℕ} {e r : ℕ → ℕ → ℚ} {m : ℕ → ℚ} {E R : Mat Num} {M : Arr Num}
    (hE : E.Is P T e) (hM : M.Is T m) (hR : R.Is P T r) (hP : 2 ≤ P) :
    ∃ o q, pyOricToProject P T E M R = some (o, q) ∧ o.rows = P ∧ o.cols = T ∧ q.rows = P ∧ q.cols = T ∧
      ∀ p < P, ∀ t < T, ∃ v, IsLeast {q | q = 0 ∨ ∃ s < P, s ≠ p ∧ e s t + m t = q} v ∧
        o.data p t = fin (m t - v) ∧ q.data p t = fin (m t - v + r p t) := by
  have key : ∀ p < P, ∀ t < T, ∃ mn, IsLeast {q | ∃ s < P, s ≠ p ∧ e s t = q} mn ∧
      ((((List.range P).filter (fun q => decide (q ≠ p))).mapM (fun q => E.rd q t)).bind fun xs => (npMin xs).bind fun mn =>
        (M.rd t).bind fun m => some (-(npMin2 mn (-m)))) = some (fin (-(min mn (-(m t))))) := by
    intro p hp t ht
    have hmem : ∀ s, s ∈ (List.range P).filter (fun q => decide (q ≠ p)) ↔ s < P ∧ s ≠ p := by simp
    have hne : (List.range P).filter (fun q => decide (q ≠ p)) ≠ [] := by
      by_cases h : p = 0
      · exact List.ne_nil_of_mem ((hmem 1).mpr ⟨by omega, by omega⟩)
      · exact List.ne_nil_of_mem ((hmem 0).mpr ⟨by omega, by omega⟩)
    obtain ⟨mn, h1, h2⟩ := npMin_list hne (f := fun q => fin (e q t)) (x := fun q => e q t) (fun _ _ => rfl)
    refine ⟨mn, ?_, ?_⟩
    · have : {q | ∃ s < P, s ≠ p ∧ e s t = q} = {r | ∃ s ∈ (List.range P).filter (fun q => decide (q ≠ p)), e s t = r} := by
        ext r; simp only [Set.mem_ofPred_eq, hmem]
        constructor
        · rintro ⟨s, a, b, c⟩; exact ⟨s, ⟨a, b⟩, c⟩
        · rintro ⟨s, ⟨a, b⟩, c⟩; exact ⟨s, a, b, c⟩
      rw [this]; exact h2
    · rw [mapM_some (g := fun q => fin (e q t)) (fun q hq => hE.rd ((hmem q).mp hq).1 ht), Option.bind_some, h1, Option.bind_some,
        hM.rd ht, Option.bind_some]
      simp
  choose! mn hmn1 hmn2 using key
  obtain ⟨o, h1, h2, h3, h4⟩ := Mat.genM_eq (m := P) (n := T) (f := fun p => Arr.genM T (fun t => do
      let xs ← ((List.range P).filter (fun q => decide (q ≠ p))).mapM (fun q => E.rd q t)
      let mn ← npMin xs
      let m ← M.rd t
      some (-(npMin2 mn (-m))))) (g := fun p t => fin (-(min (mn p t) (-(m t)))))
    (fun p hp => genM_eq fun t ht => by
      simp only [Option.bind_eq_bind]
      exact hmn2 p hp t ht)
  have ho : o.Is P T (fun p t => -(min (mn p t) (-(m t)))) := ⟨h2, h3, h4⟩
  obtain ⟨q, q1, q2⟩ := npAdd2_is ho hR
  refine ⟨o, q, ?_, h2, h3, q2.1, q2.2.1, fun p hp t ht => ?_⟩
  · simp only [pyOricToProject]
    rw [h1]
    simp only [Option.bind_eq_bind, Option.bind_some, q1]
  · have hl := hmn1 p hp t ht
    have e1 : m t - min (mn p t + m t) 0 = -(min (mn p t) (-(m t))) := by
      rcases le_total (mn p t + m t) 0 with h | h
      · rw [min_eq_left h, min_eq_left (by linarith)]; ring
      · rw [min_eq_right h, min_eq_right (by linarith)]; ring
    refine ⟨min (mn p t + m t) 0, ⟨?_, ?_⟩, ?_, ?_⟩
    · rcases min_choice (mn p t + m t) 0 with h | h <;> rw [h]
      · obtain ⟨s, s1, s2, s3⟩ := hl.1
        exact Or.inr ⟨s, s1, s2, by rw [s3]⟩
      · exact Or.inl rfl
    · rintro z (rfl | ⟨s, s1, s2, rfl⟩)
      · exact min_le_right _ _
      · refine (min_le_left _ _).trans ?_
        have := hl.2 ⟨s, s1, s2, rfl⟩
        linarith
    · rw [h4 p hp t ht, e1]
    · rw [q2.2.2 p hp t ht, e1]

theorem pyOricToTeam_eq {P T : ℕ} {e : ℕ → ℕ → ℚ} {E : Mat Num} (hE : E.Is P T e) (hP : 0 < P) :
    ∃ o, pyOricToTeam E = some o ∧ o.size = T ∧ ∀ t < T, ∃ v, IsLeast {q | ∃ p < P, e p t = q} v ∧ o.data t = fin v := by
  have key : ∀ t < T, ∃ v, IsLeast {q | ∃ p < P, e p t = q} v ∧
      npMin ((List.range P).map (fun p => E.data p t)) = some (fin v) := by
    intro t ht
    obtain ⟨q, h1, h2⟩ := npMin_list (l := List.range P) (List.ne_nil_of_mem (List.mem_range.mpr hP)) (f := fun p => E.data p t)
      (x := fun p => e p t) (fun p hp => hE.2.2 p (List.mem_range.mp hp) t ht)
    exact ⟨q, by simpa using h2, h1⟩
  choose! v hv1 hv2 using key
  obtain ⟨o, h1, h2, h3⟩ := genM_eq (n := T) (f := fun t => npMin ((List.range P).map (fun p => E.data p t)))
    (g := fun t => fin (v t)) hv2
  exact ⟨o, by rw [pyOricToTeam, hE.1, hE.2.1]; exact h1, h2, fun t ht => ⟨v t, hv1 t ht, h3 t ht⟩⟩

/-- Writing `f e` at the positions of a list into a row. -/
theorem writeOver {f : ℕ → Num} {body : ℕ → Arr Num → Option (Arr Num)} {l : List ℕ} {E : ℕ} {row0 : Arr Num} (h0 : row0.size = E)
    (hl : ∀ e ∈ l, e < E) (hb : ∀ e ∈ l, ∀ row : Arr Num, body e row = row.wr e (f e)) :
    ∃ r, loopList l body row0 = some r ∧ r.size = E ∧ ∀ e, r.data e = if e ∈ l then f e else row0.data e := by
  obtain ⟨r, h1, h2, h3⟩ := loopList_inv_idx (l := l) (body := body) (s := row0)
    (fun k r => r.size = E ∧ ∀ e, r.data e = if e ∈ l.take k then f e else row0.data e)
    ⟨h0, fun e => by simp⟩
    (by
      rintro k hk r ⟨r1, r2⟩
      have hlk : l[k] < E := hl _ (List.getElem_mem hk)
      refine ⟨⟨r.size, fun i => if i = l[k] then f l[k] else r.data i⟩, ?_, r1, ?_⟩
      · rw [hb _ (List.getElem_mem hk)]; exact Arr.wr_of_lt (by omega)
      · intro e
        simp only [List.take_succ_eq_append_getElem hk, List.mem_append, List.mem_singleton]
        split_ifs with h1 h2 h2
        · rw [h1]
        · exact absurd (Or.inr h1) h2
        · rw [r2 e]; simp [h2.resolve_right h1]
        · rw [r2 e]; simp only [not_or] at h2; simp [h2.1])
  refine ⟨r, h1, h2, fun e => ?_⟩
  rw [h3 e, List.take_length]

section
variable {inp : KcInputs} {wf : ℕ → ℕ → ℕ} {cap : ℕ → ℕ} {w : ℕ → ℚ} {R : ℕ → ℕ → ℚ}

theorem KcOk.cols (h : KcOk inp wf cap w R) {d : ℕ} (hd : d < inp.numDepartments) : inp.weights.cols = inp.numTeams :=
  (h.dept d hd).w_size

theorem KcOk.mem_py (h : KcOk inp wf cap w R) {d : ℕ} (hd : d < inp.numDepartments) {t : ℕ} :
    t ∈ pyNz ⟨inp.weights.cols, inp.weights.data d⟩ ↔ t < inp.numTeams ∧ wf d t ≠ 0 :=
  (pyNz_ok (h.dept d hd)).mem t

/-- The new messages to the departments; with at most two departments per team the last assignment is the only one. -/
theorem pyTeamToDepartment_is (h : KcOk inp wf cap w R) {ext : Mat Num} {x : ℕ → ℕ → ℚ} (hx : ext.Is inp.numDepartments inp.numTeams x)
    {o2t : Arr Num} {c : ℕ → ℚ} (hc : o2t.Is inp.numTeams c) :
    ∃ a, pyTeamToDepartment inp.numDepartments inp.numTeams inp.weights inp.reward ext o2t = some a ∧
      a.Is inp.numDepartments inp.numTeams (fun d t => if wf d t ≠ 0 then
        w t + c t + ∑ d' ∈ (depts inp.numDepartments wf t).erase d, x d' t else 0) := by
  have key : ∀ d < inp.numDepartments, ∃ a : Arr Num, (do
      let wd ← inp.weights.rdRow d
      let others := (List.range inp.numDepartments).filter (fun u => decide (u ≠ d))
      let (row, total) ← loopList others (fun u s => do
        let wu ← inp.weights.rdRow u
        let both := (pyNz wd).filter (fun t => decide (t ∈ pyNz wu))
        let row ← loopList both (fun t row => do
          let r ← inp.reward.rd t
          let x ← ext.rd u t
          let o ← o2t.rd t
          row.wr t (r + x + o)) s.1
        some (row, s.2 ++ both)) (Arr.fill inp.numTeams 0, [])
      let unique := (pyNz wd).filter (fun t => decide (t ∉ total))
      loopList unique (fun t row => do
        let r ← inp.reward.rd t
        let o ← o2t.rd t
        row.wr t (r + o)) row) = some a ∧ a.size = inp.numTeams ∧ ∀ t < inp.numTeams, a.data t = fin (if wf d t ≠ 0 then
        w t + c t + ∑ d' ∈ (depts inp.numDepartments wf t).erase d, x d' t else 0) := by
    intro d hd
    have hrow : ∀ u < inp.numDepartments, inp.weights.rdRow u = some ⟨inp.weights.cols, inp.weights.data u⟩ := fun u hu =>
      Mat.rdRow_of_lt (by rw [h.weights_rows]; exact hu)
    set others := (List.range inp.numDepartments).filter (fun u => decide (u ≠ d)) with hoth
    have hmo : ∀ u, u ∈ others ↔ u < inp.numDepartments ∧ u ≠ d := by simp [hoth]
    set nd := pyNz ⟨inp.weights.cols, inp.weights.data d⟩ with hnd
    have hmd : ∀ t, t ∈ nd ↔ t < inp.numTeams ∧ wf d t ≠ 0 := fun t => KcOk.mem_py h hd
    -- two other departments of one team coincide
    have huniq : ∀ t, t < inp.numTeams → wf d t ≠ 0 → ∀ u ∈ others, ∀ v ∈ others, wf u t ≠ 0 → wf v t ≠ 0 → u = v := by
      intro t ht hw u hu v hv hwu hwv
      have hcard : ((depts inp.numDepartments wf t).erase d).card ≤ 1 := by
        rw [Finset.card_erase_of_mem (mem_depts.mpr ⟨hd, hw⟩)]
        have := h.two t ht; omega
      have hu' := (hmo u).mp hu
      have hv' := (hmo v).mp hv
      exact Finset.card_le_one.mp hcard u (Finset.mem_erase.mpr ⟨hu'.2, mem_depts.mpr ⟨hu'.1, hwu⟩⟩) v
        (Finset.mem_erase.mpr ⟨hv'.2, mem_depts.mpr ⟨hv'.1, hwv⟩⟩)
    obtain ⟨⟨row, total⟩, l1, l2, l3, l4, l5⟩ := loopList_inv_idx (l := others) (body := fun u (s : Arr Num × List ℕ) => do
        let wu ← inp.weights.rdRow u
        let both := nd.filter (fun t => decide (t ∈ pyNz wu))
        let row ← loopList both (fun t row => do
          let r ← inp.reward.rd t
          let x ← ext.rd u t
          let o ← o2t.rd t
          row.wr t (r + x + o)) s.1
        some (row, s.2 ++ both)) (s := (Arr.fill inp.numTeams 0, []))
      (fun k s => s.1.size = inp.numTeams ∧
        (∀ t, t ∈ s.2 ↔ t < inp.numTeams ∧ wf d t ≠ 0 ∧ ∃ u ∈ others.take k, wf u t ≠ 0) ∧
        (∀ t < inp.numTeams, t ∉ s.2 → s.1.data t = fin 0) ∧
        ∀ t < inp.numTeams, wf d t ≠ 0 → ∀ u ∈ others.take k, wf u t ≠ 0 → s.1.data t = fin (w t + x u t + c t))
      ⟨rfl, by simp, fun _ _ _ => rfl, by simp⟩
      (by
        rintro k hk ⟨row, total⟩ ⟨r1, r2, r3, r4⟩
        simp only at r1 r2 r3 r4
        have hu := List.getElem_mem hk
        set u := others[k] with hu0
        have hu' := (hmo u).mp hu
        have hmu : ∀ t, t ∈ pyNz ⟨inp.weights.cols, inp.weights.data u⟩ ↔ t < inp.numTeams ∧ wf u t ≠ 0 := fun t =>
          KcOk.mem_py h hu'.1
        set both := nd.filter (fun t => decide (t ∈ pyNz ⟨inp.weights.cols, inp.weights.data u⟩)) with hboth
        have hmb : ∀ t, t ∈ both ↔ t < inp.numTeams ∧ wf d t ≠ 0 ∧ wf u t ≠ 0 := fun t => by
          simp only [hboth, List.mem_filter, decide_eq_true_eq, hmd, hmu]; tauto
        obtain ⟨row', w1, w2, w3⟩ := writeOver (f := fun t => fin (w t + x u t + c t)) (l := both) (E := inp.numTeams)
          (body := fun t row => do
            let r ← inp.reward.rd t
            let x ← ext.rd u t
            let o ← o2t.rd t
            row.wr t (r + x + o)) r1 (fun t ht => ((hmb t).mp ht).1)
          (fun t ht row => by
            have := ((hmb t).mp ht).1
            simp only [h.reward.rd this, hx.rd hu'.1 this, hc.rd this, Option.bind_eq_bind, Option.bind_some, fin_add])
        refine ⟨(row', total ++ both), ?_, w2, ?_, ?_, ?_⟩
        · simp only [hrow u hu'.1, Option.bind_eq_bind, Option.bind_some]
          simp only [Option.bind_eq_bind] at w1
          rw [w1, Option.bind_some]
        · intro t
          simp only [List.mem_append, r2, hmb, List.take_succ_eq_append_getElem hk, ← hu0, List.mem_singleton]
          constructor
          · rintro (⟨a, b, v, hv, e⟩ | ⟨a, b, e⟩)
            · exact ⟨a, b, v, Or.inl hv, e⟩
            · exact ⟨a, b, u, Or.inr rfl, e⟩
          · rintro ⟨a, b, v, hv | rfl, e⟩
            · exact Or.inl ⟨a, b, v, hv, e⟩
            · exact Or.inr ⟨a, b, e⟩
        · intro t ht hnt
          simp only [List.mem_append, not_or] at hnt
          simp only
          rw [w3, if_neg hnt.2]; exact r3 t ht hnt.1
        · intro t ht hw v hv hwv
          rw [List.take_succ_eq_append_getElem hk, List.mem_append, ← hu0, List.mem_singleton] at hv
          simp only
          rw [w3]
          by_cases hb : t ∈ both
          · have hv' : v ∈ others := by
              rcases hv with hv | rfl
              · exact List.mem_of_mem_take hv
              · exact hu
            rw [if_pos hb, huniq t ht hw v hv' u hu hwv ((hmb t).mp hb).2.2]
          · rw [if_neg hb]
            rcases hv with hv | rfl
            · exact r4 t ht hw v hv hwv
            · exact absurd ((hmb t).mpr ⟨ht, hw, hwv⟩) hb)
    simp only [List.take_length] at l3 l5
    have hmq : ∀ t, t ∈ nd.filter (fun t => decide (t ∉ total)) ↔ (t < inp.numTeams ∧ wf d t ≠ 0) ∧ t ∉ total := fun t => by
      simp only [List.mem_filter, decide_eq_true_eq, hmd]
    obtain ⟨row', w1, w2, w3⟩ := writeOver (f := fun t => fin (w t + c t)) (l := nd.filter (fun t => decide (t ∉ total)))
      (E := inp.numTeams) (row0 := row)
      (body := fun t row => do
        let r ← inp.reward.rd t
        let o ← o2t.rd t
        row.wr t (r + o)) l2 (fun t ht => ((hmq t).mp ht).1.1)
      (fun t ht row => by
        have := ((hmq t).mp ht).1.1
        simp only [h.reward.rd this, hc.rd this, Option.bind_eq_bind, Option.bind_some, fin_add])
    refine ⟨row', ?_, w2, fun t ht => ?_⟩
    · simp only [hrow d hd, Option.bind_eq_bind, Option.bind_some, ← hoth, ← hnd]
      simp only [Option.bind_eq_bind] at l1 w1
      rw [l1, Option.bind_some]
      exact w1
    · rw [w3]
      by_cases hw : wf d t = 0
      · rw [if_neg (fun hh => ((hmq t).mp hh).1.2 hw), if_neg (by simpa using hw)]
        exact l4 t ht (fun hh => ((l3 t).mp hh).2.1 hw)
      · rw [if_pos hw]
        by_cases hex : ∃ u ∈ others, wf u t ≠ 0
        · obtain ⟨u, hu, hwu⟩ := hex
          have hu' := (hmo u).mp hu
          rw [if_neg (fun hh => ((hmq t).mp hh).2 ((l3 t).mpr ⟨ht, hw, u, hu, hwu⟩)), l5 t ht hw u hu hwu]
          have : (depts inp.numDepartments wf t).erase d = {u} := by
            ext v
            rw [Finset.mem_erase, mem_depts, Finset.mem_singleton]
            constructor
            · rintro ⟨a, b, e⟩; exact huniq t ht hw v ((hmo v).mpr ⟨b, a⟩) u hu e hwu
            · rintro rfl; exact ⟨hu'.2, hu'.1, hwu⟩
          rw [this, Finset.sum_singleton]; congr 1; ring
        · rw [if_pos ((hmq t).mpr ⟨⟨ht, hw⟩, fun hh => by
            obtain ⟨-, -, u, hu, hwu⟩ := (l3 t).mp hh; exact hex ⟨u, hu, hwu⟩⟩)]
          have : (depts inp.numDepartments wf t).erase d = ∅ := by
            rw [Finset.eq_empty_iff_forall_notMem]
            intro v hv
            rw [Finset.mem_erase, mem_depts] at hv
            exact hex ⟨v, (hmo v).mpr ⟨hv.2.1, hv.1⟩, hv.2.2⟩
          rw [this, Finset.sum_empty, add_zero]
  obtain ⟨a, a1, a2, a3, a4⟩ := Mat.genM_eq (m := inp.numDepartments) (n := inp.numTeams) key
  exact ⟨a, a1, a2, a3, a4⟩

/-- All departments of an iteration. -/
theorem pyKcDepts_spec (h : KcOk inp wf cap w R) {A : Mat Num} {x : ℕ → ℕ → ℚ} (hA : A.Is inp.numDepartments inp.numTeams x)
    {dummy : Mat Num} (h1 : dummy.rows = inp.numDepartments) (h2 : dummy.cols = inp.numTeams) :
    ∃ r, pyKcDepts inp A dummy = some r ∧ r.rows = inp.numDepartments ∧ r.cols = inp.numTeams ∧
      ∀ d < inp.numDepartments, ∀ t < inp.numTeams, ∃ q, r.data d t = fin q ∧
        (wf d t ≠ 0 → IsMessage (users (wf d) 0 inp.numTeams) (Fits (wf d) (cap d)) (x d) t (fin q)) ∧ (wf d t = 0 → q = 0) := by
  obtain ⟨r, r1, r2, r3, r4⟩ := loopUp_inv (n := inp.numDepartments) (body := fun d (dummy : Mat Num) => do
      let cap ← inp.maxState.rd d
      let w ← inp.weights.rdRow d
      let m ← A.rdRow d
      let row ← pyKnapMessages m.size cap w m
      dummy.wrRow d row) (s := dummy)
    (fun k r => r.rows = inp.numDepartments ∧ r.cols = inp.numTeams ∧ ∀ d < k, ∀ t < inp.numTeams, ∃ q, r.data d t = fin q ∧
        (wf d t ≠ 0 → IsMessage (users (wf d) 0 inp.numTeams) (Fits (wf d) (cap d)) (x d) t (fin q)) ∧ (wf d t = 0 → q = 0))
    ⟨h1, h2, fun d hd => by omega⟩
    (by
      rintro d hd r ⟨r1, r2, r3⟩
      have hrow : (⟨A.cols, A.data d⟩ : Arr Num).Is inp.numTeams (x d) := ⟨hA.2.1, fun t ht => hA.2.2 d hd t ht⟩
      obtain ⟨row, m1, m2, m3⟩ := pyKnapMessages_spec (h.dept d hd) hrow
      have e1 : inp.maxState.rd d = some (cap d) := by
        rw [Arr.rd_of_lt (by rw [h.cap_size]; exact hd), h.cap_data d hd]
      refine ⟨⟨r.rows, r.cols, fun k l => if k = d then row.data l else r.data k l⟩, ?_, r1, r2, fun k hk t ht => ?_⟩
      · have e2 : A.cols = inp.numTeams := hA.2.1
        simp only [e1, Mat.rdRow_of_lt (show d < inp.weights.rows by rw [h.weights_rows]; exact hd),
          Mat.rdRow_of_lt (show d < A.rows by rw [hA.1]; exact hd), Option.bind_eq_bind, Option.bind_some]
        rw [e2] at m1 ⊢
        rw [m1, Option.bind_some, Mat.wrRow_of_lt (show d < r.rows by omega) (show row.size = r.cols by omega)]
      · by_cases e : k = d
        · subst e
          simp only [if_true]
          have hfin : ∃ q, row.data t = fin q := by
            by_cases hw : wf k t = 0
            · exact ⟨0, by rw [(m3 t ht).2 hw]; rfl⟩
            · exact knap_message_fin ht hw ((h.dept k hd).fits t ((KcOk.mem h hd).mpr ⟨ht, hw⟩)) ((m3 t ht).1 hw)
          obtain ⟨q, hq⟩ := hfin
          refine ⟨q, hq, fun hw => by rw [← hq]; exact (m3 t ht).1 hw, fun hw => ?_⟩
          have := (m3 t ht).2 hw
          rw [hq] at this; exact Num.fin.inj this
        · simp only [e, if_false]; exact r3 k (by omega) t ht)
  exact ⟨r, r1, r2, r3, r4⟩

end

end Verif.Proofs
