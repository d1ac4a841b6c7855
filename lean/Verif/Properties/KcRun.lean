import Verif.Proofs.KcRun
import Mathlib.Tactic.IntervalCases
import Mathlib.Tactic.NormNum

/-! # C11: whole runs of the assignment solver -/

namespace Verif.Properties
open Verif Num Spec Model

/-- The outputs of the solver after `K` iterations are those of the given messages: the extrinsic output of a team is the
message of its coupling constraint plus the (damped) messages of its departments, the intrinsic output of a pair is the
sum of its three messages; without iterations everything is zero. -/
def KcOutputs (inp : KcInputs) (A : Mat Num) (wf : ℕ → ℕ → ℕ) (R : ℕ → ℕ → ℚ) (raw o y : ℕ → ℕ → ℕ → ℚ) (c : ℕ → ℕ → ℚ) : ℕ → Prop
  | 0 => ∃ ext intr, kcSolve inp A 0 = some (ext, intr) ∧ ext.Is inp.numTeams (fun _ => 0) ∧
      intr.Is (inp.numProjects * inp.numTeams) (fun _ => 0)
  | K + 1 => ∃ ext intr, kcSolve inp A (K + 1) = some (ext, intr) ∧
      ext.Is inp.numTeams (fun t => c K t + ∑ d ∈ depts inp.numDepartments wf t, damped inp.flag inp.alpha (fun i => raw i d t) K) ∧
      intr.size = inp.numProjects * inp.numTeams ∧
      ∀ p < inp.numProjects, ∀ t < inp.numTeams, intr.data (p * inp.numTeams + t) = fin (o K p t + y K p t + R p t)

/-- C11 as claimed: on every well-formed instance the solver computes exactly the textbook algorithm. -/
def C11_claim : Prop :=
  ∀ (inp : KcInputs) (wf : ℕ → ℕ → ℕ) (cap : ℕ → ℕ) (w : ℕ → ℚ) (R : ℕ → ℕ → ℚ) (A : Mat Num) (a0 : ℕ → ℕ → ℚ),
    KcOk inp wf cap w R → A.Is inp.numDepartments inp.numTeams a0 →
    ∃ a raw o y e c, IsKcTrace inp.numDepartments inp.numTeams inp.numProjects wf cap w R inp.flag inp.alpha none a0 a raw o y e c ∧
      ∀ K, KcOutputs inp A wf R raw o y c K

section
variable {inp : KcInputs} {wf : ℕ → ℕ → ℕ} {cap : ℕ → ℕ} {w : ℕ → ℚ} {R : ℕ → ℕ → ℚ}

/-- C11, what the code computes on every well-formed instance: it always returns, everything is finite, and the outputs are
those of the min-sum algorithm in which messages to teams are bounded above by 1000000 (the literal in the code). -/
theorem C11_run (h : KcOk inp wf cap w R) {A : Mat Num} {a0 : ℕ → ℕ → ℚ} (hA : A.Is inp.numDepartments inp.numTeams a0) :
    (∃ a raw o y e c, IsKcTrace inp.numDepartments inp.numTeams inp.numProjects wf cap w R inp.flag inp.alpha (some 1000000) a0
      a raw o y e c) ∧
    ∀ a raw o y e c, IsKcTrace inp.numDepartments inp.numTeams inp.numProjects wf cap w R inp.flag inp.alpha (some 1000000) a0
      a raw o y e c → ∀ K, KcOutputs inp A wf R raw o y c K := by
  obtain ⟨a, raw, o, y, e, c, ht, hz, hr⟩ := Proofs.kc_run h hA
  refine ⟨⟨a, raw, o, y, e, c, ht⟩, fun a' raw' o' y' e' c' ht' K => ?_⟩
  have hu := Proofs.kcTrace_unique ht ht'
  cases K with
  | zero => exact hz
  | succ K =>
    obtain ⟨ext, intr, h1, h2, h3, h4⟩ := hr K
    refine ⟨ext, intr, h1, h2.congr fun t ht => ?_, h3, fun p hp t ht => ?_⟩
    · rw [(hu K).2.2 t ht]
      congr 1
      refine Finset.sum_congr rfl fun d hd => Proofs.damped_congr fun i _ => ?_
      have := Proofs.mem_depts.mp hd
      exact ((hu i).1 d this.1 t ht this.2).2
    · rw [h4 p hp t ht, ((hu K).2.1 p hp t ht).2.1, ((hu K).2.1 p hp t ht).2.2]

/-- C11, guarded: the outputs are those of the textbook algorithm whenever none of its messages to teams exceeds 1000000.
Missing for the full claim: instances where such a message is larger, for which it is false (`C11_claim_false`). -/
theorem C11_textbook_run_partial (h : KcOk inp wf cap w R) {A : Mat Num} {a0 : ℕ → ℕ → ℚ}
    (hA : A.Is inp.numDepartments inp.numTeams a0) {a raw o y e : ℕ → ℕ → ℕ → ℚ} {c : ℕ → ℕ → ℚ}
    (ht : IsKcTrace inp.numDepartments inp.numTeams inp.numProjects wf cap w R inp.flag inp.alpha none a0 a raw o y e c)
    (hc : ∀ j, ∀ t < inp.numTeams, c j t ≤ 1000000) (K : ℕ) : KcOutputs inp A wf R raw o y c K := by
  refine (C11_run h hA).2 a raw o y e c { ht with team := fun j t htt => ?_ } K
  obtain ⟨v, hv, hcv⟩ := ht.team j t htt
  refine ⟨v, hv, ?_⟩
  have : c j t = v := hcv
  show c j t = min 1000000 v
  rw [min_eq_right (by rw [← this]; exact hc j t htt), this]

/-- C11, the guard can be checked on the values the code computes: if they stay below 1000000, they are the textbook
values. -/
theorem C11_below_limit_is_textbook {D T P : ℕ} {flag : Bool} {alpha l : ℚ} {a0 : ℕ → ℕ → ℚ} {a raw o y e : ℕ → ℕ → ℕ → ℚ}
    {c : ℕ → ℕ → ℚ} (ht : IsKcTrace D T P wf cap w R flag alpha (some l) a0 a raw o y e c) (hc : ∀ j, ∀ t < T, c j t < l) :
    IsKcTrace D T P wf cap w R flag alpha none a0 a raw o y e c := by
  refine { ht with team := fun j t htt => ?_ }
  obtain ⟨v, hv, hcv⟩ := ht.team j t htt
  refine ⟨v, hv, ?_⟩
  have h1 : c j t = min l v := hcv
  have h2 := hc j t htt
  show c j t = v
  rcases min_choice l v with e | e <;> rw [e] at h1
  · rw [h1] at h2; exact absurd h2 (lt_irrefl _)
  · exact h1

end

/-- One department, one team, one project; matching costs 2000000. -/
def c11Large : KcInputs where
  numDepartments := 1
  numTeams := 1
  numProjects := 1
  flag := false
  alpha := 0
  reward := Arr.fill 1 0
  maxState := Arr.fill 1 1
  nzs := [[0]]
  sizes := Arr.fill 1 1
  weights := Mat.fill 1 1 1
  rewardProject := Mat.fill 1 1 (fin 2000000)

theorem c11Large_ok : KcOk c11Large (fun _ _ => 1) (fun _ => 1) (fun _ => 0) (fun _ _ => 2000000) where
  projects := by decide
  cap_size := rfl
  cap_data := fun _ _ => rfl
  nzs_length := rfl
  sizes_size := rfl
  weights_rows := rfl
  dept := fun d hd => by
    have hd : d < 1 := hd
    interval_cases d
    refine ⟨by simp [c11Large], fun t => ?_, by simp [c11Large], rfl, rfl, fun _ _ => rfl, fun _ _ => le_rfl⟩
    show t ∈ [0] ↔ t < 1 ∧ _
    simp
  two := fun t ht => by
    show (depts 1 (fun _ _ => 1) t).card ≤ 2
    simp [depts]
  reward := ⟨rfl, fun _ _ => rfl⟩
  rewardProject := ⟨rfl, rfl, fun _ _ _ _ => rfl⟩

/-- C11 is false as claimed: the extrinsic output of the team is 1000000 instead of 2000000. -/
theorem C11_claim_false : ¬ C11_claim := by
  intro h
  obtain ⟨a, raw, o, y, e, c, ht, hr⟩ := h c11Large _ _ _ _ (Mat.fill 1 1 0) (fun _ _ => 0) c11Large_ok
    ⟨rfl, rfl, fun _ _ _ _ => rfl⟩
  obtain ⟨ext, intr, h1, h2, -⟩ := hr 1
  have h3 : (kcSolve c11Large (Mat.fill 1 1 0) 1).map (fun r => r.1.data 0) = some (fin 1000000) := by decide +kernel
  rw [h1] at h3
  simp only [Option.map_some, Option.some.injEq] at h3
  have h4 := h2.2 0 (by decide)
  rw [h3] at h4
  have h4 := Num.fin.inj h4
  have hd : depts c11Large.numDepartments (fun _ _ => 1) 0 = {0} := by decide
  simp only [hd, Finset.sum_singleton] at h4
  have hdamp : damped c11Large.flag c11Large.alpha (fun i => raw i 0 0) 0 = raw 0 0 0 := by simp [damped, c11Large]
  rw [hdamp] at h4
  -- the department message is zero
  have hraw : raw 0 0 0 = 0 := by
    have hm := ht.dept 0 0 (by decide) 0 (by decide) (by decide)
    have hk := (c11Large_ok.dept 0 (by decide))
    have ha : a 0 0 0 = 0 := ht.init 0 (by decide) 0 (by decide)
    obtain ⟨r, r1, r2, r3⟩ := Proofs.knapMessages_spec hk (m := Arr.fill 1 0) (mf := fun _ => 0) (out := Arr.fill 1 0)
      ⟨rfl, fun _ _ => rfl⟩ rfl
    have h5 := ((r3 0 (by decide)).1 (by decide))
    have h6 := hm.unique (h5.congr_in (fun u hu => by
      have := (Proofs.mem_users0.mp hu).1
      have hu0 : u = 0 := by have : u < 1 := this; omega
      subst hu0; exact ha.symm) (Proofs.mem_users0.mpr ⟨by decide, by decide⟩))
    have h7 : (knapMessages 1 1 [0] 1 (Arr.fill 1 1) (Arr.fill 1 0) (Arr.fill 1 0)).map (fun r => r.data 0) = some (fin 0) := by
      decide +kernel
    have h8 : knapMessages 1 1 [0] 1 (Arr.fill 1 1) (Arr.fill 1 0) (Arr.fill 1 0) = some r := r1
    rw [h8] at h7
    simp only [Option.map_some, Option.some.injEq] at h7
    rw [h7] at h6
    exact Num.fin.inj h6
  -- the project message is zero
  have hy : y 0 0 0 = 0 := by
    have hm := ht.project 0 0 (by decide) 0 (by decide)
    have h5 := Proofs.atMostOne_message (vars := Finset.range 1) (x := fun t => o 0 0 t + 2000000) (t := 0) (q := 0) (by simp)
      ⟨Or.inl rfl, by
        rintro q (rfl | ⟨s, hs, hne, -⟩)
        · exact le_rfl
        · simp at hs; exact absurd hs hne⟩
    have := Num.fin.inj (hm.unique h5)
    simpa using this
  have he : e 1 0 0 = 2000000 := by
    rw [ht.edge 0 0 (by decide) 0 (by decide), hy]; norm_num
  obtain ⟨v, hv, hcv⟩ := ht.team 0 0 (by decide)
  have hcv : c 0 0 = v := hcv
  have h5 := Num.fin.inj (hv.unique (Proofs.coupling_team_message (q := 2000000) ⟨⟨0, by decide, he⟩, by
    rintro q ⟨p, hp, rfl⟩
    have : p = 0 := by have : p < 1 := hp; omega
    subst this; exact le_of_eq he.symm⟩))
  rw [hcv, hraw, h5] at h4
  norm_num at h4

/-- Two departments, three teams (the middle one in both departments), two projects. -/
def c11Inputs : KcInputs where
  numDepartments := 2
  numTeams := 3
  numProjects := 2
  flag := true
  alpha := 1 / 2
  reward := Arr.ofList [fin (-5), fin (-7), fin (-4)]
  maxState := Arr.ofList [3, 2]
  nzs := [[0, 1], [1, 2]]
  sizes := Arr.fill 2 2
  weights := ⟨2, 3, fun d t => if d = 0 then [2, 2, 0].getD t 0 else [0, 1, 2].getD t 0⟩
  rewardProject := ⟨2, 3, fun p t => fin (p + t)⟩

theorem c11Inputs_ok : KcOk c11Inputs (fun d t => if d = 0 then [2, 2, 0].getD t 0 else [0, 1, 2].getD t 0)
    (fun d => if d = 0 then 3 else 2) (fun t => [-5, -7, -4].getD t 0) (fun p t => p + t) where
  projects := by decide
  cap_size := rfl
  cap_data := by decide
  nzs_length := rfl
  sizes_size := rfl
  weights_rows := rfl
  dept := fun d hd => by
    have hd : d < 2 := hd
    interval_cases d
    · refine ⟨by decide, fun t => ?_, by decide, rfl, rfl, fun _ _ => rfl, by decide⟩
      show t ∈ [0, 1] ↔ t < 3 ∧ [2, 2, 0].getD t 0 ≠ 0
      constructor
      · intro h; simp at h; rcases h with rfl | rfl <;> simp
      · rintro ⟨h1, h2⟩; interval_cases t <;> simp at h2 ⊢
    · refine ⟨by decide, fun t => ?_, by decide, rfl, rfl, fun _ _ => rfl, by decide⟩
      show t ∈ [1, 2] ↔ t < 3 ∧ [0, 1, 2].getD t 0 ≠ 0
      constructor
      · intro h; simp at h; rcases h with rfl | rfl <;> simp
      · rintro ⟨h1, h2⟩; interval_cases t <;> simp at h2 ⊢
  two := fun t ht => by
    refine (Finset.card_filter_le _ _).trans ?_
    simp [c11Inputs]
  reward := ⟨rfl, by decide +kernel⟩
  rewardProject := ⟨rfl, rfl, fun _ _ _ _ => rfl⟩

/-- Two iterations on the example. -/
example : (kcSolve c11Inputs (Mat.fill 2 3 0) 2).map (fun r => ((List.range 3).map r.1.data, (List.range 6).map r.2.data)) =
    some ([fin 4, fin (11 / 2), fin 6], [0, 0, fin 2, fin 1, fin 1, fin 2]) := by decide +kernel

end Verif.Properties
