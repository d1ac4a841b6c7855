import Verif.Proofs.TestScripts

namespace Verif.Proofs
open Verif Model Spec

/-- The conditions for tests that compare given pairs of files. -/
def PairTables (exported : List String) (saves : List PySave) (nat : NativeIo) (l : List (String × String)) : Prop :=
  (∀ v ∈ nat.env, v ∈ exported) ∧ (∀ n ∈ nat.reads, n ∈ inNames saves) ∧ (∀ p ∈ outNames saves, p ∉ nat.writes) ∧
    (∀ q ∈ l, q.1 ∈ outNames saves ∧ q.2 ∈ nat.writes) ∧ ∀ p ∈ outNames saves, ∃ q ∈ l, q.1 = p ∧ q.2.toList = replacePure p.toList

instance (exported : List String) (saves : List PySave) (nat : NativeIo) (l : List (String × String)) : Decidable (PairTables exported saves nat l) := by
  unfold PairTables
  infer_instance

theorem facts_pairs {exported : List String} {saves : List PySave} {nat : NativeIo} {l : List (String × String)} (h : PairTables exported saves nat l) :
    Facts exported saves nat (.pairs l) where
  env := h.1
  reads := h.2.1
  disjoint := h.2.2.1
  known := by
    intro α r _ gs hgs g hg q hq
    simp only [Compared.groups, Option.some.injEq] at hgs
    subst hgs
    rw [List.mem_map] at hg
    obtain ⟨p, hp, rfl⟩ := hg
    simp only [List.mem_singleton] at hq
    subst hq
    exact h.2.2.2.1 _ hp
  complete := by
    intro α r _ _ _
    refine ⟨_, rfl, ?_, ?_⟩
    · intro g hg
      rw [List.mem_map] at hg
      obtain ⟨p, _, rfl⟩ := hg
      simp
    · intro p hp
      obtain ⟨q, hq, h1, h2⟩ := h.2.2.2.2 p hp
      exact ⟨[q], List.mem_map.mpr ⟨q, hq, rfl⟩, q, by simp, h1, h2⟩

theorem facts_tsp {ut : String} (h : ut ∈ tspScript.tests) :
    Facts tspScript.exported (tspScript.saves ut) (tspScript.native ut) (tspScript.compared ut) := by
  simp only [tspScript, List.mem_cons, List.not_mem_nil, or_false] at h
  rcases h with rfl | rfl | rfl | rfl | rfl | rfl | rfl | rfl | rfl <;> exact facts_pairs (by decide +kernel)

theorem facts_ksat {ut : String} (h : ut ∈ ksatScript.tests) :
    Facts ksatScript.exported (ksatScript.saves ut) (ksatScript.native ut) (ksatScript.compared ut) := by
  simp only [ksatScript, List.mem_cons, List.not_mem_nil, or_false] at h
  rcases h with rfl | rfl | rfl | rfl <;> exact facts_pairs (by decide +kernel)

theorem toString_toList (d : ℕ) : (toString d).toList = Nat.toDigits 10 d := by
  rw [Nat.toString_eq_repr, Nat.repr_eq_ofList_toDigits, String.toList_ofList]

theorem firstNumber_number {pre : String} (hpre : ∀ c ∈ pre.toList, c.isDigit = false) (d : ℕ) : firstNumber (pre ++ toString d) = some (toString d) := by
  unfold firstNumber
  have h1 : (pre ++ toString d).toList.dropWhile (fun c => !c.isDigit) = Nat.toDigits 10 d := by
    rw [String.toList_append, toString_toList, List.dropWhile_append_of_pos (by simpa using hpre)]
    cases h : Nat.toDigits 10 d with
    | nil => rfl
    | cons c s =>
      have : c.isDigit = true := digit_of_mem (n := d) (by rw [h]; simp)
      rw [List.dropWhile_cons_of_neg (by simp [this])]
  have h2 : (Nat.toDigits 10 d).takeWhile Char.isDigit = Nat.toDigits 10 d := takeWhile_all (fun c hc => digit_of_mem hc)
  have h3 : Nat.toDigits 10 d ≠ [] := by
    intro h
    have := Nat.length_toDigits_pos (b := 10) (n := d)
    rw [h] at this
    simp at this
  simp only [h1, h2, if_neg h3, Nat.ofDigitChars_toDigits (b := 10) (by omega) (by omega)]

theorem mapM_firstNumber {pre : String} (hpre : ∀ c ∈ pre.toList, c.isDigit = false) {D : ℕ} {l : List String}
    (h : ∀ n ∈ l, ∃ d < D, n = pre ++ toString d) :
    ∃ m, l.mapM firstNumber = some m ∧ (∀ x ∈ m, ∃ d < D, x = toString d) ∧ ∀ d : ℕ, pre ++ toString d ∈ l → toString d ∈ m := by
  induction l with
  | nil => exact ⟨[], rfl, by simp, by simp⟩
  | cons n l ih =>
    obtain ⟨m, h1, h2, h3⟩ := ih (fun n' hn' => h n' (by simp [hn']))
    obtain ⟨d, hd, rfl⟩ := h n (by simp)
    refine ⟨toString d :: m, ?_, ?_, ?_⟩
    · rw [List.mapM_cons, firstNumber_number hpre, h1]; rfl
    · intro x hx
      simp only [List.mem_cons] at hx
      rcases hx with rfl | hx
      · exact ⟨d, hd, rfl⟩
      · exact h2 x hx
    · intro e he
      simp only [List.mem_cons] at he ⊢
      rcases he with he | he
      · left
        have := congrArg String.toList he
        rw [String.toList_append, String.toList_append, List.append_cancel_left_eq] at this
        exact String.toList_inj.mp this
      · exact .inr (h3 e he)

/-- The tests that compare numbered files. -/
theorem facts_listed {exported : List String} {saves : List PySave} {nat : NativeIo} {pure wrapper : String} {D : ℕ} (henv : ∀ v ∈ nat.env, v ∈ exported)
    (hreads : ∀ n ∈ nat.reads, n ∈ inNames saves) (ho : outNames saves = (List.range D).map (fun d => pure ++ toString d))
    (hw : nat.writes = (List.range D).map (fun d => wrapper ++ toString d)) (hpre : ∀ c ∈ pure.toList, c.isDigit = false)
    (hne : ∀ x : List Char, pure.toList.isPrefixOf (wrapper.toList ++ x) = false)
    (hrep : ∀ x : List Char, wrapper.toList ++ x = replacePure (pure.toList ++ x)) : Facts exported saves nat (.listed pure wrapper) := by
  have hpp : ∀ d : ℕ, pure.toList.isPrefixOf (pure ++ toString d).toList = true := by
    intro d
    rw [String.toList_append, List.isPrefixOf_iff_prefix]
    exact List.prefix_append _ _
  have hlist : ∀ {α : Type} (r : Folder α), (∀ n ∈ r.map Prod.fst, n ∈ outNames saves ∨ n ∈ nat.writes) →
      ∃ m, ((r.map Prod.fst).filter (fun n => pure.toList.isPrefixOf n.toList)).mapM firstNumber = some m ∧ (∀ x ∈ m, ∃ d < D, x = toString d) ∧
        ∀ d : ℕ, pure ++ toString d ∈ (r.map Prod.fst).filter (fun n => pure.toList.isPrefixOf n.toList) → toString d ∈ m := by
    intro α r hr
    apply mapM_firstNumber hpre
    intro n hn
    rw [List.mem_filter] at hn
    rcases hr n hn.1 with h | h
    · rw [ho, List.mem_map] at h
      obtain ⟨d, hd, rfl⟩ := h
      exact ⟨d, List.mem_range.mp hd, rfl⟩
    · rw [hw, List.mem_map] at h
      obtain ⟨d, _, rfl⟩ := h
      have := hn.2
      rw [String.toList_append, hne] at this
      simp at this
  refine ⟨henv, hreads, ?_, ?_, ?_⟩
  · intro p hp hq
    rw [ho, List.mem_map] at hp
    rw [hw, List.mem_map] at hq
    obtain ⟨d, _, rfl⟩ := hp
    obtain ⟨e, _, he⟩ := hq
    have := hpp d
    rw [← he, String.toList_append, hne] at this
    simp at this
  · intro α r hr gs hgs g hg q hq
    obtain ⟨m, h1, h2, _⟩ := hlist r hr
    simp only [Compared.groups, h1, Option.bind_eq_bind, Option.bind_some, Option.some.injEq] at hgs
    subst hgs
    simp only [List.mem_singleton] at hg
    subst hg
    rw [List.mem_map] at hq
    obtain ⟨x, hx, rfl⟩ := hq
    obtain ⟨d, hd, rfl⟩ := h2 x hx
    rw [ho, hw]
    exact ⟨List.mem_map.mpr ⟨d, List.mem_range.mpr hd, rfl⟩, List.mem_map.mpr ⟨d, List.mem_range.mpr hd, rfl⟩⟩
  · intro α r hr hall hne'
    obtain ⟨m, h1, h2, h3⟩ := hlist r hr
    have hmem : ∀ d < D, toString d ∈ m := by
      intro d hd
      apply h3
      rw [List.mem_filter]
      refine ⟨hall _ ?_, hpp d⟩
      rw [ho]
      exact List.mem_map.mpr ⟨d, List.mem_range.mpr hd, rfl⟩
    have hD : 0 < D := by
      rcases Nat.eq_zero_or_pos D with h | h
      · subst h; simp [ho] at hne'
      · exact h
    refine ⟨[m.map (fun d => (pure ++ d, wrapper ++ d))], ?_, ?_, ?_⟩
    · simp only [Compared.groups, h1, Option.bind_eq_bind, Option.bind_some]
    · intro g hg
      simp only [List.mem_singleton] at hg
      subst hg
      simpa using List.ne_nil_of_mem (hmem 0 hD)
    · intro p hp
      rw [ho, List.mem_map] at hp
      obtain ⟨d, hd, rfl⟩ := hp
      refine ⟨m.map (fun d => (pure ++ d, wrapper ++ d)), by simp, (pure ++ toString d, wrapper ++ toString d),
        List.mem_map.mpr ⟨toString d, hmem d (List.mem_range.mp hd), rfl⟩, rfl, ?_⟩
      simp only [String.toList_append]
      exact hrep _

theorem inNames_append (a b : List PySave) : inNames (a ++ b) = inNames a ++ inNames b := by
  unfold inNames
  rw [List.filterMap_append]

theorem outNames_append (a b : List PySave) : outNames (a ++ b) = outNames a ++ outNames b := by
  unfold outNames
  rw [List.filterMap_append]

theorem outNames_results (l : List ℕ) (pre : String) : outNames (l.flatMap (fun d => [PySave.result (pre ++ toString d)])) = l.map (fun d => pre ++ toString d) := by
  induction l with
  | nil => rfl
  | cons d l ih => rw [List.flatMap_cons, outNames_append, ih]; rfl

theorem outNames_inputs (l : List ℕ) (a b : ℕ → String) : outNames (l.flatMap (fun d => [PySave.input (a d), .input (b d)])) = [] := by
  induction l with
  | nil => rfl
  | cons d l ih => rw [List.flatMap_cons, outNames_append, ih]; rfl

theorem inNames_inputs (l : List ℕ) (a b : ℕ → String) : inNames (l.flatMap (fun d => [PySave.input (a d), .input (b d)])) =
    l.flatMap (fun d => [npSaveName (a d), npSaveName (b d)]) := by
  induction l with
  | nil => rfl
  | cons d l ih => rw [List.flatMap_cons, inNames_append, ih]; rfl

theorem flatMap_one (l : List ℕ) (f : ℕ → String) : l.flatMap (fun d => [f d]) = l.map f := by
  induction l with
  | nil => rfl
  | cons d l ih => rw [List.flatMap_cons, ih]; rfl

theorem npSaveName_npy (n : String) : npSaveName (n ++ ".npy") = n ++ ".npy" := by
  unfold npSaveName
  rw [if_pos]
  rw [List.isSuffixOf_iff_suffix, String.toList_append]
  exact List.suffix_append _ _

theorem facts_forward (D : ℕ) : Facts (kcScript D).exported (pyUtForwardBackward "KnapsackForward" D) (natUtForwardBackward "KnapsackForward" D)
    (.listed "forward_pure" "forward_wrapper") := by
  have hs : pyUtForwardBackward "KnapsackForward" D = [PySave.input "alpha.npy", .input "N_TEAMS_pure.npy", .input "non_zero_weight_indices_sizes_pure.npy",
      .input "teams_weights_per_department_pure", .input "non_zero_weight_indices_arr_pure.npy", .input "team_to_knapsack_m_pure.npy"] ++
      (List.range D).flatMap (fun d => [PySave.result ("forward_pure" ++ toString d)]) := by
    simp [pyUtForwardBackward]
  apply facts_listed (D := D)
  · show ∀ v ∈ ["FILT_FLAG", "Nu"], v ∈ ["test_name", "N_DEPARTMENTS", "N_TEAMS", "N_PROJECTS", "FILT_FLAG", "Nu", "N_ITER"]
    decide +kernel
  · rw [hs, inNames_append]
    intro n hn
    apply List.mem_append_left
    revert n
    show ∀ n ∈ ["alpha.npy", "N_TEAMS_pure.npy", "non_zero_weight_indices_sizes_pure.npy", "teams_weights_per_department_pure.npy",
      "non_zero_weight_indices_arr_pure.npy", "team_to_knapsack_m_pure.npy"], _
    decide +kernel
  · rw [hs, outNames_append, outNames_results]
    rfl
  · simp [natUtForwardBackward, flatMap_one]
  · decide +kernel
  · intro x; rfl
  · intro x; rfl

theorem facts_backward (D : ℕ) : Facts (kcScript D).exported (pyUtForwardBackward "KnapsackBackward" D) (natUtForwardBackward "KnapsackBackward" D)
    (.listed "backward_pure" "backward_wrapper") := by
  have hs : pyUtForwardBackward "KnapsackBackward" D = [PySave.input "alpha.npy", .input "N_TEAMS_pure.npy", .input "non_zero_weight_indices_sizes_pure.npy",
      .input "teams_weights_per_department_pure", .input "non_zero_weight_indices_arr_pure.npy", .input "team_to_knapsack_m_pure.npy"] ++
      (List.range D).flatMap (fun d => [PySave.result ("backward_pure" ++ toString d)]) := by
    simp [pyUtForwardBackward]
  apply facts_listed (D := D)
  · show ∀ v ∈ ["FILT_FLAG", "Nu"], v ∈ ["test_name", "N_DEPARTMENTS", "N_TEAMS", "N_PROJECTS", "FILT_FLAG", "Nu", "N_ITER"]
    decide +kernel
  · rw [hs, inNames_append]
    intro n hn
    apply List.mem_append_left
    revert n
    show ∀ n ∈ ["alpha.npy", "N_TEAMS_pure.npy", "non_zero_weight_indices_sizes_pure.npy", "teams_weights_per_department_pure.npy",
      "non_zero_weight_indices_arr_pure.npy", "team_to_knapsack_m_pure.npy"], _
    decide +kernel
  · rw [hs, outNames_append, outNames_results]
    rfl
  · simp [natUtForwardBackward, flatMap_one]
  · decide +kernel
  · intro x; rfl
  · intro x; rfl

theorem facts_output (D : ℕ) : Facts (kcScript D).exported (pyUtOutput D) (natUtOutput D)
    (.pairs [("extrinsic_output_department_pure", "extrinsic_output_department_wrapper")]) := by
  apply facts_pairs
  have ho : outNames (pyUtOutput D) = ["extrinsic_output_department_pure"] := by
    unfold pyUtOutput
    rw [outNames_append, outNames_append, outNames_inputs]
    rfl
  have hi : inNames (pyUtOutput D) = inNames [PySave.input "alpha.npy", .input "N_TEAMS_pure.npy", .input "teams_weights_per_department_pure",
      .input "team_to_knapsack_m_pure.npy"] ++ (List.range D).flatMap (fun d => ["stage_forward_messages" ++ toString d ++ ".npy",
        "stage_backward_messages" ++ toString d ++ ".npy"]) := by
    unfold pyUtOutput
    rw [inNames_append, inNames_append, inNames_inputs]
    simp only [npSaveName_npy]
    rw [show inNames [PySave.result "extrinsic_output_department_pure"] = [] from rfl, List.append_nil]
  refine ⟨?_, ?_, ?_, ?_, ?_⟩
  · show ∀ v ∈ ["FILT_FLAG", "Nu"], v ∈ ["test_name", "N_DEPARTMENTS", "N_TEAMS", "N_PROJECTS", "FILT_FLAG", "Nu", "N_ITER"]
    decide +kernel
  · rw [hi]
    intro n hn
    unfold natUtOutput at hn
    simp only at hn
    rw [List.mem_append] at hn ⊢
    rcases hn with hn | hn
    · left
      revert n
      decide +kernel
    · exact .inr hn
  · rw [ho]
    show ∀ p ∈ ["extrinsic_output_department_pure"], p ∉ ["extrinsic_output_department_wrapper"]
    decide +kernel
  · rw [ho]
    show ∀ q ∈ [("extrinsic_output_department_pure", "extrinsic_output_department_wrapper")], q.1 ∈ ["extrinsic_output_department_pure"] ∧
      q.2 ∈ ["extrinsic_output_department_wrapper"]
    decide +kernel
  · rw [ho]
    decide +kernel

theorem facts_kc (D : ℕ) {ut : String} (h : ut ∈ (kcScript D).tests) :
    Facts (kcScript D).exported ((kcScript D).saves ut) ((kcScript D).native ut) ((kcScript D).compared ut) := by
  have he : (kcScript D).exported = ["test_name", "N_DEPARTMENTS", "N_TEAMS", "N_PROJECTS", "FILT_FLAG", "Nu", "N_ITER"] := rfl
  have hc : (kcScript D).compared = kcCompared := rfl
  have hs : (kcScript D).saves ut = pyKcSaves ut D := rfl
  have hn : (kcScript D).native ut = natKc ut D := rfl
  simp only [kcScript, List.mem_cons, List.not_mem_nil, or_false] at h
  rw [hs, hn, hc]
  rcases h with rfl | rfl | rfl | rfl | rfl | rfl | rfl | rfl | rfl | rfl | rfl | rfl | rfl | rfl
  · rw [he, show pyKcSaves "Oric2TeamUpdate" D = pyUtOric "Oric2TeamUpdate" from by simp [pyKcSaves],
      show natKc "Oric2TeamUpdate" D = natUtOric "Oric2TeamUpdate" from by simp [natKc]]
    exact facts_pairs (by decide +kernel)
  · rw [he, show pyKcSaves "Oric2ProjectEcUpdate" D = pyUtOric "Oric2ProjectEcUpdate" from by simp [pyKcSaves],
      show natKc "Oric2ProjectEcUpdate" D = natUtOric "Oric2ProjectEcUpdate" from by simp [natKc]]
    exact facts_pairs (by decide +kernel)
  · rw [he, show pyKcSaves "ExtrinsicOutputTeamUpdate" D = pyUtIoKc "ExtrinsicOutputTeamUpdate" from by simp [pyKcSaves],
      show natKc "ExtrinsicOutputTeamUpdate" D = natUtIoKc "ExtrinsicOutputTeamUpdate" from by simp [natKc]]
    exact facts_pairs (by decide +kernel)
  · rw [he, show pyKcSaves "IntrinsicOutMwmUpdate" D = pyUtIoKc "IntrinsicOutMwmUpdate" from by simp [pyKcSaves],
      show natKc "IntrinsicOutMwmUpdate" D = natUtIoKc "IntrinsicOutMwmUpdate" from by simp [natKc]]
    exact facts_pairs (by decide +kernel)
  · rw [he, show pyKcSaves "TeamEc2OricUpdate" D = pyUtEqKc "TeamEc2OricUpdate" from by simp [pyKcSaves],
      show natKc "TeamEc2OricUpdate" D = natUtEqKc "TeamEc2OricUpdate" from by simp [natKc]]
    exact facts_pairs (by decide +kernel)
  · rw [he, show pyKcSaves "ProjectEqConst2OricUpdate" D = pyUtEqKc "ProjectEqConst2OricUpdate" from by simp [pyKcSaves],
      show natKc "ProjectEqConst2OricUpdate" D = natUtEqKc "ProjectEqConst2OricUpdate" from by simp [natKc]]
    exact facts_pairs (by decide +kernel)
  · rw [he, show pyKcSaves "ProjectInequalityConstraintUpdate" D = pyUtProject "ProjectInequalityConstraintUpdate" from by simp [pyKcSaves],
      show natKc "ProjectInequalityConstraintUpdate" D = natUtProject "ProjectInequalityConstraintUpdate" from by simp [natKc]]
    exact facts_pairs (by decide +kernel)
  · rw [show pyKcSaves "KnapsackForward" D = pyUtForwardBackward "KnapsackForward" D from by simp [pyKcSaves],
      show natKc "KnapsackForward" D = natUtForwardBackward "KnapsackForward" D from by simp [natKc],
      show kcCompared "KnapsackForward" = .listed "forward_pure" "forward_wrapper" from by simp [kcCompared]]
    exact facts_forward D
  · rw [show pyKcSaves "KnapsackBackward" D = pyUtForwardBackward "KnapsackBackward" D from by simp [pyKcSaves],
      show natKc "KnapsackBackward" D = natUtForwardBackward "KnapsackBackward" D from by simp [natKc],
      show kcCompared "KnapsackBackward" = .listed "backward_pure" "backward_wrapper" from by simp [kcCompared]]
    exact facts_backward D
  · rw [show pyKcSaves "ExtrinsicOutputDepartment" D = pyUtOutput D from by simp [pyKcSaves],
      show natKc "ExtrinsicOutputDepartment" D = natUtOutput D from by simp [natKc],
      show kcCompared "ExtrinsicOutputDepartment" = .pairs [("extrinsic_output_department_pure", "extrinsic_output_department_wrapper")] from by
        simp [kcCompared]]
    exact facts_output D
  · rw [he, show pyKcSaves "Team2KnapsackUpdate" D = pyUtTeamToKnapsack from by simp [pyKcSaves],
      show natKc "Team2KnapsackUpdate" D = natUtTeamToKnapsack from by simp [natKc]]
    exact facts_pairs (by decide +kernel)
  · rw [he, show pyKcSaves "ProcessExtrinsicOutputDepartment" D = pyUtProcess from by simp [pyKcSaves],
      show natKc "ProcessExtrinsicOutputDepartment" D = natUtProcess from by simp [natKc]]
    exact facts_pairs (by decide +kernel)
  · rw [he, show pyKcSaves "Iterate" D = pyUtIterateKc from by simp [pyKcSaves], show natKc "Iterate" D = natUtIterateKc from by simp [natKc]]
    exact facts_pairs (by decide +kernel)
  · rw [he, show pyKcSaves "IterateSampleGraph" D = pyUtSampleKc from by simp [pyKcSaves],
      show natKc "IterateSampleGraph" D = natUtSampleKc from by simp [natKc]]
    exact facts_pairs (by decide +kernel)

theorem facts_shipped {sc : Script} (h : Shipped sc) {ut : String} (hu : ut ∈ sc.tests) :
    Facts sc.exported (sc.saves ut) (sc.native ut) (sc.compared ut) := by
  rcases h with ⟨D, rfl⟩ | rfl | rfl
  · exact facts_kc D hu
  · exact facts_tsp hu
  · exact facts_ksat hu

end Verif.Proofs
