import Verif.Model.KcCall
import Verif.Properties.KcIO
import Verif.Properties.KcResults

/-! Helper lemmas for whole runs of the assignment solver. -/

namespace Verif.Proofs
open Verif Num Spec Model

theorem teams_congr {combos : List (ℕ × ℕ)} {types : List ℕ} {cap : ℕ → ℕ} {count count' : ℕ × ℕ × ℕ → ℕ}
    (h : ∀ c ∈ combos, ∀ t ∈ types, IsCount cap (c.1, c.2, t) (count (c.1, c.2, t)))
    (h' : ∀ c ∈ combos, ∀ t ∈ types, IsCount cap (c.1, c.2, t) (count' (c.1, c.2, t))) :
    teams combos types count = teams combos types count' := by
  unfold teams
  refine List.flatMap_congr fun c hc => List.flatMap_congr fun t ht => ?_
  rw [IsCount.unique (h c hc t ht) (h' c hc t ht)]

theorem crew_pos {t : ℕ} (h1 : 1 ≤ t) (h2 : t ≤ 5) : 0 < (crew t).1 := by
  interval_cases t <;> simp [crew]

theorem mem_teams {combos : List (ℕ × ℕ)} {types : List ℕ} {count : ℕ × ℕ × ℕ → ℕ} {k : ℕ × ℕ × ℕ} :
    k ∈ teams combos types count ↔ (k.1, k.2.1) ∈ combos ∧ k.2.2 ∈ types ∧ count k ≠ 0 := by
  unfold teams
  simp only [List.mem_flatMap, List.mem_replicate]
  constructor
  · rintro ⟨c, hc, t, ht, h0, rfl⟩; exact ⟨hc, ht, h0⟩
  · rintro ⟨hc, ht, h0⟩; exact ⟨_, hc, _, ht, h0, rfl⟩

/-- The generated teams are a well-formed problem. -/
theorem teams_problem {caps types : List ℕ} {combos : List (ℕ × ℕ)} {count : ℕ × ℕ × ℕ → ℕ} {P : ℕ} (hn : 0 < caps.length) (hP : 0 < P)
    (hself : ∀ u, 1 ≤ u → u ≤ caps.length → (u, u) ∈ combos) (ht : TypesOk types) (hne : types ≠ [])
    (hfit : ∀ c ∈ combos, ∀ t ∈ types, RealKind (c.1, c.2, t) → ∀ x, need (c.1, c.2, t) x ≤ caps.getD (x - 1) 0)
    (hc : ∀ c ∈ combos, ∀ t ∈ types, IsCount (fun x => caps.getD (x - 1) 0) (c.1, c.2, t) (count (c.1, c.2, t))) :
    Properties.KcProblemOk caps.length (teams combos types count).length P
      (fun d t => need ((teams combos types count).getD t (0, 0, 0)) (d + 1)) (fun d => caps.getD d 0) := by
  have hkind : ∀ t < (teams combos types count).length, (teams combos types count).getD t (0, 0, 0) ∈ teams combos types count := by
    intro t ht
    rw [List.getD_eq_getElem?_getD, List.getElem?_eq_getElem ht]
    exact List.getElem_mem ht
  refine ⟨hn, hP, fun d hd => ?_, fun d hd t htT => ?_, fun t htT => ?_⟩
  · obtain ⟨t, tt⟩ := List.exists_mem_of_ne_nil types hne
    have hm := hself (d + 1) (by omega) (by omega)
    have hcnt : count (d + 1, d + 1, t) ≠ 0 := by
      have := ((hc _ hm t tt).1 (Or.inr rfl)).2 (show (1 : ℕ) ∈ _ from fun x => by
        rw [one_mul]; exact hfit _ hm t tt (Or.inr rfl) x)
      have h1 : 1 ≤ count (d + 1, d + 1, t) := this
      omega
    have hmem : (d + 1, d + 1, t) ∈ teams combos types count := mem_teams.mpr ⟨hm, tt, hcnt⟩
    obtain ⟨i, hi, e⟩ := List.getElem_of_mem hmem
    refine ⟨i, hi, ?_⟩
    rw [List.getD_eq_getElem?_getD, List.getElem?_eq_getElem hi, e]
    have := crew_pos (ht t tt).1 (ht t tt).2
    simp only [Option.getD_some, need, if_true]
    omega
  · obtain ⟨h1, h2, h3⟩ := mem_teams.mp (hkind t htT)
    generalize (teams combos types count).getD t (0, 0, 0) = k at h1 h2 h3
    by_cases hr : RealKind k
    · exact hfit _ h1 _ h2 hr (d + 1)
    · exact absurd ((hc _ h1 _ h2).2 hr) h3
  · have hsub : depts caps.length (fun d t => need ((teams combos types count).getD t (0, 0, 0)) (d + 1)) t ⊆
        {((teams combos types count).getD t (0, 0, 0)).1 - 1, ((teams combos types count).getD t (0, 0, 0)).2.1 - 1} := by
      intro d hd
      simp only [depts, Finset.mem_filter, Finset.mem_range] at hd
      generalize (teams combos types count).getD t (0, 0, 0) = k at hd
      simp only [Finset.mem_insert, Finset.mem_singleton]
      by_contra hno
      refine hd.2 ?_
      unfold need
      rw [if_neg (by omega), if_neg (by omega)]
    exact (Finset.card_le_card hsub).trans (Finset.card_le_two)

section
variable {d : TeamData} {caps types : List ℕ} {combos : List (ℕ × ℕ)} {count : ℕ × ℕ × ℕ → ℕ}

theorem transpose_table {T P : ℕ} {x : ℕ → ℕ → Num} : transposeRows P (table T P x) = table P T (fun p t => x t p) := by
  unfold transposeRows table
  refine List.map_congr_left fun p hp => ?_
  rw [List.map_map]
  refine List.map_congr_left fun t _ => ?_
  simp [List.getD_eq_getElem?_getD, List.mem_range.mp hp]

/-- `initialize` on costs of the right shape. -/
theorem initialize_spec {T : Teams} {P : ℕ} {w : ℕ → Num} {R : ℕ → ℕ → Num} (hn : 0 < caps.length)
    (hcomb : pruneTeams d caps.length = some combos) (hT : generateTeams d caps types combos = some T)
    {L : List (ℕ × ℕ × ℕ)} (hlen : T.rewards.length = L.length) (hL : 0 < L.length) (hw : T.weights.length = caps.length)
    (htab : ∀ x < caps.length, T.weights[x]? = some (L.map (fun k => need k (x + 1))) ∧
        T.types[x]? = some (L.map (fun k => k.2.2))) :
    kcInitialize d ⟨caps, types, listOf L.length w, table L.length P R⟩ =
      some (Properties.pythonTables caps.length L.length P (fun d t => need (L.getD t (0, 0, 0)) (d + 1)) (fun d => caps.getD d 0) w
        (fun p t => R t p), Properties.analysisData caps combos T) := by
  unfold kcInitialize
  have h0 : (table L.length P R)[0]? = some ((List.range P).map (R 0)) := by
    simp [table, hL]
  simp only [h0, hcomb, hT, (htab 0 hn).2, Option.bind_eq_bind, Option.bind_some]
  rw [if_pos (by
    intro r hr
    obtain ⟨t, -, rfl⟩ := List.mem_map.mp hr
    simp)]
  simp only [Option.bind_some, List.length_map, List.length_range]
  rw [if_pos (by simp [table, hlen])]
  have hcaps : caps = listOf caps.length (fun d => caps.getD d 0) := by
    refine List.ext_getElem (by simp [listOf]) fun i h1 h2 => ?_
    simp [listOf, List.getD_eq_getElem?_getD, h1]
  have hwt : T.weights = table caps.length L.length (fun d t => need (L.getD t (0, 0, 0)) (d + 1)) := by
    refine List.ext_getElem? fun i => ?_
    by_cases hi : i < caps.length
    · rw [(htab i hi).1]
      simp only [table, List.getElem?_map, List.getElem?_range hi, Option.map_some, Option.some.injEq]
      refine List.ext_getElem (by simp) fun j h1 h2 => ?_
      have hj : j < L.length := by simpa using h1
      simp [List.getD_eq_getElem?_getD, hj]
    · rw [List.getElem?_eq_none (by omega), List.getElem?_eq_none (by simp [table]; omega)]
  have hty : L.map (fun k => k.2.2) = T.types.getD 0 [] := by
    rw [List.getD_eq_getElem?_getD, (htab 0 hn).2]; rfl
  rw [hlen, transpose_table, hty, hwt]
  unfold Properties.pythonTables Properties.analysisData
  rw [← hcaps, ← hwt]

end

end Verif.Proofs
