import Verif.Proofs.TeamKnapsack
import Mathlib.Tactic.IntervalCases
import Mathlib.Tactic.NormNum

/-! Property C10: what a team tells its departments. -/

namespace Verif.Properties
open Verif Num Model Proofs

/-- Well-formed table of used departments: one list per department, increasing team numbers below `T`. -/
def TeamsTable (D T : ℕ) (nzs : List (List ℕ)) : Prop :=
  nzs.length = D ∧ ∀ l ∈ nzs, l.Pairwise (· < ·) ∧ ∀ t ∈ l, t < T

/-- C10 as claimed: for every table, department `d` and team `l` using it, the new message is the team reward plus the
coupling message plus the messages of all other departments of the team. -/
def C10_claim : Prop :=
  ∀ (D T : ℕ) (nzs : List (List ℕ)) (m ext : Mat Num) (reward oric : Arr Num) (w o : ℕ → ℚ) (x : ℕ → ℕ → ℚ),
    TeamsTable D T nzs → m.rows = D → m.cols = T → reward.Is T w → oric.Is T o → ext.Is D T x →
    ∃ m', teamToKnapsack D T nzs m reward ext oric = some m' ∧
      ∀ d < D, ∀ l ∈ nzs.getD d [], m'.data d l =
        fin (w l + o l + ∑ t ∈ (Finset.range D).filter (fun t => t ≠ d ∧ l ∈ nzs.getD t []), x t l)

/-- C10, guarded: the claim holds when every team uses at most two departments; entries of teams that do not use the
department keep their value.  Missing for the full claim: teams in three or more departments, where it is false
(`C10_claim_false`). -/
theorem C10_team_to_department_partial {D T : ℕ} {nzs : List (List ℕ)} {m ext : Mat Num} {reward oric : Arr Num}
    {w o : ℕ → ℚ} {x : ℕ → ℕ → ℚ} (ok : TeamsTable D T nzs) (hm : m.rows = D) (hmc : m.cols = T) (hw : reward.Is T w)
    (ho : oric.Is T o) (hx : ext.Is D T x)
    (h2 : ∀ l, ((Finset.range D).filter (fun t => l ∈ nzs.getD t [])).card ≤ 2) :
    ∃ m', teamToKnapsack D T nzs m reward ext oric = some m' ∧ m'.rows = D ∧ m'.cols = T ∧
      ∀ d < D, ∀ l,
        (l ∈ nzs.getD d [] → m'.data d l =
          fin (w l + o l + ∑ t ∈ (Finset.range D).filter (fun t => t ≠ d ∧ l ∈ nzs.getD t []), x t l)) ∧
        (l ∉ nzs.getD d [] → m'.data d l = m.data d l) := by
  have hmem : ∀ d < D, nzs.getD d [] ∈ nzs := by
    intro d hd
    have hd' : d < nzs.length := by rw [ok.1]; exact hd
    simp [hd']
  obtain ⟨m', h1, h2', h3, h4⟩ := teamToKnapsack_is hw ho hx ok.1
    (fun d hd => ((ok.2 _ (hmem d hd)).1).imp (fun h => Nat.ne_of_lt h))
    (fun d hd l hl => (ok.2 _ (hmem d hd)).2 l hl)
    (by
      intro d hd l hl t ht t' ht'
      simp only [otherDepts, Finset.mem_filter, Finset.mem_range] at ht ht'
      by_contra hne
      have hsub : ({d, t, t'} : Finset ℕ) ⊆ (Finset.range D).filter (fun t => l ∈ nzs.getD t []) := by
        intro a ha
        simp only [Finset.mem_insert, Finset.mem_singleton] at ha
        simp only [Finset.mem_filter, Finset.mem_range]
        rcases ha with rfl | rfl | rfl
        · exact ⟨hd, hl⟩
        · exact ⟨ht.1, ht.2.2⟩
        · exact ⟨ht'.1, ht'.2.2⟩
      have hc := Finset.card_le_card hsub
      rw [Finset.card_insert_of_notMem (by
        simp only [Finset.mem_insert, Finset.mem_singleton]; rintro (h | h); exact ht.2.1 h.symm; exact ht'.2.1 h.symm),
        Finset.card_pair hne] at hc
      have := h2 l
      omega) hm hmc
  refine ⟨m', h1, h2', h3, fun d hd l => ⟨fun hl => ?_, fun hl => ?_⟩⟩
  · rw [h4, if_pos ⟨hd, hl⟩]; rfl
  · rw [h4, if_neg (fun h => hl h.2)]

/-- C10 is false as claimed: one team in three departments makes the code erase the end iterator of an empty list. -/
theorem C10_claim_false : ¬ C10_claim := by
  intro h
  obtain ⟨m', h1, -⟩ := h 3 1 [[0], [0], [0]] (Mat.fill 3 1 0) (Mat.fill 3 1 0) (Arr.fill 1 0) (Arr.fill 1 0) (fun _ => 0)
    (fun _ => 0) (fun _ _ => 0) ⟨rfl, by simp⟩ rfl rfl ⟨rfl, fun _ _ => rfl⟩ ⟨rfl, fun _ _ => rfl⟩
    ⟨rfl, rfl, fun _ _ _ _ => rfl⟩
  have h2 : (teamToKnapsack 3 1 [[0], [0], [0]] (Mat.fill 3 1 0) (Arr.fill 1 0) (Mat.fill 3 1 0) (Arr.fill 1 0)).isNone =
    true := by decide +kernel
  rw [h1] at h2
  exact absurd h2 (by simp)

/-- The guard is met by three departments and four teams with different numbers of departments. -/
example : TeamsTable 3 4 [[0, 1], [1, 2], [0, 2]] ∧
    (∀ l, ((Finset.range 3).filter (fun t => l ∈ [[0, 1], [1, 2], [0, 2]].getD t [])).card ≤ 2) ∧
    (teamToKnapsack 3 4 [[0, 1], [1, 2], [0, 2]] (Mat.fill 3 4 (fin 9)) (Arr.ofList [fin 1, fin 2, fin 3, fin 4])
      (Mat.ofRat 3 4 fun d t => 10 * d + t) (Arr.fill 4 (fin 100))).map (fun m => (m.data 0 0, m.data 0 1, m.data 0 2)) =
        some (fin 121, fin 113, fin 9) := by
  refine ⟨⟨rfl, by decide⟩, fun l => ?_, by decide +kernel⟩
  have : ((Finset.range 3).filter (fun t => l ∈ [[0, 1], [1, 2], [0, 2]].getD t [])) =
      if l = 0 then {0, 2} else if l = 1 then {0, 1} else if l = 2 then {1, 2} else ∅ := by
    ext t
    simp only [Finset.mem_filter, Finset.mem_range]
    constructor
    · rintro ⟨h, h'⟩
      interval_cases t <;> simp at h' <;> rcases h' with rfl | rfl <;> simp
    · split_ifs with h1 h2 h3 <;> simp only [Finset.mem_insert, Finset.mem_singleton, Finset.notMem_empty, false_imp_iff]
      all_goals (rintro (rfl | rfl) <;> subst_vars <;> simp)
  rw [this]
  split_ifs <;> simp

end Verif.Properties
