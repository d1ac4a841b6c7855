import Verif.Proofs.KcSettled
import Verif.Properties.SettledKsat
import Verif.Properties.KcOptimal

/-! # C67: settled messages without ties are a feasible plan (assignment) -/

namespace Verif.Properties
open Verif Num Spec Model

/-- C67, assignment.  If the messages of units and projects have settled, no team message has reached its limit, every team has a
nonzero belief and every pair a belief below the threshold or above zero, then the call with this or any larger number of iterations reports a
plan that respects all capacities, gives every kept team exactly one project and no project twice.  It needs no removals: the result
is the same with and without post-processing.  Every other plan that differs in a treelike way costs more, and none that differs in a way that
closes at most one cycle in each part costs less. -/
theorem C67_kc {d : TeamData} {caps types : List ℕ} {combos : List (ℕ × ℕ)} {count : ℕ × ℕ × ℕ → ℕ} (h : KcCallOk d caps types combos count)
    {P : ℕ} (hP : 0 < P) {L : List (ℕ × ℕ × ℕ)} (hL : L = teams combos types count) {w : ℕ → ℚ} {R : ℕ → ℕ → ℚ} {flag : Bool} {alpha : ℚ}
    {a raw o y e : ℕ → ℕ → ℕ → ℚ} {c : ℕ → ℕ → ℚ} (ht : TeamTrace caps L P w R flag alpha a raw o y e c) (ha : flag = true → alpha ≠ 1) {K : ℕ}
    (hd : ∀ i < caps.length, ∀ t < L.length, weightOf L i t ≠ 0 →
      damped flag alpha (fun j => raw j i t) K = damped flag alpha (fun j => raw j i t) (K + 1))
    (hy : ∀ p < P, ∀ t < L.length, y K p t = y (K + 1) p t) (hlim : ∀ t < L.length, c (K + 1) t < 1000000)
    (hteam : ∀ t < L.length, teamBelief caps L w flag alpha raw c (K + 1) t ≠ 0) {q : ℚ} (hq : q ≤ 0)
    (hpair : ∀ p < P, ∀ t < L.length, pairBelief R o y (K + 1) p t < q ∨ 0 < pairBelief R o y (K + 1) p t) {N : ℕ} (hN : K + 2 ≤ N) :
    ∃ m, Plan caps.length L.length P (weightOf L) (fun i => caps.getD i 0) m ∧
      (∀ post byTeams : Bool, ∃ r, kcCall d N flag alpha post (if byTeams then 2 else 1) (fin q) (inputFile caps types L.length P w R) = some r ∧
        r.kept.Pairwise (· < ·) ∧ (∀ t, t ∈ r.kept ↔ t < L.length ∧ m t ≠ none) ∧
        r.entries = r.kept.map (fun t => (((L.getD t (0, 0, 0)).1, (L.getD t (0, 0, 0)).2.1), (L.getD t (0, 0, 0)).2.2,
          [t + 1], [(m t).getD 0 + 1]))) ∧
      (∀ m', Plan caps.length L.length P (weightOf L) (fun i => caps.getD i 0) m' → (∃ t < L.length, m' t ≠ m t) →
        TreelikeChange (planConstraints caps.length L.length P) (planScope L.length P (weightOf L)) (planVars L.length P m) (planVars L.length P m') →
        assignmentCost L.length (fun t p => w t + R p t) m < assignmentCost L.length (fun t p => w t + R p t) m') ∧
      ∀ m', Plan caps.length L.length P (weightOf L) (fun i => caps.getD i 0) m' →
        OneCycleChange (planConstraints caps.length L.length P) (planScope L.length P (weightOf L)) (planVars L.length P m) (planVars L.length P m') →
        assignmentCost L.length (fun t p => w t + R p t) m ≤ assignmentCost L.length (fun t p => w t + R p t) m' := by
  have hraw : ∀ i < caps.length, ∀ t < L.length, weightOf L i t ≠ 0 → raw (K + 1) i t = damped flag alpha (fun j => raw j i t) K ∧
      damped flag alpha (fun j => raw j i t) K = damped flag alpha (fun j => raw j i t) (K + 1) :=
    fun i hi t htT hw => ⟨settled_raw (r := fun j => raw j i t) ha (hd i hi t htT hw), hd i hi t htT hw⟩
  have hbt : ∀ t < L.length, Proofs.planBelief caps.length (weightOf L) w R raw o y c K (.inl t) = teamBelief caps L w flag alpha raw c (K + 1) t := by
    intro t htT
    show c (K + 1) t + ∑ i ∈ depts caps.length (weightOf L) t, raw (K + 1) i t + w t = _
    unfold teamBelief
    congr 2
    refine Finset.sum_congr rfl fun i hi => ?_
    have := Finset.mem_filter.mp hi
    obtain ⟨h1, h2⟩ := hraw i (Finset.mem_range.mp this.1) t htT this.2
    rw [h1, h2]
  have hbp : ∀ p t, Proofs.planBelief caps.length (weightOf L) w R raw o y c K (.inr (p, t)) = pairBelief R o y (K + 1) p t := fun p t => rfl
  obtain ⟨m, hm, -, h2, h3⟩ := Proofs.settled_plan ht hraw hy (fun l hl t htT => by rw [← Option.some.inj hl]; exact hlim t htT) (by
    rintro (t | ⟨p, t⟩) hv
    · have htT : t < L.length := by simpa using hv
      rw [hbt t htT]; exact hteam t htT
    · have hpt : p < P ∧ t < L.length := by simpa using hv
      rw [hbp]
      rcases hpair p hpt.1 t hpt.2 with hh | hh
      · exact (hh.trans_le hq).ne
      · exact hh.ne')
  refine ⟨m, hm, fun post byTeams => ?_, h3⟩
  rw [C66_kc_settled h hP hL ht hd hy hN post _ hq]
  refine report_assignment h hP hL ht hq hm.toAssignment (fun p hp t htT => ?_) hm.fits post byTeams
  rw [← h2 p hp t htT, hbp]
  rcases hpair p hp t htT with hh | hh
  · exact ⟨fun _ => hh.trans_le hq, fun _ => hh⟩
  · exact ⟨fun g => absurd (g.trans_le hq) (not_lt.mpr hh.le), fun g => absurd g (not_lt.mpr hh.le)⟩

/-! ## Example: one unit with capacity 2, two teams that need one member and one team that needs two, two projects. -/

theorem c67_ok : KcCallOk flatData [2] [1, 2] [(1, 1)] (fun k => if k.2.2 = 1 then 2 else 1) := by
  have hneed : ∀ x, need (1, 1, 1) x = (if x = 1 then 1 else 0) + (if x = 1 then 0 else 0) := fun x => rfl
  have hneed' : ∀ x, need (1, 1, 2) x = (if x = 1 then 1 else 0) + (if x = 1 then 1 else 0) := fun x => rfl
  refine ⟨by decide, by decide, by decide +kernel, by unfold TypesOk; decide, by decide, fun c hc t ht _ x => ?_, fun c hc t ht => ?_⟩ <;>
    obtain rfl := List.mem_singleton.mp hc <;> simp only [List.mem_cons, List.not_mem_nil, or_false] at ht <;> rcases ht with rfl | rfl
  · rw [hneed]
    by_cases hx : x = 1
    · subst hx; decide
    · simp [hx]
  · rw [hneed']
    by_cases hx : x = 1
    · subst hx; decide
    · simp [hx]
  · refine ⟨fun _ => ⟨fun x => ?_, fun m hm => ?_⟩, fun h => absurd (Or.inr rfl) h⟩
    · rw [hneed]
      by_cases hx : x = 1
      · subst hx; decide
      · simp [hx]
    · have h1 := hm 1
      rw [hneed] at h1
      simp [unitCap] at h1 ⊢
      omega
  · refine ⟨fun _ => ⟨fun x => ?_, fun m hm => ?_⟩, fun h => absurd (Or.inr rfl) h⟩
    · rw [hneed']
      by_cases hx : x = 1
      · subst hx; decide
      · simp [hx]
    · have h1 := hm 1
      rw [hneed'] at h1
      simp [unitCap] at h1 ⊢
      omega

/-- The teams of the example. -/
def c67Teams : List (ℕ × ℕ × ℕ) := [(1, 1, 1), (1, 1, 1), (1, 1, 2)]
def c67w (t : ℕ) : ℚ := [-3, 3, -6].getD t 0
def c67R (p t : ℕ) : ℚ := ([[4, 5, -3], [1, 5, 1]].getD p []).getD t 0
/-- Entry of the last or an earlier table. -/
def at3 (l : List (List (List ℚ))) (j x t : ℕ) : ℚ := ((l.getD (min j 3) []).getD x []).getD t 0

/-- The messages of the example. -/
theorem c67_trace : TeamTrace [2] c67Teams 2 c67w c67R false 0
    (at3 [[[-3, 3, -6]], [[-2, 8, -9]], [[-2, 8, -9]], [[-2, 8, -9]]])
    (at3 [[[6, 3, 3]], [[9, 7, 2]], [[9, 7, 2]], [[9, 7, 2]]])
    (at3 [[[3, 6, 0], [3, 6, 0]], [[6, 10, -1], [6, 10, 3]], [[6, 10, -1], [6, 10, 3]], [[6, 10, -1], [6, 10, 3]]])
    (at3 [[[3, 3, 0], [0, 0, 0]], [[4, 4, 0], [0, 0, 0]], [[4, 4, 0], [0, 0, 0]], [[4, 4, 0], [0, 0, 0]]])
    (at3 [[[0, 0, 0], [0, 0, 0]], [[7, 8, -3], [1, 5, 1]], [[8, 9, -3], [1, 5, 1]], [[8, 9, -3], [1, 5, 1]]])
    (fun _ t => [1, 5, -3].getD t 0) := by
  have hm : ∀ j, min j 3 = 0 ∨ min j 3 = 1 ∨ min j 3 = 2 ∨ min j 3 = 3 := fun j => by omega
  have hn : ∀ j, (min j 3 = 0 ∧ min (j + 1) 3 = 1) ∨ (min j 3 = 1 ∧ min (j + 1) 3 = 2) ∨ (min j 3 = 2 ∧ min (j + 1) 3 = 3) ∨ (min j 3 = 3 ∧ min (j + 1) 3 = 3) := fun j => by omega
  have hd : ∀ (s : ℕ → ℚ) j, damped false 0 s j = s j := Proofs.undamped (Or.inl rfl)
  have hco : ∀ S ⊆ couplingVars 2, ((S = ∅ ∨ ∃ p ∈ Finset.range 2, S = {none, some p}) ↔ Coupled S) := by
    intro S hS
    refine or_congr_right ⟨fun ⟨p, _, hp⟩ => ⟨p, hp⟩, fun ⟨p, hp⟩ => ⟨p, ?_, hp⟩⟩
    have : some p ∈ couplingVars 2 := hS (by rw [hp]; simp)
    simpa [couplingVars] using this
  constructor
  · decide +kernel
  · intro j d hd' t ht hw
    refine Proofs.message_of_check (valid' := fun S => S.sum (weightOf c67Teams d) ≤ [2].getD d 0) (fun S _ => Iff.rfl) ?_
    revert d t
    unfold at3
    rcases hm j with e | e | e | e <;> rw [e] <;> decide +kernel
  · decide +kernel
  · intro j p hp t ht
    refine Proofs.message_of_check hco ?_
    simp only [hd]
    revert p t
    unfold at3
    rcases hm j with e | e | e | e <;> simp only [e] <;> decide +kernel
  · intro j p hp t ht
    refine Proofs.message_of_check (valid' := fun S => ∀ i ∈ S, ∀ j ∈ S, i = j) (fun S _ => Iff.rfl) ?_
    revert p t
    unfold at3
    rcases hm j with e | e | e | e <;> simp only [e] <;> decide +kernel
  · intro j p hp t ht
    revert p t
    unfold at3
    rcases hn j with ⟨e, e'⟩ | ⟨e, e'⟩ | ⟨e, e'⟩ | ⟨e, e'⟩ <;> rw [e, e'] <;> decide +kernel
  · intro j t ht
    refine ⟨[1, 5, -3].getD t 0, Proofs.message_of_check hco ?_, ?_⟩
    · simp only [hd]
      revert t
      unfold at3
      rcases hn j with ⟨e, e'⟩ | ⟨e, e'⟩ | ⟨e, e'⟩ | ⟨e, e'⟩ <;> simp only [e, e'] <;> decide +kernel
    · revert t; decide +kernel
  · intro j d hd' t ht hw
    simp only [hd]
    revert d t
    unfold at3
    rcases hn j with ⟨e, e'⟩ | ⟨e, e'⟩ | ⟨e, e'⟩ | ⟨e, e'⟩ <;> simp only [e, e'] <;> decide +kernel

/-- From three iterations on the call keeps the team of two, although it and the first team would be cheaper together: they do not fit. -/
example (N : ℕ) (hN : 3 ≤ N) : ∃ m, Plan 1 3 2 (weightOf c67Teams) (fun i => [2].getD i 0) m ∧
    ∀ post : Bool, ∃ r, kcCall flatData N false 0 post 1 (fin 0) (inputFile [2] [1, 2] 3 2 c67w c67R) = some r ∧ ∀ t, t ∈ r.kept ↔ t < 3 ∧ m t ≠ none := by
  have hd : ∀ (s : ℕ → ℚ) j, damped false 0 s j = s j := Proofs.undamped (Or.inl rfl)
  obtain ⟨m, h1, h2, -⟩ := C67_kc c67_ok (by norm_num) (by decide) c67_trace (by decide) (K := 1) (fun i hi t ht _ => by
    rw [hd, hd]; revert i t; decide +kernel) (by decide +kernel) (by decide +kernel) (fun t ht => by
    unfold teamBelief; simp only [hd]; revert t; decide +kernel) le_rfl (by decide +kernel) hN
  exact ⟨m, h1, fun post => by
    obtain ⟨r, r1, -, r2, -⟩ := h2 post false
    exact ⟨r, r1, r2⟩⟩
example : (kcCall flatData 3 false 0 true 1 (fin 0) (inputFile [2] [1, 2] 3 2 c67w c67R)).map (fun r => r.kept) = some [2] := by decide +kernel

end Verif.Properties
