import Verif.Proofs.BigPair
import Verif.Properties.KcCall
import Verif.Spec.Forbidden
import Verif.Spec.ForbiddenPairs
import Verif.Proofs.KcStable
import Mathlib.Algebra.Order.BigOperators.Group.Finset

/-! Large and infinite costs of pairs in whole calls. -/

namespace Verif.Proofs
open Verif Num Spec Model Properties

/-- Only the pair costs depend on the pair costs. -/
theorem kcFlatten_pairs {py : KcPy} {f f' : KcFlat} {rp : List (List Num)} (hf : kcFlatten py = some f) (hf' : kcFlatten { py with rewardProject := rp } = some f') :
    f' = { f with rewardProject := f'.rewardProject } := by
  simp only [kcFlatten, Option.bind_eq_bind] at hf hf'
  obtain ⟨m, h1, hf⟩ := Option.bind_eq_some_iff.mp hf
  obtain ⟨nz, h2, hf⟩ := Option.bind_eq_some_iff.mp hf
  obtain ⟨r, h3, hf⟩ := Option.bind_eq_some_iff.mp hf
  obtain ⟨w, h4, hf⟩ := Option.bind_eq_some_iff.mp hf
  obtain ⟨mx, h5, hf⟩ := Option.bind_eq_some_iff.mp hf
  obtain ⟨arr, h6, hf⟩ := Option.bind_eq_some_iff.mp hf
  obtain rfl := Option.some.inj hf
  obtain ⟨m', g1, hf'⟩ := Option.bind_eq_some_iff.mp hf'
  obtain ⟨nz', g2, hf'⟩ := Option.bind_eq_some_iff.mp hf'
  obtain ⟨r', g3, hf'⟩ := Option.bind_eq_some_iff.mp hf'
  obtain ⟨w', g4, hf'⟩ := Option.bind_eq_some_iff.mp hf'
  obtain ⟨mx', g5, hf'⟩ := Option.bind_eq_some_iff.mp hf'
  obtain ⟨arr', g6, hf'⟩ := Option.bind_eq_some_iff.mp hf'
  obtain rfl := Option.some.inj hf'
  obtain rfl : m = m' := Option.some.inj (h1.symm.trans g1)
  obtain rfl : nz = nz' := Option.some.inj (h2.symm.trans g2)
  obtain rfl : w = w' := Option.some.inj (h4.symm.trans g4)
  obtain rfl : mx = mx' := Option.some.inj (h5.symm.trans g5)
  obtain rfl : arr = arr' := Option.some.inj (h6.symm.trans g6)
  rfl

theorem kcDecode_pairs {D T P : ℕ} {flag : Bool} {alpha : ℚ} {f : KcFlat} {rp : List Num} {inp inp' : KcInputs} {A A' : Mat Num}
    (h : kcDecode D T P flag alpha f = some (inp, A)) (h' : kcDecode D T P flag alpha { f with rewardProject := rp } = some (inp', A')) :
    A' = A ∧ inp' = { inp with rewardProject := inp'.rewardProject } := by
  simp only [kcDecode, Option.bind_eq_bind] at h h'
  obtain ⟨r, h1, h⟩ := Option.bind_eq_some_iff.mp h
  obtain ⟨c, h2, h⟩ := Option.bind_eq_some_iff.mp h
  obtain ⟨s, h3, h⟩ := Option.bind_eq_some_iff.mp h
  obtain ⟨q, h4, h⟩ := Option.bind_eq_some_iff.mp h
  obtain ⟨r', g1, h'⟩ := Option.bind_eq_some_iff.mp h'
  obtain ⟨c', g2, h'⟩ := Option.bind_eq_some_iff.mp h'
  obtain ⟨s', g3, h'⟩ := Option.bind_eq_some_iff.mp h'
  obtain ⟨q', g4, h'⟩ := Option.bind_eq_some_iff.mp h'
  obtain rfl : r = r' := Option.some.inj (h1.symm.trans g1)
  obtain rfl : c = c' := Option.some.inj (h2.symm.trans g2)
  obtain rfl : s = s' := Option.some.inj (h3.symm.trans g3)
  obtain ⟨rfl, rfl⟩ := Prod.mk.inj (Option.some.inj h)
  obtain ⟨rfl, rfl⟩ := Prod.mk.inj (Option.some.inj h')
  exact ⟨rfl, rfl⟩

section
variable {D T P : ℕ} {wf : ℕ → ℕ → ℕ} {cap : ℕ → ℕ} {w : ℕ → ℚ} {R : ℕ → ℕ → ℚ} {N : ℕ → ℕ → Bool} {M : ℚ} {flag : Bool} {alpha : ℚ}

/-- The Python call with infinite and with large costs of the pairs in `N`. -/
theorem big_call (h : KcProblemOk D T P wf cap) (ha : flag = true → 0 ≤ alpha ∧ alpha ≤ 1) (hM : 1000000 ≤ M) (hw : ∀ t < T, 0 ≤ M + w t) (K : ℕ) :
    ∃ (b : List Num) (m m' : Mat Num),
      kcIteratePy K flag alpha (pythonTables D T P wf cap (fun t => fin (w t)) (fun p t => fin (if N p t then M else R p t))) = some (b, m) ∧
      kcIteratePy K flag alpha (pythonTables D T P wf cap (fun t => fin (w t)) (forbid N R)) = some (b, m') ∧
      (m.rows = P ∧ m.cols = T) ∧ (m'.rows = P ∧ m'.cols = T) ∧ b.length = T ∧
      (K = 0 → ∀ p < P, ∀ t < T, m.data p t = 0 ∧ m'.data p t = 0) ∧
      (0 < K → ∀ p < P, ∀ t < T, ∃ q : ℚ, m.data p t = fin q ∧ (N p t = true → 0 ≤ q ∧ m'.data p t = pinf) ∧ (N p t = false → m'.data p t = fin q)) := by
  obtain ⟨f, inp, A, hf, g1, g2, g3, g4, g5, g6, hok, hA⟩ := kc_decoded (w := w) (R := fun p t => if N p t then M else R p t) h flag alpha
  obtain ⟨f', hf'⟩ := Option.isSome_iff_exists.mp ((C23_flattens (T := T) (P := P) (wf := wf) (cap := cap) (w := fun t => fin (w t)) (R := forbid N R)).mpr h.departments)
  obtain ⟨inp', A', k1, -, -, -, -, -, -, -, -, -, -, -, -, -, ⟨k2, k3, k4⟩, -⟩ := C23_decoded flag alpha hf'
  have e1 := kcFlatten_pairs (rp := table P T (forbid N R)) hf hf'
  rw [e1] at k1
  obtain ⟨rfl, e2⟩ := kcDecode_pairs g1 k1
  set Q := inp'.rewardProject with hQdef
  have hQ : MatRel (CostRel N M) inp.rewardProject Q := by
    obtain ⟨q1, q2, q3⟩ := hok.rewardProject
    rw [g3] at q2 q3
    rw [g4] at q1 q3
    refine ⟨by rw [k2, q1], by rw [k3, q2], fun p hp t ht => ?_⟩
    rw [q1] at hp
    rw [q2] at ht
    rw [q3 p hp t ht, k4 p hp t ht]
    cases hN : N p t with
    | true => exact Or.inr ⟨hN, by simp [hN], by simp [forbid, hN]⟩
    | false => exact Or.inl (by simp [forbid, hN])
  obtain ⟨ext, intr, intr', r1, r2, r3, r4, r5, r6⟩ := big_run hok hQ (fun p _ t _ hN => by simp [hN]) (by rw [g5, g6]; exact ha) hM (by rw [g3]; exact hw) hA K
  rw [← e2] at r2
  rw [g3, g4] at r3 r4 r6
  obtain ⟨m, m1, m2, m3, m4⟩ := reshape_toList (a := intr) r3
  obtain ⟨m', m1', m2', m3', m4'⟩ := reshape_toList (a := intr') r4
  have hes : ext.size = T := by
    obtain ⟨a, raw, o, y, e, c, -, hr0, hr⟩ := kc_run hok hA
    cases K with
    | zero =>
      obtain ⟨ext', i', z1, z2, -⟩ := hr0
      rw [r1] at z1
      obtain ⟨rfl, rfl⟩ := Prod.mk.inj (Option.some.inj z1)
      rw [z2.1, g3]
    | succ K =>
      obtain ⟨ext', i', z1, z2, -⟩ := hr K
      rw [r1] at z1
      obtain ⟨rfl, rfl⟩ := Prod.mk.inj (Option.some.inj z1)
      rw [z2.1, g3]
  have el : ext.toList.length = T := by simp [Arr.toList, hes]
  have wrap : ∀ {f : KcFlat} {inp : KcInputs} {A : Mat Num} {intr : Arr Num}, kcDecode D T P flag alpha f = some (inp, A) → kcSolve inp A K = some (ext, intr) → intr.size = P * T →
      kcWrapper K D T P flag alpha f (List.replicate T 0) (List.replicate (P * T) 0) = some (ext.toList, intr.toList) := by
    intro f inp A intr q1 q2 q3
    have e2 : intr.toList.length = P * T := by simp [Arr.toList, q3]
    simp only [kcWrapper, q1, q2, Option.bind_eq_bind, Option.bind_some]
    rw [slice_all el, slice_all (by rw [e2, Nat.mul_comm])]
    simp only [Option.bind_some]
    rw [if_pos (by rw [el, List.length_replicate]), if_pos (by rw [e2, List.length_replicate])]
    simp only [Option.bind_some]
    rw [List.drop_eq_nil_of_le (by rw [el, List.length_replicate]), List.drop_eq_nil_of_le (by rw [e2, List.length_replicate]), List.append_nil, List.append_nil]
  rw [← e1] at k1
  have w1 := wrap g1 r1 r3
  have w2 := wrap k1 r2 r4
  have add : npAdd ext.toList (listOf T (fun t => fin (w t))) = some (List.zipWith (· + ·) ext.toList (listOf T (fun t => fin (w t)))) := by
    rw [npAdd, if_pos (by rw [el, listOf_length])]
  have e3 : ∀ R : ℕ → ℕ → Num, (pythonTables D T P wf cap (fun t => fin (w t)) R).maxState.length = D := fun _ => listOf_length
  have e4 : ∀ R : ℕ → ℕ → Num, (pythonTables D T P wf cap (fun t => fin (w t)) R).numTeams = T := fun _ => rfl
  have e5 : ∀ R : ℕ → ℕ → Num, (pythonTables D T P wf cap (fun t => fin (w t)) R).numProjects = P := fun _ => rfl
  have e6 : ∀ R : ℕ → ℕ → Num, (pythonTables D T P wf cap (fun t => fin (w t)) R).reward = listOf T (fun t => fin (w t)) := fun _ => rfl
  refine ⟨List.zipWith (· + ·) ext.toList (listOf T (fun t => fin (w t))), m, m', ?_, ?_, ⟨m2, m3⟩, ⟨m2', m3'⟩, ?_, fun hK p hp t ht => ?_, fun hK p hp t ht => ?_⟩
  · simp only [kcIteratePy, hf, e3, e4, e5, e6, w1, Option.bind_eq_bind, Option.bind_some, m1, add]
  · simp only [kcIteratePy, hf', e3, e4, e5, e6, w2, Option.bind_eq_bind, Option.bind_some, m1', add]
  · rw [List.length_zipWith, el, listOf_length, Nat.min_self]
  · rw [m4 p hp t ht, m4' p hp t ht, (r5 hK).1, (r5 hK).2]
    exact ⟨rfl, rfl⟩
  · obtain ⟨z, z1, z2, z3⟩ := r6 hK p hp t ht
    refine ⟨_, by rw [m4 p hp t ht, z2], fun hN => ?_, fun hN => ?_⟩
    · have := hw t ht
      rw [m4' p hp t ht, z3, k4 p hp t ht]
      simp only [hN, if_true, forbid]
      exact ⟨by linarith, rfl⟩
    · rw [m4' p hp t ht, z3, k4 p hp t ht]
      simp [hN, forbid]

end


/-- The pairs that are matched for one matrix are matched for the other, and the decisions about teams with several projects agree. -/
theorem post_same {q : ℚ} (hq : q ≤ 0) {P T : ℕ} {m m' : Mat Num} (hr : m.rows = P) (hc : m.cols = T) (hr' : m'.rows = P) (hc' : m'.cols = T)
    (h : ∀ p < P, ∀ t < T, m'.data p t = m.data p t ∨ lt (m'.data p t) (fin q) = false ∧ lt (m.data p t) (fin q) = false)
    (py : KcTeamsPy) (byTeams : Bool) (fuel : ℕ) (b : List Num) :
    matchedPairs (decisionMatrix (fin q) m') = matchedPairs (decisionMatrix (fin q) m) ∧
    selectedTeams (decisionMatrix (fin q) m') = selectedTeams (decisionMatrix (fin q) m) ∧
    kcPost py byTeams fuel (fin q) m' b = kcPost py byTeams fuel (fin q) m b := by
  have hsame : ∀ p < P, ∀ t < T, lt (m'.data p t) (fin q) = lt (m.data p t) (fin q) := by
    intro p hp t ht
    rcases h p hp t ht with e | ⟨e, e'⟩
    · rw [e]
    · rw [e, e']
  have horder : ∀ p < P, ∀ p' < P, ∀ t < T, lt (m.data p t) (fin q) = true → lt (m.data p' t) (fin q) = true →
      lt (m'.data p t) (m'.data p' t) = lt (m.data p t) (m.data p' t) := by
    intro p hp p' hp' t ht h1 h2
    rcases h p hp t ht with e | ⟨-, e'⟩
    · rcases h p' hp' t ht with f | ⟨-, f'⟩
      · rw [e, f]
      · rw [f'] at h2; cases h2
    · rw [e'] at h1; cases h1
  refine ⟨matchedPairs_congr hq hr hc hr' hc' hsame, selectedTeams_congr hq hr hc hr' hc' hsame, ?_⟩
  unfold kcPost
  simp only [matchedPairs_congr hq hr hc hr' hc' hsame, selectedTeams_congr hq hr hc hr' hc' hsame]
  have hpick : (reusedPairs (matchedPairs (decisionMatrix (fin q) m))).mapM (pickPair m') =
      (reusedPairs (matchedPairs (decisionMatrix (fin q) m))).mapM (pickPair m) := by
    have : ∀ L : List ((ℕ × ℕ) × (ℕ × ℕ)), (∀ c ∈ L, c ∈ reusedPairs (matchedPairs (decisionMatrix (fin q) m))) →
        L.mapM (pickPair m') = L.mapM (pickPair m) := by
      intro L hL
      induction L with
      | nil => rfl
      | cons c L ih =>
        rw [List.mapM_cons, List.mapM_cons, pickPair_congr hq hr hc hr' hc' hsame horder (hL c (by simp)), ih fun c hc => hL c (by simp [hc])]
    exact this _ fun _ h => h
  rw [hpick]

/-- All reported pairs are matched. -/
theorem entries_matched {d : TeamData} {K : ℕ} {flag : Bool} {alpha : ℚ} {post : Bool} {option : ℕ} {th : Num} {l : KcLoad} {r : KcResult}
    {py : KcPy} {teams : KcTeamsPy} {b : List Num} {m : Mat Num} (hi : kcInitialize d l = some (py, teams))
    (hm : kcIteratePy K flag alpha py = some (b, m)) (hr : kcCall d K flag alpha post option th l = some r) :
    ∀ e ∈ r.entries, ∀ x ∈ e.2.2.1.zip e.2.2.2, ∃ c ∈ matchedPairs (decisionMatrix th m), x = (c.2 + 1, c.1 + 1) := by
  have hits : ∀ (f : ℕ × ℕ → Bool) (L : List (ℕ × ℕ)), ∀ x ∈ ((L.filter f).map (fun q => q.2 + 1)).zip ((L.filter f).map (fun q => q.1 + 1)),
      ∃ c ∈ L, x = (c.2 + 1, c.1 + 1) := by
    intro f L x hx
    rw [List.zip_map'] at hx
    obtain ⟨c, hc, rfl⟩ := List.mem_map.mp hx
    exact ⟨c, (List.mem_filter.mp hc).1, rfl⟩
  unfold kcCall at hr
  simp only [hi, hm, Option.bind_eq_bind, Option.bind_some] at hr
  cases post with
  | true =>
    simp only [if_true] at hr
    obtain ⟨byTeams, -, hr⟩ := Option.bind_eq_some_iff.mp hr
    obtain ⟨out, -, hr⟩ := Option.bind_eq_some_iff.mp hr
    obtain ⟨entries, he, hr⟩ := Option.bind_eq_some_iff.mp hr
    obtain rfl := Option.some.inj hr
    intro e hmem x hx
    obtain ⟨i, -, hie⟩ := mapM_mem he e hmem
    unfold resultEntry at hie
    simp only [Option.bind_eq_bind] at hie
    obtain ⟨team, -, hie⟩ := Option.bind_eq_some_iff.mp hie
    obtain ⟨hs, hhs, hie⟩ := Option.bind_eq_some_iff.mp hie
    obtain ⟨t, -, hie⟩ := Option.bind_eq_some_iff.mp hie
    obtain ⟨loc, -, hie⟩ := Option.bind_eq_some_iff.mp hie
    obtain ⟨c, -, hie⟩ := Option.bind_eq_some_iff.mp hie
    obtain rfl := Option.some.inj hie
    split at hhs
    · obtain ⟨picks, -, hhs⟩ := Option.bind_eq_some_iff.mp hhs
      obtain ⟨p, -, hhs⟩ := Option.bind_eq_some_iff.mp hhs
      obtain rfl := Option.some.inj hhs
      exact hits _ _ x hx
    · obtain rfl := Option.some.inj hhs
      exact hits _ _ x hx
  | false =>
    simp only [Bool.false_eq_true, if_false] at hr
    obtain ⟨⟨loads, locs⟩, -, hr⟩ := Option.bind_eq_some_iff.mp hr
    obtain ⟨entries, he, hr⟩ := Option.bind_eq_some_iff.mp hr
    obtain rfl := Option.some.inj hr
    intro e hmem x hx
    obtain ⟨i, -, hie⟩ := mapM_mem he e hmem
    unfold plainEntry at hie
    simp only [Option.bind_eq_bind] at hie
    obtain ⟨team, -, hie⟩ := Option.bind_eq_some_iff.mp hie
    obtain ⟨t, -, hie⟩ := Option.bind_eq_some_iff.mp hie
    obtain ⟨loc, -, hie⟩ := Option.bind_eq_some_iff.mp hie
    obtain ⟨c, -, hie⟩ := Option.bind_eq_some_iff.mp hie
    obtain rfl := Option.some.inj hie
    exact hits _ _ x hx

/-- If forbidden pairs cost enough, the best assignment without forbidden pairs is the best one. -/
theorem best_of_avoiding {gap : ℚ} {T P : ℕ} {N : ℕ → ℕ → Bool} {w : ℕ → ℚ} {R : ℕ → ℕ → ℚ} {m : ℕ → Option ℕ}
    (h : BestAvoiding gap T P N (fun t p => w t + R p t) m) (M0 : ℚ) :
    ∃ M, M0 ≤ M ∧ BestBy gap T P (fun t p => w t + (fun p t => if N p t then M else R p t) p t) m := by
  obtain ⟨ha, hav, hbest⟩ := h
  set S : ℕ → ℚ := fun t => |w t| + ∑ p ∈ Finset.range P, |R p t| with hS
  set M := max (max M0 0) (assignmentCost T (fun t p => w t + R p t) m + gap + ∑ t ∈ Finset.range T, S t) with hM
  have same : ∀ m, AvoidsPairs T N m → assignmentCost T (fun t p => w t + (fun p t => if N p t then M else R p t) p t) m =
      assignmentCost T (fun t p => w t + R p t) m := by
    intro m hm
    refine Finset.sum_congr rfl fun t ht => ?_
    rcases hmt : m t with _ | p
    · rfl
    · simp [costOf, hm t (Finset.mem_range.mp ht) p hmt]
  have hM0 : 0 ≤ M := (le_max_right _ _).trans (le_max_left _ _)
  refine ⟨M, (le_max_left _ _).trans (le_max_left _ _), ha, fun other ho hne => ?_⟩
  rw [same m hav]
  by_cases hoa : AvoidsPairs T N other
  · rw [same other hoa]
    exact hbest other ho hoa hne
  · unfold AvoidsPairs at hoa
    push Not at hoa
    obtain ⟨s, hs, p, hsp, hN⟩ := hoa
    have hN' : N p s = true := by simpa using hN
    have hS0 : ∀ t, 0 ≤ S t := fun t => add_nonneg (abs_nonneg _) (Finset.sum_nonneg fun _ _ => abs_nonneg _)
    have each : ∀ t ∈ Finset.range T, (if t = s then M else 0) - S t ≤
        costOf (fun t p => w t + (fun p t => if N p t then M else R p t) p t) t (other t) := by
      intro t ht
      have hsum : 0 ≤ ∑ p ∈ Finset.range P, |R p t| := Finset.sum_nonneg fun _ _ => abs_nonneg _
      have hw := neg_abs_le (w t)
      by_cases hts : t = s
      · subst hts
        rw [hsp]
        simp only [costOf, if_true, hN', hS]
        linarith
      · rw [if_neg hts]
        rcases hot : other t with _ | p'
        · simp only [costOf]
          linarith [hS0 t]
        · simp only [costOf]
          have hp' := ho.lt t (Finset.mem_range.mp ht) p' hot
          have h1 : |R p' t| ≤ ∑ p ∈ Finset.range P, |R p t| :=
            Finset.single_le_sum (f := fun p => |R p t|) (fun _ _ => abs_nonneg _) (Finset.mem_range.mpr hp')
          have h2 := neg_abs_le (R p' t)
          split <;> simp only [hS] <;> linarith
    have total := Finset.sum_le_sum each
    rw [Finset.sum_sub_distrib, Finset.sum_ite_eq' (Finset.range T) s (fun _ => M), if_pos (Finset.mem_range.mpr hs)] at total
    have : assignmentCost T (fun t p => w t + R p t) m + gap + ∑ t ∈ Finset.range T, S t ≤ M := le_max_right _ _
    unfold assignmentCost at *
    linarith

end Verif.Proofs
