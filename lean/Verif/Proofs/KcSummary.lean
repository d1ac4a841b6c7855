import Mathlib.Algebra.BigOperators.Group.Finset.Basic
import Mathlib.Algebra.BigOperators.Group.List.Lemmas
import Verif.Model.KcSummary
import Verif.Proofs.KcResults
import Verif.Proofs.KcIO

/-! Helper lemmas for the printed totals of the assignment program. -/

namespace Verif.Proofs
open Verif Model Spec Num

theorem le_foldl_max : ∀ (l : List ℕ) (s : ℕ), s ≤ l.foldl max s ∧ ∀ t ∈ l, t ≤ l.foldl max s
  | [], s => ⟨le_rfl, by simp⟩
  | a :: l, s => by
    obtain ⟨h1, h2⟩ := le_foldl_max l (max s a)
    refine ⟨by rw [List.foldl_cons]; omega, fun t ht => ?_⟩
    rw [List.foldl_cons]
    rcases List.mem_cons.mp ht with rfl | ht
    · omega
    · exact h2 t ht

theorem uniqueCounts_spec (l : List ℕ) : ((uniqueCounts l).map Prod.fst).Pairwise (· < ·) ∧
    ∀ t n, (t, n) ∈ uniqueCounts l ↔ 0 < n ∧ n = l.count t := by
  constructor
  · unfold uniqueCounts
    rw [List.map_map, show Prod.fst ∘ (fun t => (t, l.count t)) = id from rfl, List.map_id]
    exact List.Pairwise.filter _ List.pairwise_lt_range
  · intro t n
    unfold uniqueCounts
    rw [List.mem_map]
    constructor
    · rintro ⟨a, ha, e⟩
      rw [Prod.mk.injEq] at e
      obtain ⟨rfl, rfl⟩ := e
      have := (List.mem_filter.mp ha).2
      exact ⟨List.count_pos_iff.mpr (by simpa using this), rfl⟩
    · rintro ⟨h, rfl⟩
      have hm := List.count_pos_iff.mp h
      have := (le_foldl_max l 0).2 t hm
      exact ⟨t, List.mem_filter.mpr ⟨List.mem_range.mpr (by omega), by simpa using hm⟩, rfl⟩

theorem removals_sublist {caps : List ℕ} {K : List (ℕ × ℕ × ℕ)} {Q : List ℕ → ℕ → Prop} {sel r : List ℕ} (h : Removals caps K Q sel r) : r.Sublist sel := by
  induction h with
  | done _ => exact List.Sublist.refl _
  | step _ _ _ _ ih => exact ih.trans List.filter_sublist

section
variable {teams : KcTeamsPy} {K : List (ℕ × ℕ × ℕ)} {py : KcPy}

theorem sumTeams_aux (h : TeamTables teams K) {w : ℕ → ℚ} (hw : ∀ t < K.length, py.reward[t]? = some (fin (w t))) :
    ∀ (kept done : List ℕ) (s : Num × List ℕ × List ℤ), (∀ i ∈ kept, i < K.length) → s.1 = fin (done.map w).sum →
    s.2.1 = done.map (fun t => (kindOf K t).2.2) → s.2.2.length = teams.caps.length →
    (∀ d < teams.caps.length, s.2.2[d]? = some (load K done (d + 1) : ℤ)) →
    ∃ loads, loopList kept (fun i s => do
      let r ← py.reward[i]?
      let t ← teams.types[i]?
      let loads ← loopUp teams.caps.length (fun j loads => do
        let row ← teams.weights[j]?
        let w ← row[i]?
        let old ← loads[j]?
        if w ≠ 0 then some (loads.set j (old + (w : ℤ))) else some loads) s.2.2
      some (s.1 + r, s.2.1 ++ [t], loads)) s =
        some (fin ((done ++ kept).map w).sum, (done ++ kept).map (fun t => (kindOf K t).2.2), loads) ∧ loads.length = teams.caps.length ∧
      ∀ d < teams.caps.length, loads[d]? = some (load K (done ++ kept) (d + 1) : ℤ)
  | [], done, s, _, h1, h2, h3, h4 => ⟨s.2.2, by rw [List.append_nil, ← h1, ← h2]; rfl, h3, by simpa using h4⟩
  | i :: kept, done, s, hlt, h1, h2, h3, h4 => by
    have hi := hlt i (by simp)
    obtain ⟨r, a1, a2, a3⟩ := addLoads h hi h3 h4
    have ht : teams.types[i]? = some (kindOf K i).2.2 := by rw [h.types, List.getElem?_map, kindOf_get hi]; rfl
    obtain ⟨loads, k1, k2, k3⟩ := sumTeams_aux h hw kept (done ++ [i]) (s.1 + fin (w i), s.2.1 ++ [(kindOf K i).2.2], r)
      (fun j hj => hlt j (by simp [hj])) (by rw [h1]; simp) (by simp [h2]) a2 (fun d hd => by rw [a3 d hd]; simp [load])
    refine ⟨loads, ?_, k2, by simpa using k3⟩
    simp only [loopList, ht, hw i hi, Option.bind_eq_bind, Option.bind_some]
    simp only [Option.bind_eq_bind] at a1 k1
    rw [a1]
    simp only [Option.bind_some]
    rw [k1]; simp

theorem sumTeams_spec (h : TeamTables teams K) {w : ℕ → ℚ} (hw : ∀ t < K.length, py.reward[t]? = some (fin (w t))) {kept : List ℕ}
    (hlt : ∀ i ∈ kept, i < K.length) : sumTeams py teams kept =
      some (fin (kept.map w).sum, kept.map (fun t => (kindOf K t).2.2), (List.range teams.caps.length).map (fun d => (load K kept (d + 1) : ℤ))) := by
  obtain ⟨loads, h1, h2, h3⟩ := sumTeams_aux h hw kept [] (0, [], List.replicate teams.caps.length 0) hlt rfl rfl (by simp)
    (fun d hd => by simp [hd, load])
  rw [List.nil_append] at h1 h3
  unfold sumTeams
  rw [h1]
  congr 3
  refine List.ext_getElem? fun d => ?_
  by_cases hd : d < teams.caps.length
  · rw [h3 d hd]; simp [hd]
  · rw [List.getElem?_eq_none (by omega), List.getElem?_eq_none (by simp; omega)]

theorem exceeded_iff {caps : List ℕ} {kept : List ℕ} :
    exceeded caps ((List.range caps.length).map (fun d => (load K kept (d + 1) : ℤ))) = true ↔ ∃ u, Over caps K kept u := by
  unfold exceeded
  rw [List.any_eq_true]
  constructor
  · rintro ⟨d, hd, h⟩
    rw [List.mem_range] at hd
    refine ⟨d + 1, by omega, by omega, ?_⟩
    simp only [List.getD_eq_getElem?_getD, List.getElem?_map, List.getElem?_range hd, Option.map_some, Option.getD_some, decide_eq_true_eq] at h ⊢
    simpa using h
  · rintro ⟨u, h1, h2, h3⟩
    refine ⟨u - 1, List.mem_range.mpr (by omega), ?_⟩
    have hd : u - 1 < caps.length := by omega
    simp only [List.getD_eq_getElem?_getD, List.getElem?_map, List.getElem?_range hd, Option.map_some, Option.getD_some, decide_eq_true_eq] at h3 ⊢
    rw [Nat.sub_add_cancel h1]
    exact_mod_cast h3

/-- The sum over pairs, where only the first pair of each kept team counts. -/
theorem first_pairs {v : ℕ × ℕ → ℚ} (body : ℕ × ℕ → Num × List ℕ → Option (Num × List ℕ)) (kept : List ℕ) :
    ∀ (pairs : List (ℕ × ℕ)) (s : ℚ) (used : List ℕ),
    (∀ c ∈ pairs, ∀ st, body c st = if kept.contains c.2 && !st.2.contains c.2 then some (st.1 + fin (v c), st.2 ++ [c.2]) else some st) →
    ∃ u, loopList pairs body (fin s, used) = some (fin (s + ∑ t ∈ kept.toFinset, if t ∈ used then 0 else
      ((pairs.find? (fun c => c.2 == t)).map v).getD 0), u)
  | [], s, used, _ => ⟨used, by simp [loopList]⟩
  | c :: pairs, s, used, hb => by
    have hb' := fun d (hd : d ∈ pairs) => hb d (List.mem_cons_of_mem _ hd)
    rw [loopList, hb c (by simp)]
    by_cases hc : c.2 ∈ kept ∧ c.2 ∉ used
    · obtain ⟨u, hu⟩ := first_pairs body kept pairs (s + v c) (used ++ [c.2]) hb'
      rw [if_pos (by simp [hc.1, hc.2]), Option.bind_some]
      dsimp only
      rw [fin_add, hu]
      refine ⟨u, congrArg (fun z => some (fin z, u)) ?_⟩
      have hm : c.2 ∈ kept.toFinset := by simpa using hc.1
      rw [← Finset.add_sum_erase _ _ hm, ← Finset.add_sum_erase _ _ hm]
      rw [if_pos (by simp), if_neg hc.2]
      simp only [List.find?_cons, beq_self_eq_true, Option.map_some, Option.getD_some]
      rw [zero_add, add_assoc]
      congr 2
      refine Finset.sum_congr rfl fun t ht => ?_
      have hne : ¬ c.2 = t := fun e => (Finset.mem_erase.mp ht).1 e.symm
      have hf : (c.2 == t) = false := by simpa using hne
      simp [hf, Ne.symm hne]
    · obtain ⟨u, hu⟩ := first_pairs body kept pairs s used hb'
      rw [if_neg (by simpa using hc), Option.bind_some, hu]
      refine ⟨u, congrArg (fun z => some (fin (s + z), u)) ?_⟩
      refine Finset.sum_congr rfl fun t ht => ?_
      have ht' : t ∈ kept := by simpa using ht
      by_cases hu : t ∈ used
      · simp [hu]
      · have hne : ¬ c.2 = t := fun e => hc ⟨by rw [e]; exact ht', by rw [e]; exact hu⟩
        simp [hu, hne]

/-- The project of a pair when post-processing is on. -/
theorem weighed_spec {P T : ℕ} {a : Mat Num} {x : ℕ → ℕ → ℚ} (ha : a.Is P T x) {q : ℚ} (hq : q ≤ 0) {ic : List (Option (ℕ × ℕ))}
    (hic : (reusedPairs (matchedPairs (decisionMatrix (fin q) a))).mapM (pickPair a) = some ic) (c : ℕ × ℕ) :
    weighedProject (matchedPairs (decisionMatrix (fin q) a)) (some ic) c =
      some (match usesOf (matchedPairs (decisionMatrix (fin q) a)) c.2 with
        | p0 :: p1 :: _ => (pickOf x (p1, p0)).1
        | _ => c.1) := by
  have hmat : ∀ c ∈ matchedPairs (decisionMatrix (fin q) a), (c.1 < P ∧ c.2 < T) ∧ x c.1 c.2 < q := by
    intro c hc
    obtain ⟨c1, c2, c3⟩ := mem_matchedPairs.mp hc
    have c1' : c.1 < P := by rw [← ha.1]; exact c1
    have c2' : c.2 < T := by rw [← ha.2.1]; exact c2
    have c3' := (decideEntry_nonpos hq _).mp c3
    rw [ha.2.2 _ c1' _ c2'] at c3'
    exact ⟨⟨c1', c2'⟩, by simpa using c3'⟩
  have hic' : ic = (reusedPairs (matchedPairs (decisionMatrix (fin q) a))).map (fun c => some (pickOf x c)) := by
    rw [mapM_some (g := fun c => some (pickOf x c)) (fun c hc => by
      obtain ⟨c1, c2⟩ := mem_reusedPairs hc
      exact pickPair_spec ha (hmat _ c1).1 (hmat _ c2).1 (by have := (hmat _ c1).2; linarith))] at hic
    exact (Option.some.inj hic).symm
  have hpicks : ic.mapM id = some ((reusedPairs (matchedPairs (decisionMatrix (fin q) a))).map (pickOf x)) := by
    rw [hic', mapM_some (g := fun o => o.getD (0, 0))]
    · rw [List.map_map]; rfl
    · intro o ho
      obtain ⟨c, -, rfl⟩ := List.mem_map.mp ho
      rfl
  have hfil : ((reusedPairs (matchedPairs (decisionMatrix (fin q) a))).map (pickOf x)).filter (fun d => d.2 == c.2) =
      (laterUses (usesOf (matchedPairs (decisionMatrix (fin q) a)) c.2)).map (pickOf x) := by
    rw [List.filter_map, ← reusedPairs_of_team]
    congr 1
    refine List.filter_congr fun c hc => ?_
    have := reused_team hc
    simp only [Function.comp, pickOf]
    split_ifs
    · rw [this]
    · rfl
  have hcont : ((reusedPairs (matchedPairs (decisionMatrix (fin q) a))).map (fun c => c.1.2)).contains c.2 = true ↔
      laterUses (usesOf (matchedPairs (decisionMatrix (fin q) a)) c.2) ≠ [] := by
    rw [← reusedPairs_of_team]
    simp only [List.contains_iff_mem, List.mem_map, ne_eq, List.filter_eq_nil_iff, not_forall]
    constructor
    · rintro ⟨c, hc, e⟩; exact ⟨c, hc, by simp [e]⟩
    · rintro ⟨c, hc, e⟩; exact ⟨c, hc, by simpa using e⟩
  unfold weighedProject
  dsimp only
  by_cases hc : ((reusedPairs (matchedPairs (decisionMatrix (fin q) a))).map (fun c => c.1.2)).contains c.2 = true
  · rw [if_pos hc, hpicks]
    simp only [Option.bind_eq_bind, Option.bind_some, hfil]
    have hl := hcont.mp hc
    rcases hu : usesOf (matchedPairs (decisionMatrix (fin q) a)) c.2 with _ | ⟨p0, _ | ⟨p1, l⟩⟩
    · rw [hu] at hl; simp [laterUses] at hl
    · rw [hu] at hl; simp [laterUses] at hl
    · simp only [laterUses, List.map_cons, List.getElem?_cons_zero, Option.bind_some]
  · rw [if_neg hc]
    have hl := not_not.mp (fun hh => hc (hcont.mpr hh))
    rcases hu : usesOf (matchedPairs (decisionMatrix (fin q) a)) c.2 with _ | ⟨p0, _ | ⟨p1, l⟩⟩
    · rfl
    · rfl
    · rw [hu] at hl; simp [laterUses] at hl

/-- The sum over the pairs for any choice of projects. -/
theorem sumPairs_spec {P T : ℕ} {R : ℕ → ℕ → ℚ} (hR : py.rewardProject = table P T (fun p t => fin (R p t))) {pairs : List (ℕ × ℕ)}
    {ic : Option (List (Option (ℕ × ℕ)))} {g : ℕ × ℕ → ℕ} (hg : ∀ c ∈ pairs, weighedProject pairs ic c = some (g c)) (hgP : ∀ c ∈ pairs, g c < P)
    (hT : ∀ c ∈ pairs, c.2 < T) {kept : List ℕ} (hnd : kept.Nodup) {f : ℕ → ℕ}
    (hf : ∀ t ∈ kept, ∃ c, pairs.find? (fun c => c.2 == t) = some c ∧ g c = f t) :
    ∃ u, sumPairs py pairs ic kept = some (fin (kept.map (fun t => R (f t) t)).sum, u) := by
  obtain ⟨u, hu⟩ := first_pairs (v := fun c => R (g c) c.2) (fun c s => do
    let p ← weighedProject pairs ic c
    if kept.contains c.2 && !s.2.contains c.2 then do
      let row ← py.rewardProject[p]?
      let r ← row[c.2]?
      some (s.1 + r, s.2 ++ [c.2])
    else some s) kept pairs 0 [] (fun c hc st => by
      simp only [hg c hc, hR, Option.bind_eq_bind, Option.bind_some, table_getElem? (hgP c hc), listOf_getElem? (hT c hc)])
  refine ⟨u, ?_⟩
  unfold sumPairs
  refine hu.trans ?_
  congr 3
  rw [zero_add, List.sum_toFinset _ hnd]
  congr 1
  refine List.map_congr_left fun t ht => ?_
  obtain ⟨c, h1, h2⟩ := hf t ht
  have hc2 : c.2 = t := by simpa using List.find?_some h1
  simp [h1, h2, hc2]

end

end Verif.Proofs
