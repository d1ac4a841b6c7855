import Verif.Proofs.KcSym
import Verif.Properties.KcCall
import Verif.Properties.SettledKc

/-! # C69: names and units do not matter to the assignment solver -/

namespace Verif.Properties
open Verif Num Spec Model

section
variable {D T P : ℕ} {σ τ π : Equiv.Perm ℕ} {s : ℚ} {wf wf' : ℕ → ℕ → ℕ} {cap cap' : ℕ → ℕ} {w w' : ℕ → ℚ} {R R' : ℕ → ℕ → ℚ}

theorem same_ok (h : KcProblemOk D T P wf cap) (hsame : SameProblem D T P σ τ π s wf wf' cap cap' w w' R R') : KcProblemOk D T P wf' cap' := by
  refine ⟨h.departments, h.projects, fun d hd => ?_, fun d hd t ht => ?_, fun t ht => ?_⟩
  · obtain ⟨d, rfl⟩ := σ.surjective d
    rw [hsame.depts] at hd
    obtain ⟨t, ht, hw⟩ := h.used d hd
    exact ⟨τ t, (hsame.teams t).mpr ht, by rwa [hsame.weight d hd t ht]⟩
  · obtain ⟨d, rfl⟩ := σ.surjective d
    obtain ⟨t, rfl⟩ := τ.surjective t
    rw [hsame.depts] at hd
    rw [hsame.teams] at ht
    rw [hsame.weight d hd t ht, hsame.capacity d hd]
    exact h.fits d hd t ht
  · obtain ⟨t, rfl⟩ := τ.surjective t
    rw [hsame.teams] at ht
    have : depts D wf' (τ t) = (depts D wf t).map σ.toEmbedding := by
      ext d
      obtain ⟨d, rfl⟩ := σ.surjective d
      rw [Proofs.mem_depts_rename hsame ht, Finset.mem_map_equiv, Equiv.symm_apply_apply]
    rw [this, Finset.card_map]
    exact h.two t ht

theorem same_core (hs : 0 < s) (h : KcProblemOk D T P wf cap) (hsame : SameProblem D T P σ τ π s wf wf' cap cap' w w' R R') {flag : Bool} {alpha : ℚ}
    {a raw o y e : ℕ → ℕ → ℕ → ℚ} {c : ℕ → ℕ → ℚ}
    (ht : IsKcTrace D T P wf cap w R flag alpha (some 1000000) (fun d t => if wf d t ≠ 0 then w t else 0) a raw o y e c)
    (hlim : s = 1 ∨ ∀ j, ∀ t < T, c j t < 1000000 ∧ s * c j t < 1000000) (K : ℕ) :
    ∃ (b b' : ℕ → ℚ) (q q' : ℕ → ℕ → ℚ) (m m' : Mat Num),
      kcIteratePy (K + 1) flag alpha (pythonTables D T P wf cap (fun t => fin (w t)) (fun p t => fin (R p t))) = some (listOf T (fun t => fin (b t)), m) ∧
      kcIteratePy (K + 1) flag alpha (pythonTables D T P wf' cap' (fun t => fin (w' t)) (fun p t => fin (R' p t))) = some (listOf T (fun t => fin (b' t)), m') ∧
      m.Is P T q ∧ m'.Is P T q' ∧ (∀ t < T, b' (τ t) = s * b t) ∧ ∀ p < P, ∀ t < T, q' (π p) (τ t) = s * q p t := by
  have h0 : ∀ d < D, ∀ t < T, (if wf' (σ d) (τ t) ≠ 0 then w' (τ t) else 0) = s * (if wf d t ≠ 0 then w t else 0) := by
    intro d hd t htt
    rw [hsame.weight d hd t htt, hsame.teamCost t htt]
    split_ifs <;> simp
  have ht' : ∃ a raw' o' y' e' c', IsKcTrace D T P wf' cap' w' R' flag alpha (some 1000000) (fun d t => if wf' d t ≠ 0 then w' t else 0) a raw' o' y' e' c' ∧
      (∀ j d t, raw' j (σ d) (τ t) = s * raw j d t) ∧ (∀ j p t, o' j (π p) (τ t) = s * o j p t) ∧ (∀ j p t, y' j (π p) (τ t) = s * y j p t) ∧
      ∀ j t, c' j (τ t) = s * c j t := by
    rcases hlim with rfl | hlim
    · have := Proofs.kcTrace_rename one_pos hsame (a0' := fun d t => if wf' d t ≠ 0 then w' t else 0) h0 ht
      rw [Option.map_some, one_mul] at this
      exact ⟨_, _, _, _, _, _, this, by simp, by simp, by simp, by simp⟩
    · have := Proofs.kcTrace_rename hs hsame (a0' := fun d t => if wf' d t ≠ 0 then w' t else 0) h0
        (C11_below_limit_is_textbook ht (fun j t htt => (hlim j t htt).1))
      refine ⟨_, _, _, _, _, _, { this with team := fun j t htt => ?_ }, by simp, by simp, by simp, by simp⟩
      obtain ⟨v, hv, hc⟩ := this.team j t htt
      refine ⟨v, hv, ?_⟩
      have hc' : s * c j (τ.symm t) = v := hc
      have htt' : τ.symm t < T := by rw [← hsame.teams, Equiv.apply_symm_apply]; exact htt
      show s * c j (τ.symm t) = min 1000000 v
      rw [← hc', min_eq_right (hlim j _ htt').2.le]
  obtain ⟨a', raw', o', y', e', c', ht', hr, ho, hy, hc⟩ := ht'
  obtain ⟨m, m1, m2⟩ := C23_call h flag alpha ht K
  obtain ⟨m', m1', m2'⟩ := C23_call (same_ok h hsame) flag alpha ht' K
  refine ⟨_, _, _, _, m, m', m1, m1', m2, m2', fun t htt => ?_, fun p hp t htt => ?_⟩
  · rw [hc, hsame.teamCost t htt, Proofs.sum_depts_rename hsame htt (fun d => damped flag alpha (fun i => raw i d t) K) _ (fun d => ?_)]
    · ring
    · simp only [hr]
      exact Proofs.damped_smul _ _ _ _ _
  · rw [ho, hy, hsame.pairCost p hp t htt]
    ring

/-- C69, names: if departments, teams and projects are renamed (their order changed), the beliefs of `iterate` are renamed with them. -/
theorem C69_names (h : KcProblemOk D T P wf cap) (hsame : SameProblem D T P σ τ π 1 wf wf' cap cap' w w' R R') (flag : Bool) (alpha : ℚ) (K : ℕ) :
    ∃ (b b' : ℕ → ℚ) (q q' : ℕ → ℕ → ℚ) (m m' : Mat Num),
      kcIteratePy (K + 1) flag alpha (pythonTables D T P wf cap (fun t => fin (w t)) (fun p t => fin (R p t))) = some (listOf T (fun t => fin (b t)), m) ∧
      kcIteratePy (K + 1) flag alpha (pythonTables D T P wf' cap' (fun t => fin (w' t)) (fun p t => fin (R' p t))) = some (listOf T (fun t => fin (b' t)), m') ∧
      m.Is P T q ∧ m'.Is P T q' ∧ (∀ t < T, b' (τ t) = b t) ∧ ∀ p < P, ∀ t < T, q' (π p) (τ t) = q p t := by
  obtain ⟨a, raw, o, y, e, c, ht⟩ := C23_trace (w := w) (R := R) h flag alpha
  obtain ⟨b, b', q, q', m, m', h1, h2, h3, h4, h5, h6⟩ := same_core one_pos h hsame ht (Or.inl rfl) K
  exact ⟨b, b', q, q', m, m', h1, h2, h3, h4, fun t ht => by rw [h5 t ht, one_mul], fun p hp t ht => by rw [h6 p hp t ht, one_mul]⟩

/-- C69, units: if all costs are multiplied by `s > 0` and no message to a team reaches the limit 1000000 before or after this, all beliefs are
multiplied by `s`. -/
theorem C69_units (hs : 0 < s) (h : KcProblemOk D T P wf cap) {flag : Bool} {alpha : ℚ} {a raw o y e : ℕ → ℕ → ℕ → ℚ} {c : ℕ → ℕ → ℚ}
    (ht : IsKcTrace D T P wf cap w R flag alpha (some 1000000) (fun d t => if wf d t ≠ 0 then w t else 0) a raw o y e c)
    (hlim : ∀ j, ∀ t < T, c j t < 1000000 ∧ s * c j t < 1000000) (K : ℕ) :
    ∃ (b : ℕ → ℚ) (q q' : ℕ → ℕ → ℚ) (m m' : Mat Num),
      kcIteratePy (K + 1) flag alpha (pythonTables D T P wf cap (fun t => fin (w t)) (fun p t => fin (R p t))) = some (listOf T (fun t => fin (b t)), m) ∧
      kcIteratePy (K + 1) flag alpha (pythonTables D T P wf cap (fun t => fin (s * w t)) (fun p t => fin (s * R p t))) =
        some (listOf T (fun t => fin (s * b t)), m') ∧
      m.Is P T q ∧ m'.Is P T q' ∧ ∀ p < P, ∀ t < T, q' p t = s * q p t := by
  have hsame : SameProblem D T P (Equiv.refl ℕ) (Equiv.refl ℕ) (Equiv.refl ℕ) s wf wf cap cap w (fun t => s * w t) R (fun p t => s * R p t) :=
    ⟨fun _ => Iff.rfl, fun _ => Iff.rfl, fun _ => Iff.rfl, fun _ _ _ _ => rfl, fun _ _ => rfl, fun _ _ => rfl, fun _ _ _ _ => rfl⟩
  obtain ⟨b, b', q, q', m, m', h1, h2, h3, h4, h5, h6⟩ := same_core hs h hsame ht (Or.inr hlim) K
  refine ⟨b, q, q', m, m', h1, ?_, h3, h4, h6⟩
  rw [h2]
  congr 2
  refine List.map_congr_left fun t ht => ?_
  rw [← h5 t (List.mem_range.mp ht)]; rfl

end

theorem post_final {py : KcTeamsPy} {byTeams : Bool} {fuel : ℕ} {threshold : Num} {a a' : Mat Num} {belief : List Num} {out out' : KcPostOut}
    (h : kcPost py byTeams fuel threshold a belief = some out) (h' : kcPost py byTeams fuel threshold a' belief = some out')
    (hsel : selectedTeams (decisionMatrix threshold a) = selectedTeams (decisionMatrix threshold a')) : out.final = out'.final := by
  unfold kcPost at h h'
  simp only [Option.bind_eq_bind, Option.bind_eq_some_iff, hsel] at h h'
  obtain ⟨⟨loads, locs⟩, h1, ic, h2, h3⟩ := h
  obtain ⟨⟨loads', locs'⟩, h1', ic', h2', h3'⟩ := h'
  rw [h1] at h1'
  obtain ⟨rfl, rfl⟩ := Prod.mk.inj (Option.some.inj h1')
  by_cases hx : exceeded py.caps loads
  · rw [if_pos hx] at h3 h3'
    simp only [Option.bind_eq_some_iff] at h3 h3'
    obtain ⟨st, g1, g2⟩ := h3
    obtain ⟨st', g1', g2'⟩ := h3'
    rw [g1] at g1'
    rw [← Option.some.inj g2, ← Option.some.inj g2']
    exact Option.some.inj g1'
  · rw [if_neg hx] at h3 h3'
    rw [← Option.some.inj h3, ← Option.some.inj h3']

section
variable {d : TeamData} {caps types : List ℕ} {combos : List (ℕ × ℕ)} {count : ℕ × ℕ × ℕ → ℕ} {P : ℕ} {π : Equiv.Perm ℕ} {w : ℕ → ℚ} {R R' : ℕ → ℕ → ℚ}
  {flag : Bool} {alpha : ℚ}

/-- C69, whole run: the order of the projects in the input file does not matter.  The beliefs and the kept teams are the same, and without
post-processing every kept team is reported with the same projects under their new names. -/
theorem C69_projects (h : KcCallOk d caps types combos count) (hP : 0 < P) {L : List (ℕ × ℕ × ℕ)} (hL : L = teams combos types count)
    (hπ : Renames P π) (hR : ∀ p < P, ∀ t < L.length, R' (π p) t = R p t) (K : ℕ) {q : ℚ} (hq : q ≤ 0) (post byTeams : Bool) :
    ∃ r r', kcCall d (K + 1) flag alpha post (if byTeams then 2 else 1) (fin q) (inputFile caps types L.length P w R) = some r ∧
      kcCall d (K + 1) flag alpha post (if byTeams then 2 else 1) (fin q) (inputFile caps types L.length P w R') = some r' ∧
      r'.beliefs = r.beliefs ∧ r'.kept = r.kept ∧
      (post = false → r'.entries.length = r.entries.length ∧ ∀ (n : ℕ) x x', r.entries[n]? = some x → r'.entries[n]? = some x' →
        x'.1 = x.1 ∧ x'.2.1 = x.2.1 ∧ x'.2.2.1 = x.2.2.1 ∧ x'.2.2.2.Perm (x.2.2.2.map (fun p => π (p - 1) + 1))) := by
  obtain ⟨a, raw, o, y, e, c, ht⟩ := (C54_call (w := w) (R := R) (flag := flag) (alpha := alpha) h hP hL).1
  have hsame : SameProblem caps.length L.length P (Equiv.refl ℕ) (Equiv.refl ℕ) π 1 (weightOf L) (weightOf L) (fun d => caps.getD d 0) (fun d => caps.getD d 0)
      w w R R' :=
    ⟨fun _ => Iff.rfl, fun _ => Iff.rfl, hπ, fun _ _ _ _ => rfl, fun _ _ => rfl, fun _ _ => (one_mul _).symm,
      fun p hp t htt => by rw [one_mul]; exact hR p hp t htt⟩
  have ht' := Proofs.kcTrace_rename one_pos hsame (a0' := fun d t => if weightOf L d t ≠ 0 then w t else 0) (fun d hd t htt => (one_mul _).symm) ht
  simp only [Option.map_some, one_mul, Equiv.refl_symm, Equiv.refl_apply] at ht'
  have ht'' : TeamTrace caps L P w R' flag alpha a raw (fun j p t => o j (π.symm p) t) (fun j p t => y j (π.symm p) t) (fun j p t => e j (π.symm p) t) c := ht'
  have hpb : ∀ p < P, ∀ t < L.length, pairBelief R' (fun j p t => o j (π.symm p) t) (fun j p t => y j (π.symm p) t) K (π p) t = pairBelief R o y K p t := by
    intro p hp t htt
    unfold pairBelief
    simp only [Equiv.symm_apply_apply]
    rw [hR p hp t htt]
  have hex : ∀ t < L.length, (∃ p < P, pairBelief R' (fun j p t => o j (π.symm p) t) (fun j p t => y j (π.symm p) t) K p t < q) ↔
      ∃ p < P, pairBelief R o y K p t < q := by
    intro t htt
    constructor
    · rintro ⟨p, hp, hlt⟩
      obtain ⟨p, rfl⟩ := π.surjective p
      rw [hπ] at hp
      rw [hpb p hp t htt] at hlt
      exact ⟨p, hp, hlt⟩
    · rintro ⟨p, hp, hlt⟩
      exact ⟨π p, (hπ p).mpr hp, by rwa [hpb p hp t htt]⟩
  have huniq : ∀ l l' : List ℕ, l.Pairwise (· < ·) → l'.Pairwise (· < ·) → (∀ t, t ∈ l ↔ t < L.length ∧ ∃ p < P, pairBelief R o y K p t < q) →
      (∀ t, t ∈ l' ↔ t < L.length ∧ ∃ p < P, pairBelief R' (fun j p t => o j (π.symm p) t) (fun j p t => y j (π.symm p) t) K p t < q) → l' = l := by
    intro l l' hl hl' h1 h2
    refine List.Perm.eq_of_pairwise (le := (· < ·)) (fun a b _ _ h1 h2 => by omega) hl' hl ?_
    refine (List.perm_ext_iff_of_nodup (hl'.imp fun h => h.ne) (hl.imp fun h => h.ne)).mpr fun t => ?_
    rw [h1, h2]
    exact and_congr_right fun htt => hex t htt
  cases post with
  | false =>
    obtain ⟨r, r1, r2, r3, r4, r5⟩ := C54_plain h hP hL ht K (if byTeams then 2 else 1) hq
    obtain ⟨r', r1', r2', r3', r4', r5'⟩ := C54_plain h hP hL ht'' K (if byTeams then 2 else 1) hq
    have hk := huniq _ _ r3 r3' r4 r4'
    refine ⟨r, r', r1, r1', by rw [r2, r2'], hk, fun _ => ⟨by rw [r5, r5', List.length_map, List.length_map, hk], fun n x x' hx hx' => ?_⟩⟩
    rw [r5, List.getElem?_map] at hx
    rw [r5', hk, List.getElem?_map] at hx'
    obtain ⟨t, e1, rfl⟩ := Option.map_eq_some_iff.mp hx
    rw [e1] at hx'
    obtain rfl := Option.some.inj hx'
    have htt := ((r4 t).mp (List.mem_of_getElem? e1)).1
    have hperm : (projectsFor P (pairBelief R' (fun j p t => o j (π.symm p) t) (fun j p t => y j (π.symm p) t) K) q t).Perm
        ((projectsFor P (pairBelief R o y K) q t).map π) := by
      refine (List.perm_ext_iff_of_nodup (List.Nodup.filter _ List.nodup_range) ((List.Nodup.filter _ List.nodup_range).map π.injective)).mpr fun p => ?_
      obtain ⟨p, rfl⟩ := π.surjective p
      rw [List.mem_map_of_injective π.injective]
      simp only [projectsFor, List.mem_filter, List.mem_range, decide_eq_true_eq]
      rw [hπ]
      exact and_congr_right fun hp => by rw [hpb p hp t htt]
    refine ⟨rfl, rfl, ?_, ?_⟩
    · simp only [List.map_const']
      rw [hperm.length_eq, List.length_map]
    · refine (hperm.map (· + 1)).trans ?_
      rw [List.map_map, List.map_map]
      exact List.Perm.of_eq (List.map_congr_left fun p _ => by simp)
  | true =>
    obtain ⟨r, sel, r1, r2, r3, r4, -⟩ := (C54_call (flag := flag) (alpha := alpha) h hP hL).2 a raw o y e c ht K q byTeams hq
    obtain ⟨r', sel', r1', r2', r3', r4', -⟩ := (C54_call (flag := flag) (alpha := alpha) h hP hL).2 a raw _ _ _ c ht'' K q byTeams hq
    refine ⟨r, r', r1, r1', by rw [r2, r2'], ?_, fun e => by cases e⟩
    obtain ⟨hprob, T, hgen, hpairs, hT, hinit⟩ := call_start (w := w) (R := R) h hP hL
    obtain ⟨-, T', hgen', -, -, hinit'⟩ := call_start (w := w) (R := R') h hP hL
    obtain rfl : T = T' := by rw [hgen] at hgen'; exact Option.some.inj hgen'
    obtain ⟨m, hm, hm'⟩ := C23_call hprob flag alpha ht K
    obtain ⟨m', hn, hn'⟩ := C23_call hprob flag alpha ht'' K
    have hb : (if (if byTeams then 2 else 1) = 1 then some false else if (if byTeams then 2 else 1) = 2 then some true else none) =
        some byTeams := by cases byTeams <;> rfl
    unfold kcCall at r1 r1'
    simp only [hinit, hm, Option.bind_eq_bind, Option.bind_some, if_true, hb, Option.bind_eq_some_iff] at r1
    simp only [hinit', hn, Option.bind_eq_bind, Option.bind_some, if_true, hb, Option.bind_eq_some_iff] at r1'
    obtain ⟨out, p1, en, p2, p3⟩ := r1
    obtain ⟨out', p1', en', p2', p3'⟩ := r1'
    have hs : IsSelection m q (selectedTeams (decisionMatrix (fin q) m)) := (C31_nonpositive_partial hq m).2.2
    have hs' : IsSelection m' q (selectedTeams (decisionMatrix (fin q) m')) := (C31_nonpositive_partial hq m').2.2
    have hsel := huniq _ _ hs.1 hs'.1 (fun t => by
      rw [hs.2, hm'.1, hm'.2.1]
      refine and_congr_right fun htt => exists_congr fun p => and_congr_right fun hp => ?_
      rw [hm'.2.2 p hp t htt]; simp [pairBelief]) (fun t => by
      rw [hs'.2, hn'.1, hn'.2.1]
      refine and_congr_right fun htt => exists_congr fun p => and_congr_right fun hp => ?_
      rw [hn'.2.2 p hp t htt]; simp [pairBelief])
    have := post_final p1 p1' hsel.symm
    rw [← Option.some.inj p3, ← Option.some.inj p3']
    exact congrArg Removal.sel this.symm

end

/-- One department of capacity 2, two teams of weights 1 and 2, two projects; the second problem has teams and projects in the other order. -/
example : KcProblemOk 1 2 2 (fun _ t => t + 1) (fun _ => 2) ∧
    SameProblem 1 2 2 (Equiv.refl ℕ) (Equiv.swap 0 1) (Equiv.swap 0 1) 1 (fun _ t => t + 1) (fun _ t => 2 - t) (fun _ => 2) (fun _ => 2)
      (fun t => t) (fun t => 1 - t) (fun p t => p + 10 * t) (fun p t => (1 - p) + 10 * (1 - t)) := by
  have hsw : ∀ i : ℕ, Equiv.swap 0 1 i < 2 ↔ i < 2 := by
    intro i
    rw [Equiv.swap_apply_def]
    split_ifs <;> omega
  have hv : Equiv.swap 0 1 0 = 1 ∧ Equiv.swap 0 1 1 = (0 : ℕ) := ⟨Equiv.swap_apply_left 0 1, Equiv.swap_apply_right 0 1⟩
  refine ⟨⟨by omega, by omega, fun d _ => ⟨0, by omega, by simp⟩, fun d _ t ht => by show t + 1 ≤ 2; omega, fun t _ => ?_⟩,
    ⟨fun _ => Iff.rfl, hsw, hsw, fun d _ t ht => ?_, fun _ _ => rfl, fun t ht => ?_, fun p hp t ht => ?_⟩⟩
  · exact (Finset.card_filter_le _ _).trans (by simp)
  · interval_cases t <;> simp [hv.1, hv.2]
  · interval_cases t <;> simp [hv.1, hv.2]
  · interval_cases t <;> interval_cases p <;> simp [hv.1, hv.2]

set_option synthInstance.maxSize 1000 in
/-- The input of the example of C54 with the first two projects exchanged, in the iteration where a team is removed. -/
example : (kcCall flatData 2 false 0 true 1 (fin 0) c54Load).map (fun r => (r.beliefs, r.kept)) =
    (kcCall flatData 2 false 0 true 1 (fin 0) { c54Load with pairCosts :=
      [[fin 1, fin (-8), fin (-7)], [fin (-4), fin (-7), fin (-7)], [fin (-9), fin (-6), fin (-7)], [fin (-14), fin (-5), fin (-7)]] }).map
      (fun r => (r.beliefs, r.kept)) ∧
    (kcCall flatData 2 false 0 true 1 (fin 0) c54Load).map (fun r => r.kept) = some [3] := by decide +kernel

/-- The problem of the example of C67 with costs in thousandths. -/
example (K : ℕ) : ∃ (b : ℕ → ℚ) (m m' : Mat Num),
    kcIteratePy (K + 1) false 0 (pythonTables 1 3 2 (weightOf c67Teams) (fun d => [2].getD d 0) (fun t => fin (c67w t)) (fun p t => fin (c67R p t))) =
      some (listOf 3 (fun t => fin (b t)), m) ∧
    kcIteratePy (K + 1) false 0 (pythonTables 1 3 2 (weightOf c67Teams) (fun d => [2].getD d 0) (fun t => fin (1000 * c67w t)) (fun p t => fin (1000 * c67R p t))) =
      some (listOf 3 (fun t => fin (1000 * b t)), m') := by
  obtain ⟨b, q, q', m, m', h1, h2, -⟩ := C69_units (s := 1000) (by norm_num) (call_start (w := c67w) (R := c67R) c67_ok (P := 2) (by norm_num) (L := c67Teams) (by decide)).1
    c67_trace (fun j t ht => by revert t; decide +kernel) K
  exact ⟨b, m, m', h1, h2⟩

/-- Without the restriction of `C69_units` the unit matters: the belief for cost 2000000 is not twice that for cost 1000000. -/
theorem C69_limit_matters :
    (kcIteratePy 1 false 0 (pythonTables 1 1 1 (fun _ _ => 1) (fun _ => 1) (fun _ => fin 0) (fun _ _ => fin 1000000))).map (fun r => r.1) = some [fin 1000000] ∧
    (kcIteratePy 1 false 0 (pythonTables 1 1 1 (fun _ _ => 1) (fun _ => 1) (fun _ => fin 0) (fun _ _ => fin 2000000))).map (fun r => r.1) = some [fin 1000000] := by
  decide +kernel

end Verif.Properties
