import Verif.Proofs.KcCall
import Verif.Proofs.KcResults

/-! The decision and the post-processing of the assignment solver depend only on the order of the beliefs. -/

namespace Verif.Proofs
open Verif Num Model Spec

section decision
variable {q : ℚ} (hq : q ≤ 0) {P T : ℕ} {m m' : Mat Num} (hr : m.rows = P) (hc : m.cols = T) (hr' : m'.rows = P) (hc' : m'.cols = T)
  (hsame : ∀ p < P, ∀ t < T, lt (m'.data p t) (fin q) = lt (m.data p t) (fin q))
include hq hr hc hr' hc' hsame

theorem matchedPairs_congr : matchedPairs (decisionMatrix (fin q) m') = matchedPairs (decisionMatrix (fin q) m) := by
  unfold matchedPairs decisionMatrix
  simp only [hr, hc, hr', hc']
  refine List.flatMap_congr fun p hp => ?_
  congr 1
  refine List.filter_congr fun t ht => ?_
  rw [decide_eq_decide, decideEntry_nonpos hq, decideEntry_nonpos hq, hsame p (List.mem_range.mp hp) t (List.mem_range.mp ht)]

theorem selectedTeams_congr : selectedTeams (decisionMatrix (fin q) m') = selectedTeams (decisionMatrix (fin q) m) := by
  unfold selectedTeams
  rw [matchedPairs_congr hq hr hc hr' hc' hsame]
  simp only [decisionMatrix, hc, hc']

variable (horder : ∀ p < P, ∀ p' < P, ∀ t < T, lt (m.data p t) (fin q) = true → lt (m.data p' t) (fin q) = true →
    lt (m'.data p t) (m'.data p' t) = lt (m.data p t) (m.data p' t))
include horder

theorem pickPair_congr {c : (ℕ × ℕ) × (ℕ × ℕ)} (h : c ∈ reusedPairs (matchedPairs (decisionMatrix (fin q) m))) : pickPair m' c = pickPair m c := by
  obtain ⟨c1, c2⟩ := mem_reusedPairs h
  have ht := reused_team h
  obtain ⟨⟨p, t⟩, ⟨p', t'⟩⟩ := c
  obtain rfl : t' = t := ht
  have b1 := mem_matchedPairs.mp c1
  have b2 := mem_matchedPairs.mp c2
  simp only [decisionMatrix, decideEntry_nonpos hq, hr, hc] at b1 b2
  have big : ∀ x : Num, lt x (fin q) = true → lt x (fin 1000000000) = true := by
    intro x hx
    cases x with
    | fin y => simp at hx ⊢; linarith
    | ninf => rfl
    | nan => cases hx
    | pinf => cases hx
  have e1 := hsame p b1.1 t' b1.2.1
  unfold pickPair
  simp only
  rw [Mat.rd_of_lt (a := m) (i := p) (j := t') (by omega) (by omega), Mat.rd_of_lt (a := m) (i := p') (j := t') (by omega) (by omega),
    Mat.rd_of_lt (a := m') (i := p) (j := t') (by omega) (by omega), Mat.rd_of_lt (a := m') (i := p') (j := t') (by omega) (by omega)]
  simp only [Option.bind_eq_bind, Option.bind_some]
  rw [if_pos (big _ b1.2.2), if_pos (big _ (by rw [e1]; exact b1.2.2))]
  simp only
  rw [horder p' b2.1 p b1.1 t' b1.2.1 b2.2.2 b1.2.2]

end decision

section removal
variable {N : ℕ} {f f' : ℕ → ℚ}

theorem mapM_option_map {α β γ : Type} (h : α → Option β) (g : β → γ) : ∀ l : List α, l.mapM (fun i => (h i).map g) = (l.mapM h).map (List.map g)
  | [] => by simp
  | a :: l => by
    rw [List.mapM_cons, List.mapM_cons, mapM_option_map h g l]
    cases h a <;> cases l.mapM h <;> rfl

theorem mapM_mem {α β : Type} {h : α → Option β} : ∀ {l : List α} {ts : List β}, l.mapM h = some ts → ∀ t ∈ ts, ∃ a ∈ l, h a = some t
  | [], ts, e => by
    simp at e; subst e; simp
  | a :: l, ts, e => by
    rw [List.mapM_cons] at e
    obtain ⟨b, hb, e⟩ := Option.bind_eq_some_iff.mp e
    obtain ⟨bs, hbs, e⟩ := Option.bind_eq_some_iff.mp e
    obtain rfl := Option.some.inj e
    intro t ht
    rcases List.mem_cons.mp ht with rfl | ht
    · exact ⟨a, by simp, hb⟩
    · obtain ⟨c, hc, e⟩ := mapM_mem hbs t ht
      exact ⟨c, by simp [hc], e⟩

/-- The maximum is the value of the same team for both lists of beliefs. -/
theorem pyMax_congr {S ts : List ℕ} (hord : ∀ i ∈ S, ∀ j ∈ S, f i < f j ↔ f' i < f' j) (hts : ∀ t ∈ ts, t ∈ S) :
    (ts = [] ∧ pyMax (ts.map (fun t => fin (f t))) = none ∧ pyMax (ts.map (fun t => fin (f' t))) = none) ∨
    ∃ t ∈ S, pyMax (ts.map (fun t => fin (f t))) = some (fin (f t)) ∧ pyMax (ts.map (fun t => fin (f' t))) = some (fin (f' t)) := by
  cases ts with
  | nil => exact Or.inl ⟨rfl, rfl, rfl⟩
  | cons t ts =>
    right
    simp only [List.map_cons, pyMax, Option.some.injEq]
    have ht := hts t (by simp)
    replace hts : ∀ t ∈ ts, t ∈ S := fun s hs => hts s (by simp [hs])
    induction ts generalizing t with
    | nil => exact ⟨t, ht, rfl, rfl⟩
    | cons s ts ih =>
      simp only [List.map_cons, List.foldl_cons]
      have hs := hts s (by simp)
      have hts' : ∀ t ∈ ts, t ∈ S := fun s hs => hts s (by simp [hs])
      by_cases hlt : f t < f s
      · have hlt' := (hord t ht s hs).mp hlt
        rw [if_pos (by simpa [gt] using hlt), if_pos (by simpa [gt] using hlt')]
        exact ih s hs hts'
      · have hlt' := fun h => hlt ((hord t ht s hs).mpr h)
        rw [if_neg (by simpa [gt] using hlt), if_neg (by simpa [gt] using hlt')]
        exact ih t ht hts'

theorem removeTeam_congr (py : KcTeamsPy) {st : Removal} (hlt : ∀ i ∈ st.sel, i < N) (hord : ∀ i ∈ st.sel, ∀ j ∈ st.sel, f i < f j ↔ f' i < f' j)
    (cands : List ℕ) : removeTeam py (listOf N (fun t => fin (f' t))) st cands = removeTeam py (listOf N (fun t => fin (f t))) st cands := by
  have hbs : ∀ f : ℕ → ℚ, st.sel.mapM (fun i => (listOf N (fun t => fin (f t)))[i]?) = some (st.sel.map (fun t => fin (f t))) := fun f =>
    mapM_some fun i hi => listOf_getElem? (hlt i hi)
  have hcs : ∀ f : ℕ → ℚ, cands.mapM (fun i => (st.sel.map (fun t => fin (f t)))[searchSorted st.sel i]?) =
      (cands.mapM (fun i => st.sel[searchSorted st.sel i]?)).map (List.map (fun t => fin (f t))) := by
    intro f
    rw [← mapM_option_map]
    simp only [List.getElem?_map]
  unfold removeTeam
  simp only [hbs, Option.bind_eq_bind, Option.bind_some, hcs]
  cases hk : cands.mapM (fun i => st.sel[searchSorted st.sel i]?) with
  | none => rfl
  | some ts =>
    simp only [Option.map_some, Option.bind_some]
    have hts : ∀ t ∈ ts, t ∈ st.sel := by
      intro t ht
      obtain ⟨a, -, e⟩ := mapM_mem hk t ht
      exact List.mem_of_getElem? e
    rcases pyMax_congr hord hts with ⟨-, e1, e2⟩ | ⟨t, ht, e1, e2⟩
    · rw [e1, e2]; rfl
    · rw [e1, e2]
      simp only [Option.bind_some]
      have hfind : (st.sel.map (fun t => fin (f' t))).findIdx? (fun b => numEq b (fin (f' t))) =
          (st.sel.map (fun t => fin (f t))).findIdx? (fun b => numEq b (fin (f t))) := by
        rw [List.findIdx?_map, List.findIdx?_map]
        have : ∀ S : List ℕ, (∀ s ∈ S, s ∈ st.sel) → S.findIdx? ((fun b => numEq b (fin (f' t))) ∘ fun t => fin (f' t)) =
            S.findIdx? ((fun b => numEq b (fin (f t))) ∘ fun t => fin (f t)) := by
          intro S hS
          induction S with
          | nil => rfl
          | cons s S ih =>
            have hs := hS s (by simp)
            have e : numEq (fin (f' s)) (fin (f' t)) = numEq (fin (f s)) (fin (f t)) := by
              have h1 := hord s hs t ht
              have h2 := hord t ht s hs
              have : f' s = f' t ↔ f s = f t := by
                constructor
                · intro h
                  rcases lt_trichotomy (f s) (f t) with h' | h' | h'
                  · exact absurd (h1.mp h') (by rw [h]; exact lt_irrefl _)
                  · exact h'
                  · exact absurd (h2.mp h') (by rw [h]; exact lt_irrefl _)
                · intro h
                  rcases lt_trichotomy (f' s) (f' t) with h' | h' | h'
                  · exact absurd (h1.mpr h') (by rw [h]; exact lt_irrefl _)
                  · exact h'
                  · exact absurd (h2.mpr h') (by rw [h]; exact lt_irrefl _)
              simp [numEq, this]
            rw [List.findIdx?_cons, List.findIdx?_cons, ih fun s hs => hS s (by simp [hs])]
            simp only [Function.comp, e]
        exact this st.sel fun _ h => h
      rw [hfind]

theorem removeTeam_sel {py : KcTeamsPy} {b : List Num} {st st' : Removal} {cands : List ℕ} (h : removeTeam py b st cands = some st') :
    ∀ i ∈ st'.sel, i ∈ st.sel := by
  unfold removeTeam at h
  obtain ⟨_, -, h⟩ := Option.bind_eq_some_iff.mp h
  obtain ⟨_, -, h⟩ := Option.bind_eq_some_iff.mp h
  obtain ⟨_, -, h⟩ := Option.bind_eq_some_iff.mp h
  obtain ⟨_, -, h⟩ := Option.bind_eq_some_iff.mp h
  obtain ⟨_, -, h⟩ := Option.bind_eq_some_iff.mp h
  obtain ⟨_, -, h⟩ := Option.bind_eq_some_iff.mp h
  obtain ⟨_, -, h⟩ := Option.bind_eq_some_iff.mp h
  obtain ⟨_, -, h⟩ := Option.bind_eq_some_iff.mp h
  obtain ⟨_, -, h⟩ := Option.bind_eq_some_iff.mp h
  obtain rfl := Option.some.inj h
  intro i hi
  exact (List.mem_filter.mp hi).1

/-- One round, by units or by teams. -/
def removalRound (py : KcTeamsPy) (byTeams : Bool) (b : List Num) : Removal → List ℕ → Option Removal :=
  if byTeams then roundTeams py b else roundDepartments py b

theorem round_congr (py : KcTeamsPy) (byTeams : Bool) {st : Removal} (hlt : ∀ i ∈ st.sel, i < N)
    (hord : ∀ i ∈ st.sel, ∀ j ∈ st.sel, f i < f j ↔ f' i < f' j) (over : List ℕ) :
    removalRound py byTeams (listOf N (fun t => fin (f' t))) st over = removalRound py byTeams (listOf N (fun t => fin (f t))) st over := by
  have h := removeTeam_congr (N := N) py hlt hord
  cases byTeams
  · simp only [removalRound, Bool.false_eq_true, if_false, roundDepartments, h]
  · simp only [removalRound, if_true, roundTeams, h]

theorem round_sel {py : KcTeamsPy} {byTeams : Bool} {b : List Num} {st st' : Removal} {over : List ℕ}
    (h : removalRound py byTeams b st over = some st') : ∀ i ∈ st'.sel, i ∈ st.sel := by
  cases byTeams
  · simp only [removalRound, Bool.false_eq_true, if_false, roundDepartments] at h
    obtain ⟨_, -, h⟩ := Option.bind_eq_some_iff.mp h
    obtain ⟨_, -, h⟩ := Option.bind_eq_some_iff.mp h
    exact removeTeam_sel h
  · simp only [removalRound, if_true, roundTeams] at h
    obtain ⟨_, -, h⟩ := Option.bind_eq_some_iff.mp h
    exact removeTeam_sel h

theorem removalLoop_congr (py : KcTeamsPy) (byTeams : Bool) (fuel : ℕ) {st : Removal} (hlt : ∀ i ∈ st.sel, i < N)
    (hord : ∀ i ∈ st.sel, ∀ j ∈ st.sel, f i < f j ↔ f' i < f' j) :
    removalLoop py (removalRound py byTeams (listOf N (fun t => fin (f' t)))) fuel st =
      removalLoop py (removalRound py byTeams (listOf N (fun t => fin (f t)))) fuel st := by
  induction fuel generalizing st with
  | zero => unfold removalLoop; rfl
  | succ fuel ih =>
    unfold removalLoop
    split
    · rfl
    · simp only [round_congr (N := N) py byTeams hlt hord]
      cases hr : removalRound py byTeams (listOf N (fun t => fin (f t))) st (overloaded py.caps st.loads) with
      | none => rfl
      | some st' =>
        have hs := round_sel hr
        exact ih (fun i hi => hlt i (hs i hi)) fun i hi j hj => hord i (hs i hi) j (hs j hj)

/-- The post-processing depends only on which beliefs are below the threshold and on the order of beliefs. -/
theorem kcPost_congr {q : ℚ} (hq : q ≤ 0) {P T : ℕ} {m m' : Mat Num} (hr : m.rows = P) (hc : m.cols = T) (hr' : m'.rows = P) (hc' : m'.cols = T)
    (hsame : ∀ p < P, ∀ t < T, lt (m'.data p t) (fin q) = lt (m.data p t) (fin q))
    (horder : ∀ p < P, ∀ p' < P, ∀ t < T, lt (m.data p t) (fin q) = true → lt (m.data p' t) (fin q) = true →
      lt (m'.data p t) (m'.data p' t) = lt (m.data p t) (m.data p' t))
    (hlt : T ≤ N) (hord : ∀ i ∈ selectedTeams (decisionMatrix (fin q) m), ∀ j ∈ selectedTeams (decisionMatrix (fin q) m), f i < f j ↔ f' i < f' j)
    (py : KcTeamsPy) (byTeams : Bool) (fuel : ℕ) :
    kcPost py byTeams fuel (fin q) m' (listOf N (fun t => fin (f' t))) = kcPost py byTeams fuel (fin q) m (listOf N (fun t => fin (f t))) := by
  unfold kcPost
  simp only [matchedPairs_congr hq hr hc hr' hc' hsame, selectedTeams_congr hq hr hc hr' hc' hsame]
  have hpick : (reusedPairs (matchedPairs (decisionMatrix (fin q) m))).mapM (pickPair m') =
      (reusedPairs (matchedPairs (decisionMatrix (fin q) m))).mapM (pickPair m) := by
    have : ∀ L : List ((ℕ × ℕ) × (ℕ × ℕ)), (∀ c ∈ L, c ∈ reusedPairs (matchedPairs (decisionMatrix (fin q) m))) →
        L.mapM (pickPair m') = L.mapM (pickPair m) := by
      intro L hL
      induction L with
      | nil => rfl
      | cons c L ih =>
        rw [List.mapM_cons, List.mapM_cons, pickPair_congr hq hr hc hr' hc' hsame horder (hL c (by simp)), ih fun c hc => hL c (by simp [hc])]
    exact this _ fun _ h => h
  rw [hpick]
  have hsel : ∀ i ∈ selectedTeams (decisionMatrix (fin q) m), i < N := by
    intro i hi
    have := List.mem_range.mp (List.mem_filter.mp hi).1
    simp only [decisionMatrix, hc] at this
    omega
  cases ha : analyseTeams py (selectedTeams (decisionMatrix (fin q) m)) with
  | none => rfl
  | some s =>
    obtain ⟨loads, locs⟩ := s
    have hloop := removalLoop_congr (N := N) py byTeams fuel (st := ⟨selectedTeams (decisionMatrix (fin q) m), locs, loads⟩) hsel hord
    unfold removalRound at hloop
    simp only [Option.bind_eq_bind, Option.bind_some, hloop]

end removal

end Verif.Proofs
