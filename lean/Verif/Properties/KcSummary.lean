import Verif.Proofs.KcSummary
import Verif.Properties.KcCall

/-! # C94: the totals printed by the assignment program -/

namespace Verif.Properties
open Verif Num Spec Model

/-- The project with which a team is counted: its only one; otherwise with post-processing the better one of its first two projects (the second one if
they are equal), and without post-processing its first one. -/
def countedProject (post : Bool) (P : ℕ) (x : ℕ → ℕ → ℚ) (q : ℚ) (t : ℕ) : ℕ :=
  match projectsFor P x q t with
  | [] => 0
  | [p] => p
  | p0 :: p1 :: _ => if post = true ∧ ¬ x p0 t < x p1 t then p1 else p0

/-- What the printed lines should say if the teams `kept` of kinds `L` are kept: minus their cost, what they take from the units, whether that exceeds
a capacity, how many there are of each type and in total, and the cost of their projects. -/
structure SummaryOk (caps : List ℕ) (L : List (ℕ × ℕ × ℕ)) (P : ℕ) (w : ℕ → ℚ) (R : ℕ → ℕ → ℚ) (project : ℕ → ℕ) (kept : List ℕ) (s : KcSummary) : Prop where
  value : s.value = fin (-(kept.map w).sum)
  loads : s.loads = (List.range caps.length).map (fun u => (load L kept (u + 1) : ℤ))
  over : s.over = true ↔ ∃ u, Over caps L kept u
  types_ascending : (s.types.map Prod.fst).Pairwise (· < ·)
  types : ∀ ty n, (ty, n) ∈ s.types ↔ 0 < n ∧ n = (kept.filter (fun t => (L.getD t (0, 0, 0)).2.2 = ty)).length
  numTeams : s.numTeams = kept.length
  numProjects : s.numProjects = kept.length
  allMatched : s.allMatched = true ↔ kept.length = P
  weight : s.weight = fin (kept.map (fun t => R (project t) t)).sum

/-- The message of an at-most-one constraint is at least minus every other input. -/
theorem message_ge {T : ℕ} {x : ℕ → ℚ} {t s : ℕ} {y : ℚ} (h : IsMessage (Finset.range T) AtMostOne x t (fin y)) (hs : s < T) (hne : s ≠ t) :
    -x s ≤ y := by
  obtain ⟨a, b, ha, hb, e⟩ := h
  have hsm : x s ∈ costs (Finset.range T) AtMostOne x (fun S => t ∉ S) :=
    ⟨{s}, by simpa using hs, by intro i hi j hj; simp at hi hj; rw [hi, hj], by simpa using Ne.symm hne, by simp [cost]⟩
  rcases hb with ⟨hb, -⟩ | ⟨b, rfl, hb⟩
  · rw [hb] at hsm; cases hsm
  rcases ha with ⟨-, rfl⟩ | ⟨a, rfl, ha⟩
  · rw [show (pinf - fin b - fin (x t) : Num) = pinf from rfl] at e; cases e
  have h1 : a = x t := by
    obtain ⟨S, -, hS, htS, rfl⟩ := ha.1
    have : S = {t} := by
      ext i; constructor
      · intro hi; simpa using hS i hi t htS
      · intro hi; simp at hi; rw [hi]; exact htS
    simp [this, cost]
  have h2 := hb.2 hsm
  simp at e
  linarith

section
variable {d : TeamData} {caps types : List ℕ} {combos : List (ℕ × ℕ)} {count : ℕ × ℕ × ℕ → ℕ} {P : ℕ} {w : ℕ → ℚ} {R : ℕ → ℕ → ℚ}
  {flag : Bool} {alpha : ℚ} {L : List (ℕ × ℕ × ℕ)} {a raw o y e : ℕ → ℕ → ℕ → ℚ} {c : ℕ → ℕ → ℚ}

/-- C94, projects: after every iteration at most one team has a belief below the threshold for a project. -/
theorem C94_one_team (htr : TeamTrace caps L P w R flag alpha a raw o y e c) (K : ℕ) {q : ℚ} (hq : q ≤ 0) {p t t' : ℕ} (hp : p < P) (ht : t < L.length)
    (ht' : t' < L.length) (h : pairBelief R o y K p t < q) (h' : pairBelief R o y K p t' < q) : t = t' := by
  by_contra hne
  have h1 := message_ge (htr.project K p hp t ht) ht' (Ne.symm hne)
  have h2 := message_ge (htr.project K p hp t' ht') ht hne
  unfold pairBelief at h h'
  linarith

theorem summary_spec {T : Teams} (hT : Proofs.TeamTables (analysisData caps combos T) L) {m : Mat Num} {x : ℕ → ℕ → ℚ} (hm : m.Is P L.length x) {q : ℚ} (hq : q ≤ 0)
    (post : Bool) {ic : List (Option (ℕ × ℕ))} (hic : post = true → (reusedPairs (matchedPairs (decisionMatrix (fin q) m))).mapM (pickPair m) = some ic)
    {kept : List ℕ} (hasc : kept.Pairwise (· < ·)) (hk : ∀ t ∈ kept, t < L.length ∧ ∃ p < P, x p t < q) :
    ∃ s, kcSummary (pythonTables caps.length L.length P (weightOf L) (fun d => caps.getD d 0) (fun t => fin (w t)) (fun p t => fin (R p t)))
        (analysisData caps combos T) (matchedPairs (decisionMatrix (fin q) m)) (if post then some ic else none) kept = some s ∧
      SummaryOk caps L P w R (countedProject post P x q) kept s := by
  set M := matchedPairs (decisionMatrix (fin q) m) with hM
  have hlt : ∀ t ∈ kept, t < L.length := fun t ht => (hk t ht).1
  have h1 := Proofs.sumTeams_spec (py := pythonTables caps.length L.length P (weightOf L) (fun d => caps.getD d 0) (fun t => fin (w t))
    (fun p t => fin (R p t))) hT (w := w) (fun t ht => Proofs.listOf_getElem? ht) hlt
  have huse : ∀ t < L.length, M.filter (fun c => c.2 == t) = (projectsFor P x q t).map (fun i => (i, t)) := by
    intro t ht
    have hu := Proofs.usesOf_matched (decisionMatrix (fin q) m) (show t < (decisionMatrix (fin q) m).cols by
      rw [show (decisionMatrix (fin q) m).cols = m.cols from rfl, hm.2.1]; exact ht)
    unfold Proofs.usesOf at hu
    rw [hM, hu]
    unfold projectsFor
    rw [show (decisionMatrix (fin q) m).rows = P from hm.1]
    congr 1
    refine List.filter_congr fun i hi => ?_
    have : (decisionMatrix (fin q) m).data i t = fin 1 ↔ x i t < q := by
      show decideEntry (fin q) (m.data i t) = fin 1 ↔ _
      rw [Proofs.decideEntry_nonpos hq, hm.2.2 i (List.mem_range.mp hi) t ht]; simp
    simp [this]
  have hMlt : ∀ c ∈ M, c.1 < P ∧ c.2 < L.length := by
    intro c hc
    obtain ⟨c1, c2, -⟩ := Proofs.mem_matchedPairs.mp hc
    exact ⟨by rw [← hm.1]; exact c1, by rw [← hm.2.1]; exact c2⟩
  let g : ℕ × ℕ → ℕ := fun c => if post then
      (match Proofs.usesOf M c.2 with
        | p0 :: p1 :: _ => (Proofs.pickOf x (p1, p0)).1
        | _ => c.1)
    else c.1
  have hg : ∀ c ∈ M, weighedProject M (if post then some ic else none) c = some (g c) := by
    intro c _
    cases post with
    | false => rfl
    | true => exact Proofs.weighed_spec hm hq (hic rfl) c
  have hgP : ∀ c ∈ M, g c < P := by
    intro c hc
    cases post with
    | false => exact (hMlt c hc).1
    | true =>
      show (match Proofs.usesOf M c.2 with | p0 :: p1 :: _ => (Proofs.pickOf x (p1, p0)).1 | _ => c.1) < P
      rcases hu : Proofs.usesOf M c.2 with _ | ⟨p0, _ | ⟨p1, l⟩⟩
      · exact (hMlt c hc).1
      · exact (hMlt c hc).1
      · have m0 : p0 ∈ Proofs.usesOf M c.2 := by rw [hu]; simp
        have m1 : p1 ∈ Proofs.usesOf M c.2 := by rw [hu]; simp
        have := (hMlt p0 (List.mem_of_mem_filter m0)).1
        have := (hMlt p1 (List.mem_of_mem_filter m1)).1
        simp only [Proofs.pickOf]
        split_ifs <;> assumption
  have hnd : kept.Nodup := hasc.imp fun h => h.ne
  obtain ⟨u, h2⟩ := Proofs.sumPairs_spec (py := pythonTables caps.length L.length P (weightOf L) (fun d => caps.getD d 0) (fun t => fin (w t))
    (fun p t => fin (R p t))) (P := P) (T := L.length) (R := R) rfl hg hgP (fun c hc => (hMlt c hc).2) hnd (f := countedProject post P x q) (by
      intro t ht
      obtain ⟨htL, p, hp, hlt⟩ := hk t ht
      have hu := huse t htL
      rw [← List.head?_filter, hu]
      have hne : projectsFor P x q t ≠ [] := by
        intro e
        have : p ∈ projectsFor P x q t := by simp [projectsFor, hp, hlt]
        rw [e] at this; cases this
      unfold countedProject
      rcases hpr : projectsFor P x q t with _ | ⟨p0, _ | ⟨p1, l⟩⟩
      · exact absurd hpr hne
      · refine ⟨(p0, t), rfl, ?_⟩
        have : Proofs.usesOf M t = [(p0, t)] := by unfold Proofs.usesOf; rw [hu, hpr]; rfl
        cases post <;> simp [g, this]
      · refine ⟨(p0, t), rfl, ?_⟩
        have : Proofs.usesOf M t = (p0, t) :: (p1, t) :: l.map (fun i => (i, t)) := by unfold Proofs.usesOf; rw [hu, hpr]; rfl
        cases post with
        | false => simp [g]
        | true =>
          simp only [g, if_true, this, Proofs.pickOf, true_and]
          split_ifs <;> simp_all)
  unfold kcSummary
  rw [h1]
  simp only [Option.bind_eq_bind, Option.bind_some, h2]
  refine ⟨_, rfl, rfl, rfl, Proofs.exceeded_iff, (Proofs.uniqueCounts_spec _).1, fun ty n => ?_, rfl, rfl, ?_, rfl⟩
  · rw [(Proofs.uniqueCounts_spec _).2]
    refine and_congr_right fun _ => ?_
    rw [List.count_eq_countP, List.countP_map, List.countP_eq_length_filter]
    rw [show (fun t => decide ((L.getD t (0, 0, 0)).2.2 = ty)) = ((fun x => x == ty) ∘ fun t => (Proofs.kindOf L t).2.2) from rfl]
  · simp [pythonTables]

/-- C94, whole runs: the printed totals are those of the teams that are kept. -/
theorem C94_printed (h : KcCallOk d caps types combos count) (hP : 0 < P) (hL : L = teams combos types count)
    (htr : TeamTrace caps L P w R flag alpha a raw o y e c) (K : ℕ) {q : ℚ} (hq : q ≤ 0) (post byTeams : Bool) :
    ∃ r s, kcCall d (K + 1) flag alpha post (if byTeams then 2 else 1) (fin q) (inputFile caps types L.length P w R) = some r ∧
      kcPrinted d (K + 1) flag alpha post (if byTeams then 2 else 1) (fin q) (inputFile caps types L.length P w R) = some s ∧
      SummaryOk caps L P w R (countedProject post P (pairBelief R o y K) q) r.kept s := by
  obtain ⟨hprob, T, hgen, hpairs, hT, hinit⟩ := call_start (w := w) (R := R) h hP hL
  obtain ⟨m, hm, hm'⟩ := C23_call hprob flag alpha htr K
  have hm'' : m.Is P L.length (pairBelief R o y K) := hm'
  have hs : IsSelection m q (selectedTeams (decisionMatrix (fin q) m)) := (C31_nonpositive_partial hq m).2.2
  have hbelow : ∀ t ∈ selectedTeams (decisionMatrix (fin q) m), t < L.length ∧ ∃ p < P, pairBelief R o y K p t < q := by
    intro t ht
    obtain ⟨h1, p, h2, h3⟩ := (hs.2 t).mp ht
    rw [hm''.2.1] at h1
    rw [hm''.1] at h2
    exact ⟨h1, p, h2, by rw [hm''.2.2 p h2 t h1] at h3; simpa using h3⟩
  set B := teamBelief caps L w flag alpha raw c K with hB
  have hm1 : kcIteratePy (K + 1) flag alpha (pythonTables caps.length L.length P (weightOf L) (fun d => caps.getD d 0)
      (fun t => fin (w t)) (fun p t => fin (R p t))) = some (listOf L.length (fun t => fin (B t)), m) := hm
  cases post with
  | true =>
    obtain ⟨T1, n1, g1, c1, p1⟩ := C44_report (d := d) hpairs h.known_types h.roomy
    obtain rfl : T = T1 := by rw [hgen] at g1; exact Option.some.inj g1
    rw [← Proofs.teams_congr h.counts c1, ← hL] at p1
    obtain ⟨out, entries, k1, k2, -, -⟩ := p1 byTeams P m (pairBelief R o y K) (listOf L.length (fun t => fin (B t))) q hq hm''
      (by simp [listOf]) (by simp [listOf]) trivial
    obtain ⟨out', l1, l2, l3, l4, -⟩ := Proofs.kcPost_spec (belief := listOf L.length (fun t => fin (B t))) hT
      (Proofs.bel_ne_nan (by simp [listOf]) (by simp [listOf])) hm''.2.1 byTeams (le_refl L.length) (fin q)
    rw [k1] at l1
    obtain rfl : out = out' := Option.some.inj l1
    obtain ⟨s, s1, s2⟩ := summary_spec (w := w) (R := R) hT hm'' hq true (fun _ => l4) l2.asc (fun t ht => hbelow t (l3.subset ht))
    have e1 : (pythonTables caps.length L.length P (weightOf L) (fun d => caps.getD d 0) (fun t => fin (w t)) (fun p t => fin (R p t))).numTeams =
      L.length := rfl
    have e2 : (if (if byTeams then 2 else 1) = 1 then some false else if (if byTeams then 2 else 1) = 2 then some true else none) =
        some byTeams := by cases byTeams <;> rfl
    refine ⟨⟨listOf L.length (fun t => fin (B t)), out.final.sel, entries⟩, s, ?_, ?_, s2⟩
    · unfold kcCall
      simp only [hinit, hm1, Option.bind_eq_bind, Option.bind_some, if_true, e1, e2, k1, k2]
    · unfold kcPrinted
      simp only [hinit, hm1, Option.bind_eq_bind, Option.bind_some, if_true, e1, e2, k1, k2]
      exact s1
  | false =>
    obtain ⟨r, r1, -⟩ := C54_plain h hP hL htr K (if byTeams then 2 else 1) hq
    obtain ⟨s, s1, s2⟩ := summary_spec (w := w) (R := R) (ic := []) hT hm'' hq false (by simp) hs.1 hbelow
    have r1' := r1
    unfold kcCall at r1'
    simp only [hinit, hm1, Option.bind_eq_bind, Option.bind_some, Bool.false_eq_true, if_false] at r1'
    obtain ⟨⟨loads, locs⟩, q1, r2⟩ := Option.bind_eq_some_iff.mp r1'
    obtain ⟨entries, q2, r3⟩ := Option.bind_eq_some_iff.mp r2
    refine ⟨r, s, r1, ?_, ?_⟩
    · unfold kcPrinted
      simp only [hinit, hm1, Option.bind_eq_bind, Option.bind_some, Bool.false_eq_true, if_false, q1]
      dsimp only at q2
      rw [q2, Option.bind_some]
      exact s1
    · rw [← Option.some.inj r3]
      exact s2

/-- C94, agreement with the list of teams: with post-processing every kept team is listed with one pair, its counted project; no project is listed
twice; and the program says that all projects are matched exactly if every project is listed. -/
theorem C94_listed (h : KcCallOk d caps types combos count) (hP : 0 < P) (hL : L = teams combos types count)
    (htr : TeamTrace caps L P w R flag alpha a raw o y e c) (K : ℕ) {q : ℚ} (hq : q ≤ 0) (byTeams : Bool) {r : KcResult} {s : KcSummary}
    (hr : kcCall d (K + 1) flag alpha true (if byTeams then 2 else 1) (fin q) (inputFile caps types L.length P w R) = some r)
    (hs : kcPrinted d (K + 1) flag alpha true (if byTeams then 2 else 1) (fin q) (inputFile caps types L.length P w R) = some s) :
    r.entries = r.kept.map (fun t => (((L.getD t (0, 0, 0)).1, (L.getD t (0, 0, 0)).2.1), (L.getD t (0, 0, 0)).2.2, [t + 1],
      [countedProject true P (pairBelief R o y K) q t + 1])) ∧
    (r.kept.map (countedProject true P (pairBelief R o y K) q)).Nodup ∧ s.numProjects = r.entries.length ∧ s.over = false ∧
    (s.allMatched = true ↔ ∀ p < P, ∃ en ∈ r.entries, en.2.2.2 = [p + 1]) := by
  obtain ⟨r', s', h1, h2, h3⟩ := C94_printed h hP hL htr K hq true byTeams
  rw [hr] at h1; obtain rfl := Option.some.inj h1
  rw [hs] at h2; obtain rfl := Option.some.inj h2
  obtain ⟨r', sel, g1, -, g2, g3, g4, g5, g6, g7⟩ := (C54_call (flag := flag) (alpha := alpha) h hP hL).2 a raw o y e c htr K q byTeams hq
  rw [hr] at g1; obtain rfl := Option.some.inj g1
  have hsub : r.kept.Sublist sel := Proofs.removals_sublist g4
  have hk : ∀ t ∈ r.kept, t < L.length ∧ countedProject true P (pairBelief R o y K) q t < P ∧
      pairBelief R o y K (countedProject true P (pairBelief R o y K) q t) t < q := by
    intro t ht
    obtain ⟨htL, p, hp, hlt⟩ := (g3 t).mp (hsub.subset ht)
    have hmem : ∀ p ∈ projectsFor P (pairBelief R o y K) q t, p < P ∧ pairBelief R o y K p t < q := by
      intro p hp
      have := List.mem_filter.mp hp
      exact ⟨List.mem_range.mp this.1, by simpa using this.2⟩
    have hin : p ∈ projectsFor P (pairBelief R o y K) q t := by simp [projectsFor, hp, hlt]
    refine ⟨htL, ?_⟩
    unfold countedProject
    rcases hpr : projectsFor P (pairBelief R o y K) q t with _ | ⟨p0, _ | ⟨p1, l⟩⟩
    · rw [hpr] at hin; cases hin
    · exact hmem p0 (by rw [hpr]; simp)
    · dsimp only
      split_ifs
      · exact hmem p1 (by rw [hpr]; simp)
      · exact hmem p0 (by rw [hpr]; simp)
  have hone : ∀ t ∈ r.kept, teamsFor L.length (pairBelief R o y K) q (countedProject true P (pairBelief R o y K) q t) = [t] := by
    intro t ht
    obtain ⟨k1, k2, k3⟩ := hk t ht
    unfold teamsFor
    refine List.perm_singleton.mp ((List.perm_ext_iff_of_nodup (List.Nodup.filter _ List.nodup_range) (by simp)).mpr fun i => ?_)
    simp only [List.mem_filter, List.mem_range, decide_eq_true_eq, List.mem_singleton]
    exact ⟨fun hi => C94_one_team htr K hq k2 hi.1 k1 hi.2 k3, fun hi => by rw [hi]; exact ⟨k1, k3⟩⟩
  have hent : r.entries = r.kept.map (fun t => (((L.getD t (0, 0, 0)).1, (L.getD t (0, 0, 0)).2.1), (L.getD t (0, 0, 0)).2.2, [t + 1],
      [countedProject true P (pairBelief R o y K) q t + 1])) := by
    refine List.ext_getElem? fun n => ?_
    rw [List.getElem?_map]
    cases hn : r.kept[n]? with
    | none => rw [Option.map_none]; rw [List.getElem?_eq_none_iff] at hn ⊢; omega
    | some t =>
      have ht := List.mem_of_getElem? hn
      obtain ⟨ts, ps, ⟨-, hr⟩, he⟩ := g7 n t hn
      rw [he, Option.map_some]
      have h1 := hone t ht
      unfold countedProject at h1 ⊢
      rcases hr with ⟨p, q1, rfl, rfl⟩ | ⟨p0, p1, l, p, q1, q2, rfl, rfl⟩
      · rw [q1]
      · rw [q1] at h1 ⊢
        dsimp only at h1 ⊢
        have hp : (if (true = true) ∧ ¬ pairBelief R o y K p0 t < pairBelief R o y K p1 t then p1 else p0) = p := by
          rw [q2]; split_ifs <;> simp_all
        rw [hp] at h1 ⊢
        rw [h1]
        rfl
  have hnd : r.kept.Nodup := hsub.nodup (g2.imp fun h => h.ne)
  have hinj : ∀ t ∈ r.kept, ∀ t' ∈ r.kept, countedProject true P (pairBelief R o y K) q t = countedProject true P (pairBelief R o y K) q t' → t = t' := by
    intro t ht t' ht' e
    obtain ⟨k1, k2, k3⟩ := hk t ht
    obtain ⟨k1', k2', k3'⟩ := hk t' ht'
    rw [← e] at k3'
    exact C94_one_team htr K hq k2 k1 k1' k3 k3'
  have hnd' := List.Nodup.map_on hinj hnd
  refine ⟨hent, hnd', by rw [h3.numProjects, hent, List.length_map], ?_, ?_⟩
  · rw [Bool.eq_false_iff, ne_eq, h3.over]
    rintro ⟨u, hu⟩
    exact g5 u hu
  · rw [h3.allMatched, hent]
    have hfin : (r.kept.map (countedProject true P (pairBelief R o y K) q)).toFinset ⊆ Finset.range P := by
      intro p hp
      obtain ⟨t, ht, rfl⟩ := List.mem_map.mp (List.mem_toFinset.mp hp)
      exact Finset.mem_range.mpr (hk t ht).2.1
    have hcard : (r.kept.map (countedProject true P (pairBelief R o y K) q)).toFinset.card = r.kept.length := by
      rw [List.toFinset_card_of_nodup hnd', List.length_map]
    constructor
    · intro e p hp
      have := Finset.eq_of_subset_of_card_le hfin (by rw [hcard, Finset.card_range, e])
      have hp' := this ▸ Finset.mem_range.mpr hp
      obtain ⟨t, ht, rfl⟩ := List.mem_map.mp (List.mem_toFinset.mp hp')
      exact ⟨_, List.mem_map.mpr ⟨t, ht, rfl⟩, rfl⟩
    · intro hall
      refine le_antisymm (by rw [← hcard]; simpa using Finset.card_le_card hfin) ?_
      have : Finset.range P ⊆ (r.kept.map (countedProject true P (pairBelief R o y K) q)).toFinset := by
        intro p hp
        obtain ⟨en, hen, e⟩ := hall p (Finset.mem_range.mp hp)
        obtain ⟨t, ht, rfl⟩ := List.mem_map.mp hen
        have : countedProject true P (pairBelief R o y K) q t = p := by simpa using e
        exact List.mem_toFinset.mpr (List.mem_map.mpr ⟨t, ht, this⟩)
      have := Finset.card_le_card this
      rwa [hcard, Finset.card_range] at this

/-- C94 without post-processing: if the program says that all projects are matched, then every project has a team that is listed with it. -/
theorem C94_plain (h : KcCallOk d caps types combos count) (hP : 0 < P) (hL : L = teams combos types count)
    (htr : TeamTrace caps L P w R flag alpha a raw o y e c) (K option : ℕ) {q : ℚ} (hq : q ≤ 0) {r : KcResult} {s : KcSummary}
    (hr : kcCall d (K + 1) flag alpha false option (fin q) (inputFile caps types L.length P w R) = some r)
    (hs : kcPrinted d (K + 1) flag alpha false option (fin q) (inputFile caps types L.length P w R) = some s) (hall : s.allMatched = true) :
    ∀ p < P, ∃ en ∈ r.entries, p + 1 ∈ en.2.2.2 := by
  have hsame : ∀ (f : Bool → ℕ → Option KcSummary), f = (fun b opt => kcPrinted d (K + 1) flag alpha b opt (fin q) (inputFile caps types L.length P w R)) →
      f false option = f false 1 := by rintro f rfl; rfl
  have hs1 := (hsame _ rfl).symm.trans hs
  have hsame' : ∀ (f : Bool → ℕ → Option KcResult), f = (fun b opt => kcCall d (K + 1) flag alpha b opt (fin q) (inputFile caps types L.length P w R)) →
      f false option = f false 1 := by rintro f rfl; rfl
  have hr1 := (hsame' _ rfl).symm.trans hr
  obtain ⟨r', s', h1, h2, h3⟩ := C94_printed h hP hL htr K hq false false
  rw [show kcCall d (K + 1) flag alpha false (if false = true then 2 else 1) (fin q) (inputFile caps types L.length P w R) = some r from hr1] at h1
  obtain rfl := Option.some.inj h1
  rw [show kcPrinted d (K + 1) flag alpha false (if false = true then 2 else 1) (fin q) (inputFile caps types L.length P w R) = some s from hs1] at h2
  obtain rfl := Option.some.inj h2
  obtain ⟨r', g1, -, g2, g3, g4⟩ := C54_plain h hP hL htr K option hq
  rw [hr] at g1; obtain rfl := Option.some.inj g1
  have hlen := h3.allMatched.mp hall
  let f : ℕ → ℕ := fun t => (projectsFor P (pairBelief R o y K) q t).headD 0
  have hf : ∀ t ∈ r.kept, f t ∈ projectsFor P (pairBelief R o y K) q t := by
    intro t ht
    obtain ⟨-, p, hp, hlt⟩ := (g3 t).mp ht
    have hin : p ∈ projectsFor P (pairBelief R o y K) q t := by simp [projectsFor, hp, hlt]
    show (projectsFor P (pairBelief R o y K) q t).headD 0 ∈ _
    rcases hpr : projectsFor P (pairBelief R o y K) q t with _ | ⟨p0, l⟩
    · rw [hpr] at hin; cases hin
    · simp
  have hf' : ∀ t ∈ r.kept, f t < P ∧ pairBelief R o y K (f t) t < q := by
    intro t ht
    have := List.mem_filter.mp (hf t ht)
    exact ⟨List.mem_range.mp this.1, by simpa using this.2⟩
  have hnd' := List.Nodup.map_on (f := f) (fun t ht t' ht' e => by
    have h1 := hf' t ht
    have h2 := hf' t' ht'
    rw [← e] at h2
    exact C94_one_team htr K hq h1.1 ((g3 t).mp ht).1 ((g3 t').mp ht').1 h1.2 h2.2) (g2.imp fun h => h.ne)
  have hfin : (r.kept.map f).toFinset ⊆ Finset.range P := by
    intro p hp
    obtain ⟨t, ht, rfl⟩ := List.mem_map.mp (List.mem_toFinset.mp hp)
    exact Finset.mem_range.mpr (hf' t ht).1
  intro p hp
  have := Finset.eq_of_subset_of_card_le hfin (by rw [List.toFinset_card_of_nodup hnd', List.length_map, Finset.card_range, hlen])
  have hp' := this ▸ Finset.mem_range.mpr hp
  obtain ⟨t, ht, rfl⟩ := List.mem_map.mp (List.mem_toFinset.mp hp')
  rw [g4]
  exact ⟨_, List.mem_map.mpr ⟨t, ht, rfl⟩, List.mem_map.mpr ⟨f t, hf t ht, rfl⟩⟩

end

/-- After five iterations the teams 0 and 3 are kept with the projects 0 and 1; the third project is not matched. -/
example : (kcPrinted flatData 5 false 0 true 1 (fin 0) c54Load) =
    some ⟨fin 6, [2, 2], false, [(2, 2)], 2, 2, false, fin (-22)⟩ := by decide +kernel

/-- Without post-processing and after two iterations all three projects are listed, two of them with team 2, but the program counts the teams: it says
that two projects are matched and that not all are; unit 2 is overloaded. -/
example : (kcPrinted flatData 2 false 0 false 1 (fin 0) c54Load) =
    some ⟨fin 6, [1, 3], true, [(2, 2)], 2, 2, false, fin (-20)⟩ := by decide +kernel

end Verif.Properties
