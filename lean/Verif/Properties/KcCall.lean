import Verif.Proofs.KcCall

/-! # C54: a whole run of the assignment solver -/

namespace Verif.Properties
open Verif Num Spec Model

/-- The inputs of a run: at least one unit and at most as many as the tables know; known types, at least one; one team of every kind fits
its units; `combos` are the pairs of units kept by the pruning and `count` says how many teams of each kind the units could send. -/
structure KcCallOk (d : TeamData) (caps types : List ℕ) (combos : List (ℕ × ℕ)) (count : ℕ × ℕ × ℕ → ℕ) : Prop where
  units : 0 < caps.length
  known : caps.length ≤ d.size
  pruned : pruneTeams d caps.length = some combos
  known_types : TypesOk types
  some_type : types ≠ []
  roomy : ∀ c ∈ combos, ∀ t ∈ types, RealKind (c.1, c.2, t) → ∀ x, need (c.1, c.2, t) x ≤ unitCap caps x
  counts : ∀ c ∈ combos, ∀ t ∈ types, IsCount (unitCap caps) (c.1, c.2, t) (count (c.1, c.2, t))

/-- What the team of kind `L[t]` takes from the unit with index `d` (from 0). -/
def weightOf (L : List (ℕ × ℕ × ℕ)) (d t : ℕ) : ℕ := need (L.getD t (0, 0, 0)) (d + 1)

/-- The messages of the algorithm (as in C11) for the teams `L`. -/
def TeamTrace (caps : List ℕ) (L : List (ℕ × ℕ × ℕ)) (P : ℕ) (w : ℕ → ℚ) (R : ℕ → ℕ → ℚ) (flag : Bool) (alpha : ℚ)
    (a raw o y e : ℕ → ℕ → ℕ → ℚ) (c : ℕ → ℕ → ℚ) : Prop :=
  IsKcTrace caps.length L.length P (weightOf L) (fun d => caps.getD d 0) w R flag alpha (some 1000000)
    (fun d t => if weightOf L d t ≠ 0 then w t else 0) a raw o y e c

/-- The belief of team `t` after iteration `K`: the sum of all its messages and its cost. -/
def teamBelief (caps : List ℕ) (L : List (ℕ × ℕ × ℕ)) (w : ℕ → ℚ) (flag : Bool) (alpha : ℚ) (raw : ℕ → ℕ → ℕ → ℚ) (c : ℕ → ℕ → ℚ)
    (K t : ℕ) : ℚ :=
  c K t + ∑ i ∈ depts caps.length (weightOf L) t, damped flag alpha (fun j => raw j i t) K + w t

/-- The belief of project `p` and team `t`: the sum of the messages of their edge and its cost. -/
def pairBelief (R : ℕ → ℕ → ℚ) (o y : ℕ → ℕ → ℕ → ℚ) (K p t : ℕ) : ℚ := o K p t + y K p t + R p t

/-- The input file: capacities, types, one cost per team, and for every team one cost per project. -/
def inputFile (caps types : List ℕ) (T P : ℕ) (w : ℕ → ℚ) (R : ℕ → ℕ → ℚ) : KcLoad :=
  ⟨caps, types, listOf T (fun t => fin (w t)), table T P (fun t p => fin (R p t))⟩

section
variable {d : TeamData} {caps types : List ℕ} {combos : List (ℕ × ℕ)} {count : ℕ × ℕ × ℕ → ℕ} {P : ℕ} {w : ℕ → ℚ} {R : ℕ → ℕ → ℚ}
  {flag : Bool} {alpha : ℚ}

theorem call_start (h : KcCallOk d caps types combos count) (hP : 0 < P) {L : List (ℕ × ℕ × ℕ)} (hL : L = teams combos types count) :
    KcProblemOk caps.length L.length P (weightOf L) (fun d => caps.getD d 0) ∧
    ∃ T, generateTeams d caps types combos = some T ∧ PairsOk caps.length combos ∧ Proofs.TeamTables (analysisData caps combos T) L ∧
      kcInitialize d (inputFile caps types L.length P w R) =
        some (pythonTables caps.length L.length P (weightOf L) (fun d => caps.getD d 0) (fun t => fin (w t)) (fun p t => fin (R p t)),
          analysisData caps combos T) := by
  obtain ⟨l, hl, -, hpairs, hself, -⟩ := C41_pruned h.known
  obtain rfl : l = combos := by rw [h.pruned] at hl; exact (Option.some.inj hl).symm
  have hprob := Proofs.teams_problem h.units hP hself h.known_types h.some_type h.roomy h.counts
  obtain ⟨T, count', t1, t2, t3, t4, t5⟩ := C33_weights_partial (d := d) hpairs h.known_types h.roomy
  obtain ⟨T', t1', t2', t3'⟩ := Proofs.generated_tables (d := d) h.known_types hpairs (count_ne_zero (d := d) hpairs h.known_types h.roomy)
  obtain rfl : T = T' := by rw [t1] at t1'; exact Option.some.inj t1'
  rw [← Proofs.teams_congr h.counts t2, ← hL] at t3 t5
  have e' := Proofs.teams_congr h.counts t2'
  rw [← e', ← hL] at t3'
  rw [← hL] at hprob
  refine ⟨hprob, T, t1, hpairs, t3', ?_⟩
  obtain ⟨t, ht, -⟩ := hprob.used 0 h.units
  exact Proofs.initialize_spec h.units h.pruned t1 t3 (by omega) t4 t5

/-- C54, whole run with post-processing: generation of the teams, conversion of all tables, message passing, decision, post-processing
and report fit together.  The run ends without error; the beliefs are those of the message passing algorithm; the selected teams are those
with a belief below the threshold for some project; while a unit is overloaded, a team with the belief of the least confident candidate is
removed; at the end no capacity is exceeded and every kept team is reported with its units, its type and its project as in C44. -/
theorem C54_call (h : KcCallOk d caps types combos count) (hP : 0 < P) {L : List (ℕ × ℕ × ℕ)} (hL : L = teams combos types count) :
    (∃ a raw o y e c, TeamTrace caps L P w R flag alpha a raw o y e c) ∧
    ∀ a raw o y e c, TeamTrace caps L P w R flag alpha a raw o y e c → ∀ (K : ℕ) (q : ℚ) (byTeams : Bool), q ≤ 0 →
      ∃ r sel, kcCall d (K + 1) flag alpha true (if byTeams then 2 else 1) (fin q) (inputFile caps types L.length P w R) = some r ∧
        r.beliefs = listOf L.length (fun t => fin (teamBelief caps L w flag alpha raw c K t)) ∧
        sel.Pairwise (· < ·) ∧ (∀ t, t ∈ sel ↔ t < L.length ∧ ∃ p < P, pairBelief R o y K p t < q) ∧
        Removals caps L (fun s t => ∃ t', candidates byTeams caps L s t' ∧
          (∀ j, candidates byTeams caps L s j → teamBelief caps L w flag alpha raw c K j ≤ teamBelief caps L w flag alpha raw c K t') ∧
          teamBelief caps L w flag alpha raw c K t = teamBelief caps L w flag alpha raw c K t') sel r.kept ∧
        (∀ u, ¬ Over caps L r.kept u) ∧ r.entries.length = r.kept.length ∧
        ∀ (n t : ℕ), r.kept[n]? = some t → ∃ ts ps, Reported L.length P (pairBelief R o y K) q t ts ps ∧
          r.entries[n]? = some (((L.getD t (0, 0, 0)).1, (L.getD t (0, 0, 0)).2.1), (L.getD t (0, 0, 0)).2.2, ts, ps) := by
  obtain ⟨hprob, T, hgen, hpairs, hT, hinit⟩ := call_start (w := w) (R := R) h hP hL
  refine ⟨C23_trace hprob flag alpha, fun a raw o y e c htr K q byTeams hq => ?_⟩
  obtain ⟨m, hm, hm'⟩ := C23_call hprob flag alpha htr K
  have hm'' : m.Is P L.length (pairBelief R o y K) := hm'
  have hsel := C31_nonpositive_partial hq m
  set sel := selectedTeams (decisionMatrix (fin q) m) with hseldef
  have hs : IsSelection m q sel := hsel.2.2
  obtain ⟨T1, n1, g1, c1, p1⟩ := C44_report (d := d) hpairs h.known_types h.roomy
  obtain ⟨T2, n2, g2, c2, p2⟩ := C43_ties (d := d) hpairs h.known_types h.roomy
  obtain rfl : T = T1 := by rw [hgen] at g1; exact Option.some.inj g1
  obtain rfl : T = T2 := by rw [hgen] at g2; exact Option.some.inj g2
  rw [← Proofs.teams_congr h.counts c1, ← hL] at p1
  rw [← Proofs.teams_congr h.counts c2, ← hL] at p2
  set B := teamBelief caps L w flag alpha raw c K with hB
  have hbel : listOf L.length (fun t => fin (B t)) = (listOf L.length B).map fin := by simp [listOf]
  have hget : ∀ i < L.length, (listOf L.length B).getD i 0 = B i := by
    intro i hi; simp [listOf, List.getD_eq_getElem?_getD, hi]
  obtain ⟨out, entries, k1, k2, k3, k4⟩ := p1 byTeams P m (pairBelief R o y K) (listOf L.length (fun t => fin (B t))) q hq hm''
    (by simp [listOf]) (by simp [listOf]) trivial
  obtain ⟨out', l1, l2⟩ := p2 byTeams m (listOf L.length B) q sel hq hm''.2.1 (by simp [listOf]) hs trivial
  rw [← hbel, k1] at l1
  obtain rfl : out = out' := Option.some.inj l1
  refine ⟨⟨listOf L.length (fun t => fin (B t)), out.final.sel, entries⟩, sel, ?_, rfl, hs.1, fun t => ?_, ?_, Proofs.removals_fit l2, k3, k4⟩
  · unfold kcCall
    have e1 : (pythonTables caps.length L.length P (weightOf L) (fun d => caps.getD d 0) (fun t => fin (w t)) (fun p t => fin (R p t))).numTeams =
      L.length := rfl
    have hm1 : kcIteratePy (K + 1) flag alpha (pythonTables caps.length L.length P (weightOf L) (fun d => caps.getD d 0)
        (fun t => fin (w t)) (fun p t => fin (R p t))) = some (listOf L.length (fun t => fin (B t)), m) := hm
    have e2 : (if (if byTeams then 2 else 1) = 1 then some false else if (if byTeams then 2 else 1) = 2 then some true else none) =
        some byTeams := by cases byTeams <;> rfl
    simp only [hinit, hm1, Option.bind_eq_bind, Option.bind_some, if_true, e1, e2, k1, k2]
  · rw [hs.2, hm''.1, hm''.2.1]
    refine and_congr_right fun ht => exists_congr fun p => and_congr_right fun hp => ?_
    rw [hm''.2.2 p hp t ht]; simp
  · refine Proofs.removals_mono l2 fun s t hst hts hw => ?_
    obtain ⟨t', ⟨b1, b2⟩, b3⟩ := hw
    have hlt : ∀ i ∈ s, i < L.length := fun i hi => by rw [← hm''.2.1]; exact ((hs.2 i).mp (hst.subset hi)).1
    have hcand : ∀ j, candidates byTeams caps L s j → j < L.length := by
      intro j hj
      cases byTeams
      · exact hlt j hj.1
      · exact hlt j hj.1.1
    refine ⟨t', b1, fun j hj => ?_, ?_⟩
    · have := b2 j hj
      rwa [hget j (hcand j hj), hget t' (hcand t' b1)] at this
    · rwa [hget t (hlt t hts), hget t' (hcand t' b1)] at b3

/-- C54 without post-processing: nothing is removed, and every selected team is reported with all its projects. -/
theorem C54_plain (h : KcCallOk d caps types combos count) (hP : 0 < P) {L : List (ℕ × ℕ × ℕ)} (hL : L = teams combos types count)
    {a raw o y e : ℕ → ℕ → ℕ → ℚ} {c : ℕ → ℕ → ℚ} (htr : TeamTrace caps L P w R flag alpha a raw o y e c) (K option : ℕ) {q : ℚ} (hq : q ≤ 0) :
    ∃ r, kcCall d (K + 1) flag alpha false option (fin q) (inputFile caps types L.length P w R) = some r ∧
      r.beliefs = listOf L.length (fun t => fin (teamBelief caps L w flag alpha raw c K t)) ∧
      r.kept.Pairwise (· < ·) ∧ (∀ t, t ∈ r.kept ↔ t < L.length ∧ ∃ p < P, pairBelief R o y K p t < q) ∧
      r.entries = r.kept.map (fun t => (((L.getD t (0, 0, 0)).1, (L.getD t (0, 0, 0)).2.1), (L.getD t (0, 0, 0)).2.2,
        (projectsFor P (pairBelief R o y K) q t).map (fun _ => t + 1), (projectsFor P (pairBelief R o y K) q t).map (· + 1))) := by
  obtain ⟨hprob, T, hgen, hpairs, hT, hinit⟩ := call_start (w := w) (R := R) h hP hL
  obtain ⟨m, hm, hm'⟩ := C23_call hprob flag alpha htr K
  have hm'' : m.Is P L.length (pairBelief R o y K) := hm'
  have hsel := C31_nonpositive_partial hq m
  set sel := selectedTeams (decisionMatrix (fin q) m) with hseldef
  have hs : IsSelection m q sel := hsel.2.2
  have hlt : ∀ t ∈ sel, t < L.length := fun t ht => by rw [← hm''.2.1]; exact ((hs.2 t).mp ht).1
  obtain ⟨loads, locs, a1, a2⟩ := Proofs.analyseTeams_spec hT hs.1 hlt
  have hentry : ∀ n ∈ List.range sel.length, plainEntry (analysisData caps combos T) (matchedPairs (decisionMatrix (fin q) m)) sel locs n =
      some ((fun t => (((L.getD t (0, 0, 0)).1, (L.getD t (0, 0, 0)).2.1), (L.getD t (0, 0, 0)).2.2,
        (projectsFor P (pairBelief R o y K) q t).map (fun _ => t + 1), (projectsFor P (pairBelief R o y K) q t).map (· + 1)))
        (sel.getD n 0)) := by
    intro n hn
    have hn' := List.mem_range.mp hn
    have hg : sel[n]? = some (sel.getD n 0) := by rw [List.getD_eq_getElem?_getD, List.getElem?_eq_getElem hn']; rfl
    have ht := hlt _ (List.mem_of_getElem? hg)
    generalize sel.getD n 0 = t at hg ht
    have h1 : (analysisData caps combos T).types[t]? = some (Proofs.kindOf L t).2.2 := by
      rw [hT.types, List.getElem?_map, Proofs.kindOf_get ht]; rfl
    have h2 : locs[n]? = some (Proofs.locOf (analysisData caps combos T) t) := by
      have := a2.locs
      change locs = sel.map _ at this
      rw [this, List.getElem?_map, hg]; rfl
    have h3 := (Proofs.locate_spec hT ht).2
    have huse : (matchedPairs (decisionMatrix (fin q) m)).filter (fun c => c.2 == t) =
        (projectsFor P (pairBelief R o y K) q t).map (fun i => (i, t)) := by
      have hu := Proofs.usesOf_matched (decisionMatrix (fin q) m) (show t < (decisionMatrix (fin q) m).cols by
        rw [show (decisionMatrix (fin q) m).cols = m.cols from rfl, hm''.2.1]; exact ht)
      unfold Proofs.usesOf at hu
      rw [hu]
      unfold projectsFor
      rw [show (decisionMatrix (fin q) m).rows = P from hm''.1]
      congr 1
      refine List.filter_congr fun i hi => ?_
      have : (decisionMatrix (fin q) m).data i t = fin 1 ↔ pairBelief R o y K i t < q := by
        show decideEntry (fin q) (m.data i t) = fin 1 ↔ _
        rw [Proofs.decideEntry_nonpos hq, hm''.2.2 i (List.mem_range.mp hi) t ht]; simp
      simp [this]
    unfold plainEntry
    simp only [hg, h1, h2, h3, huse, Option.bind_eq_bind, Option.bind_some, List.map_map]
    rfl
  refine ⟨⟨listOf L.length (fun t => fin (teamBelief caps L w flag alpha raw c K t)), sel,
    sel.map (fun t => (((L.getD t (0, 0, 0)).1, (L.getD t (0, 0, 0)).2.1), (L.getD t (0, 0, 0)).2.2,
        (projectsFor P (pairBelief R o y K) q t).map (fun _ => t + 1), (projectsFor P (pairBelief R o y K) q t).map (· + 1)))⟩,
    ?_, rfl, hs.1, fun t => ?_, rfl⟩
  · unfold kcCall
    have hm1 : kcIteratePy (K + 1) flag alpha (pythonTables caps.length L.length P (weightOf L) (fun d => caps.getD d 0)
        (fun t => fin (w t)) (fun p t => fin (R p t))) = some (listOf L.length (fun t => fin (teamBelief caps L w flag alpha raw c K t)), m) := hm
    simp only [hinit, hm1, Option.bind_eq_bind, Option.bind_some, ← hseldef, a1, Bool.false_eq_true, if_false]
    rw [Proofs.mapM_some hentry, Option.bind_some]
    congr 2
    refine List.ext_getElem (by simp) fun i h1 h2 => ?_
    have h3 : i < sel.length := by simpa using h1
    simp [List.getD_eq_getElem?_getD, h3]
  · rw [hs.2, hm''.1, hm''.2.1]
    refine and_congr_right fun ht => exists_congr fun p => and_congr_right fun hp => ?_
    rw [hm''.2.2 p hp t ht]; simp

/-- C54, a feasible decision is reported as it is: if the pairs with a belief below the threshold are a matching whose teams respect all
capacities, then with and without post-processing exactly these teams are kept, each with its one project. -/
theorem C54_matching (h : KcCallOk d caps types combos count) (hP : 0 < P) {L : List (ℕ × ℕ × ℕ)} (hL : L = teams combos types count)
    {a raw o y e : ℕ → ℕ → ℕ → ℚ} {c : ℕ → ℕ → ℚ} (htr : TeamTrace caps L P w R flag alpha a raw o y e c) (K : ℕ) {q : ℚ} (hq : q ≤ 0)
    (hmatch : IsMatching P L.length (fun p t => pairBelief R o y K p t < q)) {sel : List ℕ} (hasc : sel.Pairwise (· < ·))
    (hsel : ∀ t, t ∈ sel ↔ t < L.length ∧ ∃ p < P, pairBelief R o y K p t < q) (hfit : ∀ u, ¬ Over caps L sel u)
    (post byTeams : Bool) :
    ∃ r, kcCall d (K + 1) flag alpha post (if byTeams then 2 else 1) (fin q) (inputFile caps types L.length P w R) = some r ∧
      r.kept = sel ∧ r.entries.length = sel.length ∧
      ∀ (n t : ℕ), sel[n]? = some t → ∃ p < P, pairBelief R o y K p t < q ∧
        r.entries[n]? = some (((L.getD t (0, 0, 0)).1, (L.getD t (0, 0, 0)).2.1), (L.getD t (0, 0, 0)).2.2, [t + 1], [p + 1]) := by
  have hone : ∀ t ∈ sel, ∃ p < P, pairBelief R o y K p t < q ∧ projectsFor P (pairBelief R o y K) q t = [p] := by
    intro t ht
    obtain ⟨htL, p, hp, hlt⟩ := (hsel t).mp ht
    refine ⟨p, hp, hlt, ?_⟩
    unfold projectsFor
    refine List.perm_singleton.mp ((List.perm_ext_iff_of_nodup (List.Nodup.filter _ List.nodup_range) (by simp)).mpr fun i => ?_)
    simp only [List.mem_filter, List.mem_range, decide_eq_true_eq, List.mem_singleton]
    refine ⟨fun hi => ?_, fun hi => by rw [hi]; exact ⟨hp, hlt⟩⟩
    have := hmatch.2 (i, t) (by simp [chosen, hi, htL]) (p, t) (by simp [chosen, hp, hlt, htL]) rfl
    exact congrArg Prod.fst this
  have huniq : ∀ l : List ℕ, l.Pairwise (· < ·) → (∀ t, t ∈ l ↔ t < L.length ∧ ∃ p < P, pairBelief R o y K p t < q) → l = sel := by
    intro l hl hl'
    refine List.Perm.eq_of_pairwise (le := (· < ·)) (fun a b _ _ h1 h2 => by omega) hl hasc ?_
    exact (List.perm_ext_iff_of_nodup (hl.imp fun h => h.ne) (hasc.imp fun h => h.ne)).mpr fun t => by rw [hl', hsel]
  cases post with
  | false =>
    obtain ⟨r, r1, -, r2, r3, r4⟩ := C54_plain h hP hL htr K (if byTeams then 2 else 1) hq
    have e := huniq _ r2 r3
    refine ⟨r, r1, e, by rw [r4, List.length_map, e], fun n t hn => ?_⟩
    obtain ⟨p, p1, p2, p3⟩ := hone t (List.mem_of_getElem? hn)
    refine ⟨p, p1, p2, ?_⟩
    rw [r4, e, List.getElem?_map, hn, Option.map_some, p3]
    rfl
  | true =>
    obtain ⟨r, s, r1, -, r2, r3, r4, -, r5, r6⟩ := (C54_call (flag := flag) (alpha := alpha) h hP hL).2 a raw o y e c htr K q byTeams hq
    obtain rfl := huniq _ r2 r3
    have e' : r.kept = s := by
      cases r4 with
      | done _ => rfl
      | step ho _ _ _ => exact absurd ho (hfit _)
    refine ⟨r, r1, e', by rw [r5, e'], fun n t hn => ?_⟩
    obtain ⟨p, p1, p2, p3⟩ := hone t (List.mem_of_getElem? hn)
    refine ⟨p, p1, p2, ?_⟩
    obtain ⟨ts, ps, ⟨-, hr⟩, hent⟩ := r6 n t (by rw [e']; exact hn)
    rcases hr with ⟨p', q1, rfl, rfl⟩ | ⟨p0, p1', l, p', q1, -⟩
    · rw [p3] at q1
      obtain rfl : p = p' := by simpa using q1
      exact hent
    · rw [p3] at q1; simp at q1

/-- C54, a file with another number of teams than generated stops at an assertion. -/
theorem C54_mismatch (h : KcCallOk d caps types combos count) (numIter : ℕ) (post : Bool) (option : ℕ) (threshold : Num) {l : KcLoad}
    (hl : l.caps = caps ∧ l.types = types) (hne : l.pairCosts.length ≠ (teams combos types count).length) :
    kcCall d numIter flag alpha post option threshold l = none := by
  obtain ⟨combos', hl', -, hpairs, -⟩ := C41_pruned h.known
  obtain rfl : combos' = combos := by rw [h.pruned] at hl'; exact (Option.some.inj hl').symm
  obtain ⟨T, count', t1, t2, t3, t4, t5⟩ := C33_weights_partial (d := d) hpairs h.known_types h.roomy
  rw [← Proofs.teams_congr h.counts t2] at t3
  have : kcInitialize d l = none := by
    unfold kcInitialize
    rw [hl.1, hl.2]
    cases l.pairCosts[0]? with
    | none => rfl
    | some first =>
      simp only [h.pruned, t1, Option.bind_eq_bind, Option.bind_some]
      have : ¬ T.rewards.length = l.pairCosts.length := by rw [t3]; exact fun e => hne e.symm
      simp only [(t5 0 h.units).2, if_neg this, Option.bind_some, Option.bind_none]
      split <;> rfl
  unfold kcCall
  rw [this]
  rfl

end

/-- Two units of capacity 2 and type 2: one team of unit 1 alone, two of both units, one of unit 2 alone. -/
theorem c54_ok : KcCallOk flatData [2, 2] [2] [(1, 1), (1, 2), (2, 2)] (fun k => if k.1 = k.2.1 then 1 else 2) := by
  have hneed : ∀ (u v x : ℕ), need (u, v, 2) x = (if x = u then 1 else 0) + (if x = v then 1 else 0) := by intro u v x; rfl
  have hcap : ∀ x, 1 ≤ x → x ≤ 2 → unitCap [2, 2] x = 2 := by intro x h1 h2; interval_cases x <;> rfl
  refine ⟨by decide, by decide, by decide +kernel, by unfold TypesOk; decide, by decide, fun c hc t ht _ x => ?_, fun c hc t ht => ?_⟩
  · obtain rfl := List.mem_singleton.mp ht
    rw [hneed]
    by_cases hx : 1 ≤ x ∧ x ≤ 2
    · rw [hcap x hx.1 hx.2]; split_ifs <;> omega
    · have : c.1 ≠ x ∧ c.2 ≠ x := by
        simp only [List.mem_cons, List.not_mem_nil, or_false] at hc
        rcases hc with rfl | rfl | rfl <;> simp only <;> omega
      rw [if_neg (fun h => this.1 h.symm), if_neg (fun h => this.2 h.symm)]; omega
  · obtain rfl := List.mem_singleton.mp ht
    refine ⟨fun _ => ⟨fun x => ?_, fun m hm => ?_⟩, fun h => absurd (Or.inl (by show (1 : ℕ) ≠ 0; decide)) h⟩
    · rw [hneed]
      by_cases hx : 1 ≤ x ∧ x ≤ 2
      · rw [hcap x hx.1 hx.2]
        simp only
        split_ifs <;> omega
      · have : c.1 ≠ x ∧ c.2 ≠ x := by
          simp only [List.mem_cons, List.not_mem_nil, or_false] at hc
          rcases hc with rfl | rfl | rfl <;> simp only <;> omega
        rw [if_neg (show ¬ x = c.1 from fun h => this.1 h.symm), if_neg (show ¬ x = c.2 from fun h => this.2 h.symm)]; omega
    · have h1 := hm c.1
      simp only [List.mem_cons, List.not_mem_nil, or_false] at hc
      rw [hneed] at h1
      rcases hc with rfl | rfl | rfl <;> simp [unitCap] at h1 ⊢ <;> omega

example : teams [(1, 1), (1, 2), (2, 2)] [2] (fun k => if k.1 = k.2.1 then 1 else 2) = [(1, 1, 2), (1, 2, 2), (1, 2, 2), (2, 2, 2)] := by decide

/-- Four teams and three projects. -/
def c54Load : KcLoad where
  caps := [2, 2]
  types := [2]
  teamCosts := [fin (-3), fin (-3), fin (-3), fin (-3)]
  pairCosts := [[fin (-8), fin 1, fin (-7)], [fin (-7), fin (-4), fin (-7)], [fin (-6), fin (-9), fin (-7)], [fin (-5), fin (-14), fin (-7)]]

set_option synthInstance.maxSize 1000 in
/-- After five iterations the teams 0 and 3 are chosen, with projects 0 and 1. -/
example : (kcCall flatData 5 false 0 true 1 (fin 0) c54Load).map (fun r => (r.beliefs, r.kept, r.entries.map (fun e => (e.1, e.2.1)), r.entries.map (fun e => e.2.2))) =
    some ([fin (-11), fin 15, fin 17, fin (-13)], [0, 3], [((1, 1), 2), ((2, 2), 2)], [([1], [1]), ([4], [2])]) := by decide +kernel

set_option synthInstance.maxSize 1000 in
/-- After two iterations unit 2 is overloaded and team 2 is removed; without post-processing team 2 is reported with two projects. -/
example : (kcCall flatData 2 false 0 true 1 (fin 0) c54Load).map (fun r => (r.kept, r.entries.map (fun e => (e.1, e.2.1)), r.entries.map (fun e => e.2.2))) = some ([3], [((2, 2), 2)], [([4], [2])]) ∧
    (kcCall flatData 2 false 0 false 1 (fin 0) c54Load).map (fun r => (r.kept, r.entries.map (fun e => (e.1, e.2.1)), r.entries.map (fun e => e.2.2))) =
      some ([2, 3], [((1, 2), 2), ((2, 2), 2)], [([3, 3], [1, 3]), ([4], [2])]) := by decide +kernel

/-- A file for three teams only. -/
example : (kcCall flatData 2 false 0 true 1 (fin 0) { c54Load with pairCosts := c54Load.pairCosts.take 3 }).isNone = true := by decide +kernel

end Verif.Properties
