import Verif.Proofs.KcResults
import Verif.Properties.KcPost

/-! C44: the reported assignment of the kept teams. -/

namespace Verif.Properties
open Verif Model Spec Proofs Num

/-- The projects whose belief with team `t` is below the threshold, ascending. -/
def projectsFor (P : ℕ) (x : ℕ → ℕ → ℚ) (q : ℚ) (t : ℕ) : List ℕ := (List.range P).filter (fun i => x i t < q)

/-- The teams whose belief with project `p` is below the threshold, ascending. -/
def teamsFor (T : ℕ) (x : ℕ → ℕ → ℚ) (q : ℚ) (p : ℕ) : List ℕ := (List.range T).filter (fun j => x p j < q)

/-- For teams of the kinds `K`: whatever is kept, there is one entry per kept team, with its units and type and with teams and projects
(numbered from 1) as described by `Hits`. -/
def ReportOk (py : KcTeamsPy) (K : List (ℕ × ℕ × ℕ)) (Ok : ℕ → (ℕ → ℕ → ℚ) → ℚ → Prop)
    (Hits : ℕ → (ℕ → ℕ → ℚ) → ℚ → ℕ → List ℕ → List ℕ → Prop) : Prop :=
  ∀ (byTeams : Bool) (P : ℕ) (a : Mat Num) (x : ℕ → ℕ → ℚ) (belief : List Num) (q : ℚ), q ≤ 0 → a.Is P K.length x →
    belief.length = K.length → nan ∉ belief → Ok P x q →
    ∃ out entries, kcPost py byTeams K.length (fin q) a belief = some out ∧
      resultEntries py (matchedPairs (decisionMatrix (fin q) a)) out = some entries ∧ entries.length = out.final.sel.length ∧
      ∀ (n t : ℕ), out.final.sel[n]? = some t → ∃ ts ps, Hits P x q t ts ps ∧
        entries[n]? = some (((K.getD t (0, 0, 0)).1, (K.getD t (0, 0, 0)).2.1), (K.getD t (0, 0, 0)).2.2, ts, ps)

/-- One team, and one of its projects in which it is most confident. -/
def OneBest (P : ℕ) (x : ℕ → ℕ → ℚ) (q : ℚ) (t : ℕ) (ts ps : List ℕ) : Prop :=
  ts = [t + 1] ∧ ∃ p, ps = [p + 1] ∧ p ∈ projectsFor P x q t ∧ ∀ p' ∈ projectsFor P x q t, x p t ≤ x p' t

/-- C44, full claim: every kept team is reported with exactly one project, the one it is most confident in. -/
def C44_claim : Prop :=
  ∀ (d : TeamData) (caps types : List ℕ) (combos : List (ℕ × ℕ)), PairsOk caps.length combos → TypesOk types →
    (∀ c ∈ combos, ∀ t ∈ types, RealKind (c.1, c.2, t) → ∀ x, need (c.1, c.2, t) x ≤ unitCap caps x) →
    ∃ T count, generateTeams d caps types combos = some T ∧
      (∀ c ∈ combos, ∀ t ∈ types, IsCount (unitCap caps) (c.1, c.2, t) (count (c.1, c.2, t))) ∧
      ReportOk (analysisData caps combos T) (teams combos types count) (fun _ _ _ => True) OneBest

/-- One team and three projects with beliefs -1, -2, -3: project 2 is reported. -/
theorem C44_claim_false : ¬ C44_claim := by
  intro h
  obtain ⟨T, count, h1, h2, h3⟩ := h flatData [1] [1] [(1, 1)] (by unfold PairsOk; decide) (by unfold TypesOk; decide) (by
    intro c hc t ht _ x
    rw [List.mem_singleton.mp hc, List.mem_singleton.mp ht]
    by_cases e : x = 1
    · subst e; decide
    · simp [need, e])
  have e : (generateTeams flatData [1] [1] [(1, 1)]).map (analysisData [1] [(1, 1)]) = some ⟨[1], [[1]], [1], [0], [(1, 1)]⟩ := by
    decide +kernel
  rw [h1, Option.map_some, Option.some.injEq] at e
  have hK : teams [(1, 1)] [1] count = [(1, 1, 1)] := by
    have c1 : count (1, 1, 1) = 1 := count_single (m := 1) (h2 (1, 1) (by simp) 1 (by simp)) rfl (by simp)
    simp [teams, c1]
  rw [e, hK] at h3
  obtain ⟨out, entries, k1, k2, -, k3⟩ := h3 false 3 (Mat.ofRat 3 1 fun i _ => -1 - i) (fun i _ => -1 - i) [0] 0 le_rfl
    ⟨rfl, rfl, fun _ _ _ _ => rfl⟩ rfl (by decide +kernel) trivial
  have e2 : (kcPost ⟨[1], [[1]], [1], [0], [(1, 1)]⟩ false 1 (fin 0) (Mat.ofRat 3 1 fun i _ => -1 - i) [0]).bind (fun o =>
      (resultEntries ⟨[1], [[1]], [1], [0], [(1, 1)]⟩ (matchedPairs (decisionMatrix (fin 0) (Mat.ofRat 3 1 fun i _ => -1 - i))) o).map
        (fun es => (o.final.sel, es.map (fun e => e.2.2.2)))) = some ([0], [[2]]) := by decide +kernel
  have k1' : kcPost ⟨[1], [[1]], [1], [0], [(1, 1)]⟩ false 1 (fin 0) (Mat.ofRat 3 1 fun i _ => -1 - i) [0] = some out := k1
  rw [k1', Option.bind_some, k2, Option.map_some, Option.some.injEq, Prod.mk.injEq] at e2
  obtain ⟨ts, ps, ⟨-, p, rfl, -, hbest⟩, hent⟩ := k3 0 0 (by rw [e2.1]; rfl)
  have hent' := congrArg (Option.map (fun e => e.2.2.2)) hent
  rw [← List.getElem?_map, e2.2] at hent'
  have hp : p = 1 := by
    simp at hent'
    omega
  subst hp
  have := hbest 2 (by decide +kernel)
  norm_num at this

/-- What is reported in general: the project if there is one; otherwise the better one of the first two projects (the second one if they are
equal), together with all teams matched with that project. -/
def Reported (T P : ℕ) (x : ℕ → ℕ → ℚ) (q : ℚ) (t : ℕ) (ts ps : List ℕ) : Prop :=
  t < T ∧ ((∃ p, projectsFor P x q t = [p] ∧ ts = [t + 1] ∧ ps = [p + 1]) ∨
    ∃ p0 p1 l p, projectsFor P x q t = p0 :: p1 :: l ∧ p = (if x p0 t < x p1 t then p0 else p1) ∧
      ts = (teamsFor T x q p).map (· + 1) ∧ ps = List.replicate (teamsFor T x q p).length (p + 1))

/-- C44, what is really reported, for all beliefs. -/
theorem C44_report {d : TeamData} {caps types : List ℕ} {combos : List (ℕ × ℕ)} (hp : PairsOk caps.length combos)
    (ht : TypesOk types)
    (hfit : ∀ c ∈ combos, ∀ t ∈ types, RealKind (c.1, c.2, t) → ∀ x, need (c.1, c.2, t) x ≤ unitCap caps x) :
    ∃ T count, generateTeams d caps types combos = some T ∧
      (∀ c ∈ combos, ∀ t ∈ types, IsCount (unitCap caps) (c.1, c.2, t) (count (c.1, c.2, t))) ∧
      ReportOk (analysisData caps combos T) (teams combos types count) (fun _ _ _ => True)
        (Reported (teams combos types count).length) := by
  obtain ⟨T, h1, h2, h3⟩ := generated_tables (d := d) ht hp (count_ne_zero (d := d) hp ht hfit)
  refine ⟨T, _, h1, h2, fun byTeams P a x belief q hq ha hbl hb _ => ?_⟩
  obtain ⟨out, k1, k2, k3, k4, -⟩ := kcPost_spec h3 (bel_ne_nan hbl hb) ha.2.1 byTeams le_rfl (fin q)
  set K := teams combos types (countOf (capOf caps))
  set M := matchedPairs (decisionMatrix (fin q) a) with hM
  have hentry := fun (n team : ℕ) (hn : out.final.sel[n]? = some team) => resultEntry_spec h3 ha hq k2 k4 hn
  have hall : resultEntries (analysisData caps combos T) M out = some ((List.range out.final.sel.length).map (fun n =>
      (unitsOf K (out.final.sel.getD n 0), (kindOf K (out.final.sel.getD n 0)).2.2,
        (hitsOf x M (out.final.sel.getD n 0)).map (fun c => c.2 + 1), (hitsOf x M (out.final.sel.getD n 0)).map (fun c => c.1 + 1)))) := by
    refine mapM_some fun n hn => ?_
    have hn' := List.mem_range.mp hn
    exact hentry n _ (by rw [List.getD_eq_getElem?_getD, List.getElem?_eq_getElem hn']; rfl)
  refine ⟨out, _, k1, hall, by simp, fun n t hn => ?_⟩
  have hn' : n < out.final.sel.length := (List.getElem?_eq_some_iff.mp hn).1
  have htn : out.final.sel.getD n 0 = t := by rw [List.getD_eq_getElem?_getD, hn]; rfl
  refine ⟨(hitsOf x M t).map (fun c => c.2 + 1), (hitsOf x M t).map (fun c => c.1 + 1), ?_, by
    rw [List.getElem?_map, List.getElem?_range hn', Option.map_some, htn]⟩
  have htK : t < K.length := k2.lt t (List.mem_of_getElem? hn)
  have hone : ∀ i < P, ∀ j < K.length, (decisionMatrix (fin q) a).data i j = fin 1 ↔ x i j < q := by
    intro i hi j hj
    show decideEntry (fin q) (a.data i j) = fin 1 ↔ _
    rw [decideEntry_nonpos hq, ha.2.2 i hi j hj]; simp
  have huse : usesOf M t = (projectsFor P x q t).map (fun i => (i, t)) := by
    rw [hM, usesOf_matched _ (show t < (decisionMatrix (fin q) a).cols by rw [show (decisionMatrix (fin q) a).cols = a.cols from rfl, ha.2.1]; exact htK)]
    unfold projectsFor
    rw [show (decisionMatrix (fin q) a).rows = P from ha.1]
    congr 1
    refine List.filter_congr fun i hi => ?_
    simp [hone i (List.mem_range.mp hi) t htK]
  have hsel : projectsFor P x q t ≠ [] := by
    have hm := k3.subset (List.mem_of_getElem? hn)
    unfold selectedTeams at hm
    have := (List.mem_filter.mp hm).2
    simp only [List.contains_iff_mem, List.mem_map] at this
    obtain ⟨c, hc, hct⟩ := this
    intro hnil
    rw [hnil] at huse
    have : c ∈ usesOf M t := List.mem_filter.mpr ⟨hc, by simpa using hct⟩
    rw [huse] at this
    simp at this
  refine ⟨htK, ?_⟩
  unfold hitsOf
  rw [huse]
  rcases hpf : projectsFor P x q t with _ | ⟨p0, _ | ⟨p1, l⟩⟩
  · exact absurd hpf hsel
  · exact Or.inl ⟨p0, rfl, by simp, by simp⟩
  · refine Or.inr ⟨p0, p1, l, _, rfl, rfl, ?_⟩
    have hpick : (pickOf x ((p1, t), (p0, t))).1 = if x p0 t < x p1 t then p0 else p1 := by
      unfold pickOf; split_ifs <;> rfl
    have hlt : (if x p0 t < x p1 t then p0 else p1) < P := by
      have hmem : ∀ p ∈ projectsFor P x q t, p < P := fun p hp => List.mem_range.mp (List.mem_of_mem_filter hp)
      split_ifs
      · exact hmem _ (by rw [hpf]; simp)
      · exact hmem _ (by rw [hpf]; simp)
    have hrow : M.filter (fun c => c.1 == if x p0 t < x p1 t then p0 else p1) =
        (teamsFor K.length x q (if x p0 t < x p1 t then p0 else p1)).map (fun j => ((if x p0 t < x p1 t then p0 else p1), j)) := by
      rw [hM, rowOf_matched _ (show _ < (decisionMatrix (fin q) a).rows by rw [show (decisionMatrix (fin q) a).rows = a.rows from rfl, ha.1]; exact hlt)]
      unfold teamsFor
      rw [show (decisionMatrix (fin q) a).cols = K.length from ha.2.1]
      congr 1
      refine List.filter_congr fun j hj => ?_
      simp [hone _ hlt j (List.mem_range.mp hj)]
    simp only [List.map_cons, hpick, hrow]
    constructor
    · rw [List.map_map]; rfl
    · rw [List.map_map]
      exact List.eq_replicate_iff.mpr ⟨by simp, fun b hb => by
        obtain ⟨j, -, rfl⟩ := List.mem_map.mp hb; rfl⟩

/-- C44 when no project is matched with two teams and no team with more than two projects. Missing: other cases, see `C44_report`. -/
theorem C44_best_partial {d : TeamData} {caps types : List ℕ} {combos : List (ℕ × ℕ)} (hp : PairsOk caps.length combos)
    (ht : TypesOk types)
    (hfit : ∀ c ∈ combos, ∀ t ∈ types, RealKind (c.1, c.2, t) → ∀ x, need (c.1, c.2, t) x ≤ unitCap caps x) :
    ∃ T count, generateTeams d caps types combos = some T ∧
      (∀ c ∈ combos, ∀ t ∈ types, IsCount (unitCap caps) (c.1, c.2, t) (count (c.1, c.2, t))) ∧
      ReportOk (analysisData caps combos T) (teams combos types count)
        (fun P x q => (∀ i < P, (teamsFor (teams combos types count).length x q i).length ≤ 1) ∧
          ∀ j < (teams combos types count).length, (projectsFor P x q j).length ≤ 2) OneBest := by
  obtain ⟨T, count, h1, h2, h3⟩ := C44_report (d := d) hp ht hfit
  refine ⟨T, count, h1, h2, fun byTeams P a x belief q hq ha hbl hb hok => ?_⟩
  obtain ⟨out, entries, k1, k2, k3, k4⟩ := h3 byTeams P a x belief q hq ha hbl hb trivial
  refine ⟨out, entries, k1, k2, k3, fun n t hn => ?_⟩
  obtain ⟨ts, ps, hr, he⟩ := k4 n t hn
  refine ⟨ts, ps, ?_, he⟩
  obtain ⟨htT, ⟨p, e1, e2, e3⟩ | ⟨p0, p1, l, p, e1, e2, e3, e4⟩⟩ := hr
  · exact ⟨e2, p, e3, by rw [e1]; simp, fun p' hp' => by rw [e1, List.mem_singleton] at hp'; rw [hp']⟩
  · have htm : x p0 t < q ∧ p0 < P ∧ x p1 t < q ∧ p1 < P := by
      have a1 : p0 ∈ projectsFor P x q t := by rw [e1]; simp
      have a2 : p1 ∈ projectsFor P x q t := by rw [e1]; simp
      unfold projectsFor at a1 a2
      simp only [List.mem_filter, List.mem_range, decide_eq_true_eq] at a1 a2
      exact ⟨a1.2, a1.1, a2.2, a2.1⟩
    have hl : l = [] := by
      have := hok.2 t htT
      rw [e1] at this
      simp at this
      exact List.length_eq_zero_iff.mp (by simpa using this)
    subst hl
    have hpP : p < P ∧ x p t < q := by rw [e2]; split_ifs; exacts [⟨htm.2.1, htm.1⟩, ⟨htm.2.2.2, htm.2.2.1⟩]
    have htf : teamsFor (teams combos types count).length x q p = [t] := by
      have hm : t ∈ teamsFor (teams combos types count).length x q p := by
        unfold teamsFor
        simp only [List.mem_filter, List.mem_range, decide_eq_true_eq]
        exact ⟨htT, hpP.2⟩
      have := hok.1 p hpP.1
      rcases hc : teamsFor (teams combos types count).length x q p with _ | ⟨b, _ | ⟨c, l⟩⟩
      · rw [hc] at hm; simp at hm
      · rw [hc, List.mem_singleton] at hm; rw [hm]
      · rw [hc] at this; simp at this
    rw [htf] at e3 e4
    refine ⟨e3, p, e4, ?_, fun p' hp' => ?_⟩
    · rw [e1, e2]; split_ifs <;> simp
    · rw [e1] at hp'
      simp only [List.mem_cons, List.not_mem_nil, or_false] at hp'
      rw [e2]
      split_ifs with hlt
      · rcases hp' with rfl | rfl
        · exact le_rfl
        · exact hlt.le
      · rcases hp' with rfl | rfl
        · exact not_lt.mp hlt
        · exact le_rfl

/-- Two projects, three teams (two of type 1 and one of type 3, capacity 2): team 1 is matched with both projects and reported with the second. -/
example : (generateTeams flatData [2] [1, 3] [(1, 1)]).bind (fun T =>
    (kcPost (analysisData [2] [(1, 1)] T) false 3 (fin 0) (Mat.ofRat 2 3 fun i j => if j = 1 then -1 - i else 1) [0, 0, 0]).bind (fun o =>
      (resultEntries (analysisData [2] [(1, 1)] T)
        (matchedPairs (decisionMatrix (fin 0) (Mat.ofRat 2 3 fun i j => if j = 1 then -1 - i else 1))) o).map
        (fun es => es.map (fun e => (e.2.1, e.2.2.1, e.2.2.2))))) = some [(1, [2], [2])] := by decide +kernel

end Verif.Properties
