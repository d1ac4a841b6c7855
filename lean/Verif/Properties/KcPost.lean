import Verif.Proofs.KcPost
import Verif.Properties.KcMatch
import Verif.Properties.KcTeams

/-! C32: the post-processing of the assignment solver ends within the capacities. C43: which teams it removes. -/

namespace Verif.Properties
open Verif Model Spec Proofs Num

/-- The attributes of the analysis after team generation (`teams_types` is the type list of the first unit). -/
def analysisData (caps : List ℕ) (combos : List (ℕ × ℕ)) (T : Teams) : KcTeamsPy := ⟨caps, T.weights, T.types.getD 0 [], T.last, combos⟩

/-- `sel` lists the teams with a belief below the threshold for some project, in ascending order. -/
def IsSelection (a : Mat Num) (q : ℚ) (sel : List ℕ) : Prop :=
  sel.Pairwise (· < ·) ∧ ∀ j, j ∈ sel ↔ j < a.cols ∧ ∃ i < a.rows, lt (a.data i j) (fin q) = true

/-- What the post-processing should achieve for teams of the kinds `K`: it ends within as many rounds as there are teams, keeps only selected
teams, respects every capacity, tracks the true loads, knows the units of every kept team, and removes nothing if everything fits. -/
def PostOk (py : KcTeamsPy) (K : List (ℕ × ℕ × ℕ)) : Prop :=
  ∀ (byTeams : Bool) (a : Mat Num) (belief : List Num) (q : ℚ) (sel : List ℕ), q ≤ 0 → a.cols = K.length → belief.length = K.length →
    nan ∉ belief → IsSelection a q sel →
    ∃ out, kcPost py byTeams K.length (fin q) a belief = some out ∧ out.final.sel.Sublist sel ∧ (∀ d, ¬ Over py.caps K out.final.sel d) ∧
      out.final.loads = (List.range py.caps.length).map (fun x => (load K out.final.sel (x + 1) : ℤ)) ∧
      out.final.locs.map (fun l => py.combos[l]?) = out.final.sel.map (fun i => some ((K.getD i (0, 0, 0)).1, (K.getD i (0, 0, 0)).2.1)) ∧
      ((∀ d, ¬ Over py.caps K sel d) → out.final.sel = sel)

/-- C32, full claim: the post-processing works for the generated teams. -/
def C32_claim : Prop :=
  ∀ (d : TeamData) (caps types : List ℕ) (combos : List (ℕ × ℕ)), PairsOk caps.length combos → TypesOk types →
    ∃ T count, generateTeams d caps types combos = some T ∧
      (∀ c ∈ combos, ∀ t ∈ types, IsCount (unitCap caps) (c.1, c.2, t) (count (c.1, c.2, t))) ∧
      PostOk (analysisData caps combos T) (teams combos types count)

theorem count_single {caps : List ℕ} {u t c m : ℕ} (h : IsCount (unitCap caps) (u, u, t) c) (hs : (crew t).1 + (crew t).2 = m)
    (hm : 0 < m) : c = unitCap caps u / m := by
  have hn : ∀ d, need (u, u, t) d = if d = u then m else 0 := by
    intro d; unfold need; simp only; split_ifs <;> omega
  obtain ⟨h1, h2⟩ := h.1 (Or.inr rfl)
  apply le_antisymm
  · have := h1 u
    rw [hn, if_pos rfl] at this
    exact (Nat.le_div_iff_mul_le hm).mpr this
  · refine h2 fun d => ?_
    rw [hn]
    split_ifs with e
    · rw [e]; exact Nat.div_mul_le_self _ _
    · simp

theorem selection_eq {a : Mat Num} {q : ℚ} {sel : List ℕ} (hq : q ≤ 0) (h : IsSelection a q sel) :
    sel = selectedTeams (decisionMatrix (fin q) a) := by
  obtain ⟨-, -, h3, h4⟩ := C31_nonpositive_partial hq a
  refine List.Perm.eq_of_pairwise (le := (· < ·)) (fun a b _ _ h1 h2 => by omega) h.1 h3 ?_
  refine (List.perm_ext_iff_of_nodup (h.1.imp (fun h => h.ne)) (h3.imp (fun h => h.ne))).mpr fun j => ?_
  rw [h.2, h4]

/-- Units of capacities 3 and 4, types 5 and 1: the entry written for the type that does not fit into unit 1 shifts its weights, so that the
team of type 5 of unit 2 is counted in unit 1 as well. -/
theorem C32_claim_false : ¬ C32_claim := by
  intro h
  obtain ⟨T, count, h1, h2, h3⟩ := h flatData [3, 4] [5, 1] [(1, 1), (2, 2)] (by unfold PairsOk; decide) (by unfold TypesOk; decide)
  have e : (generateTeams flatData [3, 4] [5, 1] [(1, 1), (2, 2)]).map (analysisData [3, 4] [(1, 1), (2, 2)]) =
      some ⟨[3, 4], [[4, 1, 1, 1, 0, 0, 0, 0, 0], [0, 0, 0, 4, 1, 1, 1, 1]], [5, 1, 1, 1, 5, 1, 1, 1, 1], [2, 7], [(1, 1), (2, 2)]⟩ := by
    decide +kernel
  rw [h1, Option.map_some, Option.some.injEq] at e
  have hK : teams [(1, 1), (2, 2)] [5, 1] count = [(1, 1, 1), (1, 1, 1), (1, 1, 1), (2, 2, 5), (2, 2, 1), (2, 2, 1), (2, 2, 1), (2, 2, 1)] := by
    have c1 : count (1, 1, 5) = 0 := count_single (m := 4) (h2 (1, 1) (by simp) 5 (by simp)) rfl (by simp)
    have c2 : count (1, 1, 1) = 3 := count_single (m := 1) (h2 (1, 1) (by simp) 1 (by simp)) rfl (by simp)
    have c3 : count (2, 2, 5) = 1 := count_single (m := 4) (h2 (2, 2) (by simp) 5 (by simp)) rfl (by simp)
    have c4 : count (2, 2, 1) = 4 := count_single (m := 1) (h2 (2, 2) (by simp) 1 (by simp)) rfl (by simp)
    simp [teams, c1, c2, c3, c4]
  rw [e, hK] at h3
  obtain ⟨out, k1, -, -, k2, -⟩ := h3 false ⟨1, 8, fun _ j => if j = 3 then fin (-1) else 0⟩ (List.replicate 8 0) 0 [3] le_rfl rfl rfl
    (by decide +kernel) ⟨by decide, fun j => by
      constructor
      · intro hj
        rw [List.mem_singleton.mp hj]
        exact ⟨by decide, 0, by decide, by decide +kernel⟩
      · rintro ⟨-, i, -, hi⟩
        by_contra hne
        simp only [List.mem_singleton] at hne
        change lt (if j = 3 then fin (-1) else 0) (fin 0) = true at hi
        rw [if_neg hne] at hi
        revert hi; decide +kernel⟩
  have e2 : (kcPost ⟨[3, 4], [[4, 1, 1, 1, 0, 0, 0, 0, 0], [0, 0, 0, 4, 1, 1, 1, 1]], [5, 1, 1, 1, 5, 1, 1, 1, 1], [2, 7], [(1, 1), (2, 2)]⟩
      false 8 (fin 0) ⟨1, 8, fun _ j => if j = 3 then fin (-1) else 0⟩ (List.replicate 8 0)).map (fun o => (o.final.sel, o.final.loads)) =
      some ([3], [1, 4]) := by decide +kernel
  have k1' : kcPost ⟨[3, 4], [[4, 1, 1, 1, 0, 0, 0, 0, 0], [0, 0, 0, 4, 1, 1, 1, 1]], [5, 1, 1, 1, 5, 1, 1, 1, 1], [2, 7], [(1, 1), (2, 2)]⟩
      false 8 (fin 0) ⟨1, 8, fun _ j => if j = 3 then fin (-1) else 0⟩ (List.replicate 8 0) = some out := k1
  rw [k1', Option.map_some, Option.some.injEq, Prod.mk.injEq] at e2
  rw [e2.1, e2.2] at k2
  revert k2
  decide

theorem count_ne_zero {d : TeamData} {caps types : List ℕ} {combos : List (ℕ × ℕ)} (hp : PairsOk caps.length combos) (ht : TypesOk types)
    (hfit : ∀ c ∈ combos, ∀ t ∈ types, RealKind (c.1, c.2, t) → ∀ x, need (c.1, c.2, t) x ≤ unitCap caps x) :
    ∀ c ∈ combos, ∀ t ∈ types, RealKind (c.1, c.2, t) → countOf (capOf caps) (c.1, c.2, t) ≠ 0 := by
  obtain ⟨st, h1, h2, h3⟩ := generateTeams_spec (d := d) (fit := False) ht hp (fun h => h.elim)
  intro c hc t htt hr h0
  have h1 : (1 : ℕ) ≤ countOf (capOf caps) (c.1, c.2, t) := ((h2 c hc t htt).1 hr).2 (by
    intro x; rw [one_mul]; exact hfit c hc t htt hr x)
  omega

/-- C32 when at least one team of every kind fits its units, for both options, all thresholds at most 0, all beliefs without NaN
including infinite ones and ties. Missing: kinds that do not fit (`C32_claim_false`) and positive thresholds (C31). -/
theorem C32_fits_partial {d : TeamData} {caps types : List ℕ} {combos : List (ℕ × ℕ)} (hp : PairsOk caps.length combos)
    (ht : TypesOk types)
    (hfit : ∀ c ∈ combos, ∀ t ∈ types, RealKind (c.1, c.2, t) → ∀ x, need (c.1, c.2, t) x ≤ unitCap caps x) :
    ∃ T count, generateTeams d caps types combos = some T ∧
      (∀ c ∈ combos, ∀ t ∈ types, IsCount (unitCap caps) (c.1, c.2, t) (count (c.1, c.2, t))) ∧
      PostOk (analysisData caps combos T) (teams combos types count) := by
  obtain ⟨T, h1, h2, h3⟩ := generated_tables (d := d) ht hp (count_ne_zero (d := d) hp ht hfit)
  refine ⟨T, _, h1, h2, fun byTeams a belief q sel hq ha hbl hb hs => ?_⟩
  obtain ⟨out, k1, k2, k3, -, k4⟩ := kcPost_spec h3 (bel_ne_nan hbl hb) ha byTeams le_rfl (fin q)
  rw [← selection_eq hq hs] at k3 k4
  refine ⟨out, k1, k3, removals_fit k4, ?_, ?_, fun hno => ?_⟩
  · refine List.ext_getElem? fun x => ?_
    by_cases hx : x < caps.length
    · rw [k2.loads x hx]; simp [analysisData, hx]
    · rw [List.getElem?_eq_none (by rw [k2.len]; exact not_lt.mp hx), List.getElem?_eq_none (by simpa [analysisData] using not_lt.mp hx)]
  · rw [k2.locs, List.map_map]
    exact List.map_congr_left fun i hi => (locate_spec h3 (k2.lt i hi)).2
  · cases k4 with
    | done _ => rfl
    | step ho _ _ _ => exact absurd ho (hno _)

/-- Capacities 4 and 6, types 2 and 4, pairs (1, 1) and (1, 2): all nine teams are selected and seven are removed. -/
example : (generateTeams flatData [4, 6] [2, 4] [(1, 1), (1, 2)]).bind (fun T =>
    (kcPost (analysisData [4, 6] [(1, 1), (1, 2)] T) false 9 (fin 0) ⟨1, 9, fun _ _ => fin (-1)⟩
      ((List.range 9).map (fun i => fin i))).map (fun o => (o.final.sel, o.final.loads, o.final.locs))) =
    some ([0, 1], [4, 0], [0, 0]) := by decide +kernel

example : (generateTeams flatData [4, 6] [2, 4] [(1, 1), (1, 2)]).bind (fun T =>
    (kcPost (analysisData [4, 6] [(1, 1), (1, 2)] T) true 9 (fin 0) ⟨1, 9, fun _ _ => fin (-1)⟩
      ((List.range 9).map (fun i => fin (-i)))).map (fun o => (o.final.sel, o.final.loads, o.final.locs))) =
    some ([7, 8], [4, 2], [1, 1]) := by decide +kernel

/-- `t` may be removed and is the least confident team that may be removed (large beliefs are bad). -/
def LeastConfident (belief : List ℚ) (C : ℕ → Prop) (t : ℕ) : Prop := C t ∧ ∀ j, C j → belief.getD j 0 ≤ belief.getD t 0

/-- What is removed in each round for teams of the kinds `K`; `Ok` restricts the beliefs. -/
def RemovesWeakest (py : KcTeamsPy) (K : List (ℕ × ℕ × ℕ)) (Ok : List ℚ → List ℕ → Prop)
    (Pick : Bool → List ℚ → List ℕ → ℕ → Prop) : Prop :=
  ∀ (byTeams : Bool) (a : Mat Num) (belief : List ℚ) (q : ℚ) (sel : List ℕ), q ≤ 0 → a.cols = K.length → belief.length = K.length →
    IsSelection a q sel → Ok belief sel →
    ∃ out, kcPost py byTeams K.length (fin q) a (belief.map fin) = some out ∧
      Removals py.caps K (Pick byTeams belief) sel out.final.sel

/-- C43, full claim: as long as a unit is overloaded, option 1 removes the least confident team of the first overloaded unit, and option 2 the
least confident team among those it considers. -/
def C43_claim : Prop :=
  ∀ (d : TeamData) (caps types : List ℕ) (combos : List (ℕ × ℕ)), PairsOk caps.length combos → TypesOk types →
    (∀ c ∈ combos, ∀ t ∈ types, RealKind (c.1, c.2, t) → ∀ x, need (c.1, c.2, t) x ≤ unitCap caps x) →
    ∃ T count, generateTeams d caps types combos = some T ∧
      (∀ c ∈ combos, ∀ t ∈ types, IsCount (unitCap caps) (c.1, c.2, t) (count (c.1, c.2, t))) ∧
      RemovesWeakest (analysisData caps combos T) (teams combos types count) (fun _ _ => True)
        (fun byTeams belief sel t => LeastConfident belief (candidates byTeams caps (teams combos types count) sel) t)

/-- Two units of capacity 2: unit 2 is overloaded by teams 3, 4 and 5, but team 0 of unit 1 has the same belief and is removed first. -/
theorem C43_claim_false : ¬ C43_claim := by
  intro h
  obtain ⟨T, count, h1, h2, h3⟩ := h flatData [2, 2] [1, 3] [(1, 1), (2, 2)] (by unfold PairsOk; decide) (by unfold TypesOk; decide) (by
    intro c hc t ht _ x
    have hx : x = 0 ∨ x = 1 ∨ x = 2 ∨ 3 ≤ x := by omega
    simp only [List.mem_cons, List.not_mem_nil, or_false] at hc ht
    rcases hx with rfl | rfl | rfl | hx
    · rcases hc with rfl | rfl <;> rcases ht with rfl | rfl <;> decide
    · rcases hc with rfl | rfl <;> rcases ht with rfl | rfl <;> decide
    · rcases hc with rfl | rfl <;> rcases ht with rfl | rfl <;> decide
    · have : need (c.1, c.2, t) x = 0 := by
        unfold need
        rw [if_neg (by rcases hc with rfl | rfl <;> simp <;> omega), if_neg (by rcases hc with rfl | rfl <;> simp <;> omega)]
      omega)
  have e : (generateTeams flatData [2, 2] [1, 3] [(1, 1), (2, 2)]).map (analysisData [2, 2] [(1, 1), (2, 2)]) =
      some ⟨[2, 2], [[1, 1, 2, 0, 0, 0], [0, 0, 0, 1, 1, 2]], [1, 1, 3, 1, 1, 3], [2, 5], [(1, 1), (2, 2)]⟩ := by
    decide +kernel
  rw [h1, Option.map_some, Option.some.injEq] at e
  have hK : teams [(1, 1), (2, 2)] [1, 3] count = [(1, 1, 1), (1, 1, 1), (1, 1, 3), (2, 2, 1), (2, 2, 1), (2, 2, 3)] := by
    have c1 : count (1, 1, 1) = 2 := count_single (m := 1) (h2 (1, 1) (by simp) 1 (by simp)) rfl (by simp)
    have c2 : count (1, 1, 3) = 1 := count_single (m := 2) (h2 (1, 1) (by simp) 3 (by simp)) rfl (by simp)
    have c3 : count (2, 2, 1) = 2 := count_single (m := 1) (h2 (2, 2) (by simp) 1 (by simp)) rfl (by simp)
    have c4 : count (2, 2, 3) = 1 := count_single (m := 2) (h2 (2, 2) (by simp) 3 (by simp)) rfl (by simp)
    simp [teams, c1, c2, c3, c4]
  rw [e, hK] at h3
  obtain ⟨out, k1, k2⟩ := h3 false ⟨1, 6, fun _ j => if j = 1 ∨ j = 2 then 0 else fin (-1)⟩ (List.replicate 6 0) 0 [0, 3, 4, 5] le_rfl rfl rfl
    ⟨by decide, fun j => by
      constructor
      · intro hj
        simp only [List.mem_cons, List.not_mem_nil, or_false] at hj
        rcases hj with rfl | rfl | rfl | rfl <;> exact ⟨by decide, 0, by decide, by decide +kernel⟩
      · rintro ⟨hj, i, -, hi⟩
        change j < 6 at hj
        change lt (if j = 1 ∨ j = 2 then 0 else fin (-1)) (fin 0) = true at hi
        interval_cases j <;> first | decide | (revert hi; decide +kernel)⟩ trivial
  have e2 : (kcPost ⟨[2, 2], [[1, 1, 2, 0, 0, 0], [0, 0, 0, 1, 1, 2]], [1, 1, 3, 1, 1, 3], [2, 5], [(1, 1), (2, 2)]⟩
      false 6 (fin 0) ⟨1, 6, fun _ j => if j = 1 ∨ j = 2 then 0 else fin (-1)⟩ ((List.replicate 6 0).map fin)).map (fun o => o.final.sel) =
      some [5] := by decide +kernel
  have k1' : kcPost ⟨[2, 2], [[1, 1, 2, 0, 0, 0], [0, 0, 0, 1, 1, 2]], [1, 1, 3, 1, 1, 3], [2, 5], [(1, 1), (2, 2)]⟩
      false 6 (fin 0) ⟨1, 6, fun _ j => if j = 1 ∨ j = 2 then 0 else fin (-1)⟩ ((List.replicate 6 0).map fin) = some out := k1
  rw [k1', Option.map_some, Option.some.injEq] at e2
  have := innocent_kept k2 (fun s t hp => (candidates_use hp.1).2) (i := 0) (by simp) (fun d hd ho => by
    obtain ⟨o1, o2, o3⟩ := ho
    have o2' : d ≤ 2 := o2
    interval_cases d
    · revert o3; decide
    · revert hd; unfold Uses; decide)
  rw [e2] at this
  simp at this

/-- C43 when no two selected teams have the same belief. Moreover a selected team that uses no overloaded unit is kept.
Missing: equal beliefs (`C43_claim_false`, `C43_ties`). -/
theorem C43_distinct_partial {d : TeamData} {caps types : List ℕ} {combos : List (ℕ × ℕ)} (hp : PairsOk caps.length combos)
    (ht : TypesOk types)
    (hfit : ∀ c ∈ combos, ∀ t ∈ types, RealKind (c.1, c.2, t) → ∀ x, need (c.1, c.2, t) x ≤ unitCap caps x) :
    ∃ T count, generateTeams d caps types combos = some T ∧
      (∀ c ∈ combos, ∀ t ∈ types, IsCount (unitCap caps) (c.1, c.2, t) (count (c.1, c.2, t))) ∧
      RemovesWeakest (analysisData caps combos T) (teams combos types count)
        (fun belief sel => ∀ i ∈ sel, ∀ j ∈ sel, belief.getD i 0 = belief.getD j 0 → i = j)
        (fun byTeams belief sel t => LeastConfident belief (candidates byTeams caps (teams combos types count) sel) t) ∧
      ∀ sel r byTeams belief, Removals caps (teams combos types count)
          (fun sel t => LeastConfident belief (candidates byTeams caps (teams combos types count) sel) t) sel r →
        ∀ i ∈ sel, (∀ x, Uses (teams combos types count) i x → ¬ Over caps (teams combos types count) sel x) → i ∈ r := by
  obtain ⟨T, h1, h2, h3⟩ := generated_tables (d := d) ht hp (count_ne_zero (d := d) hp ht hfit)
  refine ⟨T, _, h1, h2, fun byTeams a belief q sel hq ha hbl hs hd => ?_, fun sel r byTeams belief hr i hi hno =>
    innocent_kept hr (fun s t hp => (candidates_use hp.1).2) hi hno⟩
  obtain ⟨out, k1, k2, k3, -, k4⟩ := kcPost_spec h3 (bel_ne_nan (belief := belief.map fin) (by simpa using hbl) (by simp)) ha byTeams le_rfl (fin q)
  rw [← selection_eq hq hs] at k3 k4
  refine ⟨out, k1, removals_mono k4 fun s t hst hts hw => ?_⟩
  have hbel : ∀ i ∈ sel, bel (belief.map fin) i = fin (belief.getD i 0) := by
    intro i hi
    have : i < belief.length := by rw [hbl, ← ha]; exact ((hs.2 i).mp hi).1
    simp [bel, List.getD_eq_getElem?_getD, this]
  have hmem : ∀ c, candidates byTeams caps (teams combos types (countOf (capOf caps))) s c → c ∈ sel :=
    fun c hc => hst.subset (candidates_use hc).1
  obtain ⟨⟨c, c1, c2⟩, c3⟩ := hw
  have ht' : t ∈ sel := hst.subset hts
  have : c = t := hd c (hmem c c1) t ht' (by
    rw [hbel c (hmem c c1), hbel t ht'] at c2
    exact fin_inj.mp c2)
  subst this
  refine ⟨c1, fun j hj => ?_⟩
  have := c3 j hj
  rw [hbel j (hmem j hj), hbel c ht'] at this
  simpa using this

/-- C43 in general: the removed team has the same belief as a least confident team that may be removed. -/
theorem C43_ties {d : TeamData} {caps types : List ℕ} {combos : List (ℕ × ℕ)} (hp : PairsOk caps.length combos)
    (ht : TypesOk types)
    (hfit : ∀ c ∈ combos, ∀ t ∈ types, RealKind (c.1, c.2, t) → ∀ x, need (c.1, c.2, t) x ≤ unitCap caps x) :
    ∃ T count, generateTeams d caps types combos = some T ∧
      (∀ c ∈ combos, ∀ t ∈ types, IsCount (unitCap caps) (c.1, c.2, t) (count (c.1, c.2, t))) ∧
      RemovesWeakest (analysisData caps combos T) (teams combos types count) (fun _ _ => True)
        (fun byTeams belief sel t => ∃ c, LeastConfident belief (candidates byTeams caps (teams combos types count) sel) c ∧
          belief.getD t 0 = belief.getD c 0) := by
  obtain ⟨T, h1, h2, h3⟩ := generated_tables (d := d) ht hp (count_ne_zero (d := d) hp ht hfit)
  refine ⟨T, _, h1, h2, fun byTeams a belief q sel hq ha hbl hs hd => ?_⟩
  obtain ⟨out, k1, k2, k3, -, k4⟩ := kcPost_spec h3 (bel_ne_nan (belief := belief.map fin) (by simpa using hbl) (by simp)) ha byTeams le_rfl (fin q)
  rw [← selection_eq hq hs] at k3 k4
  refine ⟨out, k1, removals_mono k4 fun s t hst hts hw => ?_⟩
  have hbel : ∀ i ∈ sel, bel (belief.map fin) i = fin (belief.getD i 0) := by
    intro i hi
    have : i < belief.length := by rw [hbl, ← ha]; exact ((hs.2 i).mp hi).1
    simp [bel, List.getD_eq_getElem?_getD, this]
  have hmem : ∀ c, candidates byTeams caps (teams combos types (countOf (capOf caps))) s c → c ∈ sel :=
    fun c hc => hst.subset (candidates_use hc).1
  obtain ⟨⟨c, c1, c2⟩, c3⟩ := hw
  have ht' : t ∈ sel := hst.subset hts
  rw [hbel c (hmem c c1), hbel t ht', fin_inj] at c2
  refine ⟨c, ⟨c1, fun j hj => ?_⟩, c2.symm⟩
  have := c3 j hj
  rw [hbel j (hmem j hj), hbel t ht', ← c2] at this
  simpa using this

end Verif.Properties
