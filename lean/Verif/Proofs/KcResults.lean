import Verif.Proofs.KcPost

/-! Helper lemmas for the results of the assignment solver. -/

namespace Verif.Proofs
open Verif Model Spec Num

/-- The pairs of team `t`. -/
abbrev usesOf (pairs : List (ℕ × ℕ)) (t : ℕ) : List (ℕ × ℕ) := pairs.filter (fun p => p.2 == t)

/-- Each later use of a team with its first use. -/
def laterUses (l : List (ℕ × ℕ)) : List ((ℕ × ℕ) × (ℕ × ℕ)) :=
  match l with
  | [] => []
  | q :: l => l.map (fun p => (p, q))

theorem laterUses_append {l : List (ℕ × ℕ)} {p : ℕ × ℕ} : laterUses (l ++ [p]) =
    match l.head? with
    | none => []
    | some q => laterUses l ++ [(p, q)] := by
  cases l <;> simp [laterUses]

theorem reusedPairs_of_team (pairs : List (ℕ × ℕ)) (t : ℕ) :
    (reusedPairs pairs).filter (fun c => c.1.2 == t) = laterUses (usesOf pairs t) := by
  have key : ∀ (l done : List (ℕ × ℕ)) (s : List (ℕ × ℕ) × List ((ℕ × ℕ) × (ℕ × ℕ))),
      (∀ t, s.1.find? (fun q => q.2 == t) = (usesOf done t).head?) →
      (∀ t, s.2.filter (fun c => c.1.2 == t) = laterUses (usesOf done t)) →
      ∀ t, (l.foldl (fun (s : List (ℕ × ℕ) × List ((ℕ × ℕ) × (ℕ × ℕ))) p =>
        match s.1.find? (fun q => q.2 == p.2) with
        | none => (s.1 ++ [p], s.2)
        | some q => (s.1, s.2 ++ [(p, q)])) s).2.filter (fun c => c.1.2 == t) = laterUses (usesOf (done ++ l) t) := by
    intro l
    induction l with
    | nil => intro done s _ h t; simpa using h t
    | cons p l ih =>
      intro done s h1 h2 t
      rw [List.foldl_cons, show done ++ p :: l = (done ++ [p]) ++ l by simp]
      have hu : ∀ t, usesOf (done ++ [p]) t = if p.2 = t then usesOf done t ++ [p] else usesOf done t := by
        intro t
        unfold usesOf
        rw [List.filter_append]
        by_cases e : p.2 = t <;> simp [e]
      refine ih (done ++ [p]) _ (fun t => ?_) (fun t => ?_) t
      · rw [hu]
        split
        · rename_i hn
          rw [h1] at hn
          rw [List.find?_append, h1]
          by_cases e : p.2 = t
          · subst e
            rw [if_pos rfl, List.head?_append, hn]; simp
          · rw [if_neg e]; simp [e]
        · rename_i q hq
          rw [h1] at hq
          rw [h1]
          by_cases e : p.2 = t
          · subst e
            rw [if_pos rfl, List.head?_append, hq]; simp
          · rw [if_neg e]
      · rw [hu]
        split
        · rename_i hn
          rw [h1] at hn
          rw [h2]
          by_cases e : p.2 = t
          · subst e
            rw [if_pos rfl, laterUses_append, hn]
            have : usesOf done p.2 = [] := List.head?_eq_none_iff.mp hn
            rw [this]; rfl
          · rw [if_neg e]
        · rename_i q hq
          rw [h1] at hq
          rw [List.filter_append, h2]
          by_cases e : p.2 = t
          · subst e
            rw [if_pos rfl, laterUses_append, hq]; simp
          · rw [if_neg e]; simp [e]
  have := key pairs [] ([], []) (by simp) (by simp [laterUses]) t
  rw [List.nil_append] at this
  exact this

theorem usesOf_matched (p : Mat Num) {t : ℕ} (ht : t < p.cols) :
    usesOf (matchedPairs p) t = ((List.range p.rows).filter (fun i => p.data i t = fin 1)).map (fun i => (i, t)) := by
  unfold usesOf matchedPairs
  rw [List.filter_flatMap]
  have hcell : ∀ i, (((List.range p.cols).filter (fun j => p.data i j = fin 1)).map (fun j => (i, j))).filter (fun c => c.2 == t) =
      if p.data i t = fin 1 then [(i, t)] else [] := by
    intro i
    rw [List.filter_map, List.filter_filter]
    have : (List.range p.cols).filter (fun j => ((fun c : ℕ × ℕ => c.2 == t) ∘ fun j => (i, j)) j && decide (p.data i j = fin 1)) =
        if p.data i t = fin 1 then [t] else [] := by
      have e : ∀ n, (List.range n).filter (fun j => ((fun c : ℕ × ℕ => c.2 == t) ∘ fun j => (i, j)) j && decide (p.data i j = fin 1)) =
          if t < n ∧ p.data i t = fin 1 then [t] else [] := by
        intro n
        induction n with
        | zero => simp
        | succ n ih =>
          rw [List.range_succ, List.filter_append, ih]
          by_cases e : n = t
          · subst e
            by_cases h : p.data i n = fin 1 <;> simp [h]
          · by_cases h : p.data i t = fin 1
            · by_cases hlt : t < n
              · simp [h, hlt, e]; omega
              · simp [h, hlt, e]; omega
            · simp [h, e]
      rw [e]
      simp [ht]
    rw [this]
    split_ifs <;> simp
  simp only [hcell]
  induction p.rows with
  | zero => simp
  | succ n ih =>
    rw [List.range_succ, List.flatMap_append, ih, List.filter_append, List.map_append]
    by_cases h : p.data n t = fin 1 <;> simp [h]

/-- The pair that is picked. -/
def pickOf (x : ℕ → ℕ → ℚ) (c : (ℕ × ℕ) × (ℕ × ℕ)) : ℕ × ℕ := if x c.2.1 c.2.2 < x c.1.1 c.1.2 then c.2 else c.1

theorem pickPair_spec {P T : ℕ} {a : Mat Num} {x : ℕ → ℕ → ℚ} (ha : a.Is P T x) {c : (ℕ × ℕ) × (ℕ × ℕ)}
    (h1 : c.1.1 < P ∧ c.1.2 < T) (h2 : c.2.1 < P ∧ c.2.2 < T) (hx : x c.1.1 c.1.2 < 1000000000) :
    pickPair a c = some (some (pickOf x c)) := by
  unfold pickPair pickOf
  rw [ha.rd h1.1 h1.2, ha.rd h2.1 h2.2]
  simp only [Option.bind_eq_bind, Option.bind_some, lt_fin, decide_eq_true hx, if_true, decide_eq_true_eq]
  split_ifs <;> rfl

theorem reused_team {pairs : List (ℕ × ℕ)} {c : (ℕ × ℕ) × (ℕ × ℕ)} (h : c ∈ reusedPairs pairs) : c.2.2 = c.1.2 := by
  have : c ∈ (reusedPairs pairs).filter (fun d => d.1.2 == c.1.2) := List.mem_filter.mpr ⟨h, by simp⟩
  rw [reusedPairs_of_team] at this
  have hsub : ∀ d ∈ laterUses (usesOf pairs c.1.2), d.2 ∈ usesOf pairs c.1.2 := by
    intro d hd
    unfold laterUses at hd
    split at hd
    · simp at hd
    · rename_i q l e
      obtain ⟨p, -, rfl⟩ := List.mem_map.mp hd
      rw [e]; simp
  have := List.mem_filter.mp (hsub c this)
  simpa using this.2

/-- The pairs reported for a team. -/
def hitsOf (x : ℕ → ℕ → ℚ) (pairs : List (ℕ × ℕ)) (team : ℕ) : List (ℕ × ℕ) :=
  match usesOf pairs team with
  | p0 :: p1 :: _ => pairs.filter (fun c => c.1 == (pickOf x (p1, p0)).1)
  | l => l

section
variable {py : KcTeamsPy} {K : List (ℕ × ℕ × ℕ)}

theorem resultEntry_spec (h : TeamTables py K) {P : ℕ} {a : Mat Num} {x : ℕ → ℕ → ℚ} (ha : a.Is P K.length x) {q : ℚ} (hq : q ≤ 0)
    {out : KcPostOut} (hi : RemInv py K out.final)
    (hic : (reusedPairs (matchedPairs (decisionMatrix (fin q) a))).mapM (pickPair a) = some out.ic) {n team : ℕ}
    (hn : out.final.sel[n]? = some team) :
    resultEntry py (matchedPairs (decisionMatrix (fin q) a)) out n =
      some (unitsOf K team, (kindOf K team).2.2, (hitsOf x (matchedPairs (decisionMatrix (fin q) a)) team).map (fun c => c.2 + 1),
        (hitsOf x (matchedPairs (decisionMatrix (fin q) a)) team).map (fun c => c.1 + 1)) := by
  have hlt := hi.lt team (List.mem_of_getElem? hn)
  have hmat : ∀ c ∈ matchedPairs (decisionMatrix (fin q) a), (c.1 < P ∧ c.2 < K.length) ∧ x c.1 c.2 < q := by
    intro c hc
    obtain ⟨c1, c2, c3⟩ := mem_matchedPairs.mp hc
    have c1' : c.1 < P := by rw [← ha.1]; exact c1
    have c2' : c.2 < K.length := by rw [← ha.2.1]; exact c2
    have c3' := (decideEntry_nonpos hq _).mp c3
    rw [ha.2.2 _ c1' _ c2'] at c3'
    exact ⟨⟨c1', c2'⟩, by simpa using c3'⟩
  have hic' : out.ic = (reusedPairs (matchedPairs (decisionMatrix (fin q) a))).map (fun c => some (pickOf x c)) := by
    rw [mapM_some (g := fun c => some (pickOf x c)) (fun c hc => by
      obtain ⟨c1, c2⟩ := mem_reusedPairs hc
      exact pickPair_spec ha (hmat _ c1).1 (hmat _ c2).1 (by have := (hmat _ c1).2; linarith))] at hic
    exact (Option.some.inj hic).symm
  have hpicks : out.ic.mapM id = some ((reusedPairs (matchedPairs (decisionMatrix (fin q) a))).map (pickOf x)) := by
    rw [hic', mapM_some (g := fun o => o.getD (0, 0))]
    · rw [List.map_map]; rfl
    · intro o ho
      obtain ⟨c, -, rfl⟩ := List.mem_map.mp ho
      rfl
  have hfil : ((reusedPairs (matchedPairs (decisionMatrix (fin q) a))).map (pickOf x)).filter (fun c => c.2 == team) =
      (laterUses (usesOf (matchedPairs (decisionMatrix (fin q) a)) team)).map (pickOf x) := by
    rw [List.filter_map, ← reusedPairs_of_team]
    congr 1
    refine List.filter_congr fun c hc => ?_
    have := reused_team hc
    simp only [Function.comp, pickOf]
    split_ifs
    · rw [this]
    · rfl
  have hcont : ((reusedPairs (matchedPairs (decisionMatrix (fin q) a))).map (fun c => c.1.2)).contains team = true ↔
      laterUses (usesOf (matchedPairs (decisionMatrix (fin q) a)) team) ≠ [] := by
    rw [← reusedPairs_of_team]
    simp only [List.contains_iff_mem, List.mem_map, ne_eq, List.filter_eq_nil_iff, not_forall]
    constructor
    · rintro ⟨c, hc, e⟩; exact ⟨c, hc, by simp [e]⟩
    · rintro ⟨c, hc, e⟩; exact ⟨c, hc, by simpa using e⟩
  have hty : py.types[team]? = some (kindOf K team).2.2 := by rw [h.types, List.getElem?_map, kindOf_get hlt]; rfl
  have hloc : out.final.locs[n]? = some (locOf py team) := by rw [hi.locs, List.getElem?_map, hn]; rfl
  have hcom := (locate_spec h hlt).2
  unfold resultEntry
  simp only [hn, Option.bind_eq_bind, Option.bind_some, hpicks, hfil]
  by_cases hc : ((reusedPairs (matchedPairs (decisionMatrix (fin q) a))).map (fun c => c.1.2)).contains team = true
  · rw [if_pos hc]
    have hl := hcont.mp hc
    unfold hitsOf
    rcases hu : usesOf (matchedPairs (decisionMatrix (fin q) a)) team with _ | ⟨p0, _ | ⟨p1, l⟩⟩
    · rw [hu] at hl; simp [laterUses] at hl
    · rw [hu] at hl; simp [laterUses] at hl
    · simp only [laterUses, List.map_cons, List.getElem?_cons_zero, Option.bind_some, hty, hloc, hcom]
  · rw [if_neg hc]
    have hl := not_not.mp (fun hh => hc (hcont.mpr hh))
    simp only [Option.bind_some, hty, hloc, hcom]
    unfold hitsOf
    rcases hu : usesOf (matchedPairs (decisionMatrix (fin q) a)) team with _ | ⟨p0, _ | ⟨p1, l⟩⟩
    · unfold usesOf at hu; rw [hu]
    · unfold usesOf at hu; rw [hu]
    · rw [hu] at hl; simp [laterUses] at hl

end

theorem rowOf_matched (p : Mat Num) {r : ℕ} (hr : r < p.rows) :
    (matchedPairs p).filter (fun c => c.1 == r) = ((List.range p.cols).filter (fun j => p.data r j = fin 1)).map (fun j => (r, j)) := by
  unfold matchedPairs
  rw [List.filter_flatMap]
  have hrow : ∀ i, (((List.range p.cols).filter (fun j => p.data i j = fin 1)).map (fun j => (i, j))).filter (fun c => c.1 == r) =
      if i = r then ((List.range p.cols).filter (fun j => p.data r j = fin 1)).map (fun j => (r, j)) else [] := by
    intro i
    split_ifs with e
    · subst e
      rw [List.filter_eq_self]
      intro c hc
      obtain ⟨j, -, rfl⟩ := List.mem_map.mp hc
      simp
    · rw [List.filter_eq_nil_iff]
      intro c hc
      obtain ⟨j, -, rfl⟩ := List.mem_map.mp hc
      simpa using e
  simp only [hrow]
  have : ∀ (n : ℕ) (L : List (ℕ × ℕ)), (List.range n).flatMap (fun i => if i = r then L else []) = if r < n then L else [] := by
    intro n L
    induction n with
    | zero => simp
    | succ n ih =>
      rw [List.range_succ, List.flatMap_append, ih]
      by_cases e : n = r
      · subst e; simp
      · by_cases hlt : r < n
        · simp [hlt, e]; omega
        · simp [hlt, e]; omega
  rw [this, if_pos hr]

end Verif.Proofs
