import Verif.Model.KcPost
import Verif.Spec.KcPost
import Verif.Proofs.KcTeams
import Verif.Proofs.KcMatch

/-! Helper lemmas for the post-processing of the assignment solver. -/

namespace Verif.Proofs
open Verif Model Spec Num

theorem mapM_some {α β : Type} {f : α → Option β} {g : α → β} : ∀ {l : List α}, (∀ x ∈ l, f x = some (g x)) →
    l.mapM f = some (l.map g)
  | [], _ => by simp
  | a :: l, h => by
    rw [List.mapM_cons, h a (by simp), mapM_some (fun x hx => h x (by simp [hx]))]; rfl

/-- The kind of team `i`. -/
abbrev kindOf (K : List (ℕ × ℕ × ℕ)) (i : ℕ) : ℕ × ℕ × ℕ := K.getD i (0, 0, 0)

/-- The tables describe teams of the kinds `K`. -/
structure TeamTables (py : KcTeamsPy) (K : List (ℕ × ℕ × ℕ)) : Prop where
  weights : ∀ x < py.caps.length, py.weights[x]? = some (K.map (fun k => need k (x + 1)))
  types : py.types = K.map (fun k => k.2.2)
  kinds : ∀ k ∈ K, (1 ≤ k.1 ∧ k.1 ≤ py.caps.length) ∧ (1 ≤ k.2.1 ∧ k.2.1 ≤ py.caps.length) ∧ 1 ≤ k.2.2 ∧ k.2.2 ≤ 5 ∧ RealKind k
  last : ∀ (i : ℕ) kind, K[i]? = some kind → ∃ l : ℕ, py.combos[l]? = some (kind.1, kind.2.1) ∧
    ∃ z, py.last[l]? = some z ∧ (i : ℤ) ≤ z ∧ ∀ j < l, ∀ y, py.last[j]? = some y → y < i

section
variable {py : KcTeamsPy} {K : List (ℕ × ℕ × ℕ)}

theorem kindOf_get {i : ℕ} (hi : i < K.length) : K[i]? = some (kindOf K i) := by
  simp [kindOf, List.getD_eq_getElem?_getD, hi]

theorem kindOf_mem {i : ℕ} (hi : i < K.length) : kindOf K i ∈ K := List.mem_of_getElem? (kindOf_get hi)

/-- The location of team `i`. -/
def locOf (py : KcTeamsPy) (i : ℕ) : ℕ := (locate py.last i).getD 0

theorem locate_spec (h : TeamTables py K) {i : ℕ} (hi : i < K.length) :
    locate py.last i = some (locOf py i) ∧ py.combos[locOf py i]? = some ((kindOf K i).1, (kindOf K i).2.1) := by
  obtain ⟨l, h1, z, h2, h3, h4⟩ := h.last i _ (kindOf_get hi)
  have : locate py.last i = some l := by
    unfold locate
    rw [List.findIdx?_eq_some_iff_getElem]
    obtain ⟨hl, e⟩ := List.getElem?_eq_some_iff.mp h2
    refine ⟨hl, by rw [e]; simpa using h3, fun j hj => ?_⟩
    have := h4 j hj _ (List.getElem?_eq_getElem (by omega))
    simpa using this
  unfold locOf
  rw [this]
  exact ⟨rfl, h1⟩

theorem locOf_mono (h : TeamTables py K) {i j : ℕ} (hij : i ≤ j) (hj : j < K.length) : locOf py i ≤ locOf py j := by
  have h1 := (locate_spec h (show i < K.length by omega)).1
  have h2 := (locate_spec h hj).1
  unfold locate at h1 h2
  rw [List.findIdx?_eq_some_iff_getElem] at h1 h2
  obtain ⟨a1, a2, a3⟩ := h1
  obtain ⟨b1, b2, b3⟩ := h2
  by_contra hlt
  have := a3 (locOf py j) (by omega)
  simp only [decide_eq_true_eq] at this b2
  omega

/-- Invariant of the removal loop. -/
structure RemInv (py : KcTeamsPy) (K : List (ℕ × ℕ × ℕ)) (st : Removal) : Prop where
  asc : st.sel.Pairwise (· < ·)
  lt : ∀ i ∈ st.sel, i < K.length
  locs : st.locs = st.sel.map (locOf py)
  len : st.loads.length = py.caps.length
  loads : ∀ d < py.caps.length, st.loads[d]? = some (load K st.sel (d + 1) : ℤ)

/-- One step of the analysis: the loads of one team are added. -/
theorem addLoads (h : TeamTables py K) {i : ℕ} (hi : i < K.length) {loads : List ℤ} {x : ℕ → ℤ} (hl : loads.length = py.caps.length)
    (hx : ∀ d < py.caps.length, loads[d]? = some (x d)) :
    ∃ r, loopUp py.caps.length (fun j loads => do
        let row ← py.weights[j]?
        let w ← row[i]?
        let old ← loads[j]?
        if w ≠ 0 then some (loads.set j (old + (w : ℤ))) else some loads) loads = some r ∧ r.length = py.caps.length ∧
      ∀ d < py.caps.length, r[d]? = some (x d + need (kindOf K i) (d + 1)) := by
  obtain ⟨r, h1, h2, h3⟩ := loopUp_inv (n := py.caps.length) (s := loads) (body := fun j loads => do
        let row ← py.weights[j]?
        let w ← row[i]?
        let old ← loads[j]?
        if w ≠ 0 then some (loads.set j (old + (w : ℤ))) else some loads)
    (P := fun n r => r.length = py.caps.length ∧ ∀ d < py.caps.length,
      r[d]? = some (x d + if d < n then (need (kindOf K i) (d + 1) : ℤ) else 0))
    ⟨hl, fun d hd => by simp [hx d hd]⟩ (by
      rintro j hj r ⟨a, b⟩
      have e1 : (K.map (fun k => need k (j + 1)))[i]? = some (need (kindOf K i) (j + 1)) := by
        rw [List.getElem?_map, kindOf_get hi]; rfl
      simp only [h.weights j hj, Option.bind_eq_bind, Option.bind_some, e1, b j hj, lt_irrefl, if_false, add_zero]
      by_cases hw : need (kindOf K i) (j + 1) = 0
      · rw [if_neg (by simpa using hw)]
        refine ⟨r, rfl, a, fun d hd => ?_⟩
        rw [b d hd]
        by_cases hd' : d < j
        · rw [if_pos hd', if_pos (by omega)]
        · by_cases e : d = j
          · subst e; rw [if_neg hd', if_pos (by omega), hw]; simp
          · rw [if_neg hd', if_neg (by omega)]
      · rw [if_pos hw]
        refine ⟨_, rfl, by simpa using a, fun d hd => ?_⟩
        rw [List.getElem?_set]
        by_cases e : j = d
        · subst e; rw [if_pos rfl, if_pos (by omega), if_pos (by omega)]
        · rw [if_neg e, b d hd]
          by_cases hd' : d < j
          · rw [if_pos hd', if_pos (by omega)]
          · rw [if_neg hd', if_neg (by omega)])
  exact ⟨r, h1, h2, fun d hd => by rw [h3 d hd, if_pos hd]⟩

theorem analyse_aux (h : TeamTables py K) : ∀ (sel done : List ℕ) (s : List ℤ × List ℕ), (∀ i ∈ sel, i < K.length) →
    s.1.length = py.caps.length → (∀ d < py.caps.length, s.1[d]? = some (load K done (d + 1) : ℤ)) → s.2 = done.map (locOf py) →
    ∃ loads, loopList sel (fun i s => do
      let _ ← py.types[i]?
      let loads ← loopUp py.caps.length (fun j loads => do
        let row ← py.weights[j]?
        let w ← row[i]?
        let old ← loads[j]?
        if w ≠ 0 then some (loads.set j (old + (w : ℤ))) else some loads) s.1
      let loc ← locate py.last i
      let _ ← py.combos[loc]?
      some (loads, s.2 ++ [loc])) s = some (loads, (done ++ sel).map (locOf py)) ∧ loads.length = py.caps.length ∧
      ∀ d < py.caps.length, loads[d]? = some (load K (done ++ sel) (d + 1) : ℤ)
  | [], done, s, _, hl, hx, hs => ⟨s.1, by rw [List.append_nil, ← hs]; rfl, hl, by simpa using hx⟩
  | i :: sel, done, s, hlt, hl, hx, hs => by
    have hi := hlt i (by simp)
    obtain ⟨r, h1, h2, h3⟩ := addLoads h hi hl hx
    obtain ⟨l1, l2⟩ := locate_spec h hi
    have ht : py.types[i]? = some (kindOf K i).2.2 := by rw [h.types, List.getElem?_map, kindOf_get hi]; rfl
    obtain ⟨loads, k1, k2, k3⟩ := analyse_aux h sel (done ++ [i]) (r, s.2 ++ [locOf py i]) (fun j hj => hlt j (by simp [hj])) h2
      (fun d hd => by rw [h3 d hd]; simp [load]) (by simp [hs])
    refine ⟨loads, ?_, k2, by simpa using k3⟩
    simp only [loopList, ht, Option.bind_eq_bind, Option.bind_some]
    simp only [Option.bind_eq_bind] at h1 k1
    rw [h1]
    simp only [l1, l2, Option.bind_some]
    rw [k1]; simp

theorem analyseTeams_spec (h : TeamTables py K) {sel : List ℕ} (hasc : sel.Pairwise (· < ·)) (hlt : ∀ i ∈ sel, i < K.length) :
    ∃ loads locs, analyseTeams py sel = some (loads, locs) ∧ RemInv py K ⟨sel, locs, loads⟩ := by
  obtain ⟨loads, h1, h2, h3⟩ := analyse_aux h sel [] (List.replicate py.caps.length 0, []) hlt (by simp)
    (fun d hd => by simp [hd, load]) rfl
  exact ⟨loads, _, h1, ⟨hasc, hlt, by simp, h2, by simpa using h3⟩⟩

theorem mem_overloaded {st : Removal} (hi : RemInv py K st) {d : ℕ} :
    d ∈ overloaded py.caps st.loads ↔ d < py.caps.length ∧ py.caps.getD d 0 < load K st.sel (d + 1) := by
  unfold overloaded
  rw [List.mem_filter, List.mem_range]
  refine and_congr_right fun hd => ?_
  rw [List.getD_eq_getElem?_getD (l := st.loads), hi.loads d hd]
  simp

theorem erase_sorted {loc : ℕ → ℕ} : ∀ {sel : List ℕ} {team : ℕ}, sel.Pairwise (· < ·) → team ∈ sel →
    (∀ i ∈ sel, ∀ j ∈ sel, i ≤ j → loc i ≤ loc j) →
    (sel.map loc).erase (loc team) = (sel.filter (fun i => i ≠ team)).map loc
  | [], _, _, hm, _ => by simp at hm
  | a :: sel, team, hs, hm, hmono => by
    obtain ⟨h1, h2⟩ := List.pairwise_cons.mp hs
    rcases List.mem_cons.mp hm with rfl | hm'
    · have : sel.filter (fun i => i ≠ team) = sel := List.filter_eq_self.mpr (fun i hi => by simpa using (h1 i hi).ne')
      rw [List.map_cons, List.erase_cons_head, List.filter_cons, if_neg (by simp), this]
    · have ih := erase_sorted (team := team) h2 hm' (fun i hi j hj => hmono i (by simp [hi]) j (by simp [hj]))
      have hne : a ≠ team := (h1 team hm').ne
      rw [List.map_cons, List.filter_cons, if_pos (by simpa using hne), List.map_cons, ← ih]
      by_cases e : loc a = loc team
      · rw [e, List.erase_cons_head]
        rcases sel with _ | ⟨b, sel⟩
        · simp at hm'
        · have hb : loc b = loc team := by
            have hbt : b ≤ team := by
              rcases List.mem_cons.mp hm' with rfl | h
              · exact le_rfl
              · exact ((List.pairwise_cons.mp h2).1 team h).le
            have u1 := hmono b (by simp) team hm hbt
            have u2 := hmono a (by simp) b (by simp) (h1 b (by simp)).le
            omega
          rw [List.map_cons, hb, List.erase_cons_head]
      · rw [List.erase_cons_tail (by simpa using e)]

theorem load_remove {sel : List ℕ} (hs : sel.Nodup) {team : ℕ} (hm : team ∈ sel) (d : ℕ) :
    load K sel d = load K (sel.filter (fun i => i ≠ team)) d + need (kindOf K team) d := by
  induction sel with
  | nil => simp at hm
  | cons a sel ih =>
    obtain ⟨h1, h2⟩ := List.nodup_cons.mp hs
    rcases List.mem_cons.mp hm with rfl | hm'
    · have : sel.filter (fun i => i ≠ team) = sel :=
        List.filter_eq_self.mpr (fun i hi => by simp only [decide_eq_true_eq]; rintro rfl; exact h1 hi)
      rw [List.filter_cons, if_neg (by simp), this]
      simp [load, add_comm]
    · have hne : a ≠ team := fun e => h1 (e ▸ hm')
      rw [List.filter_cons, if_pos (by simpa using hne)]
      have := ih h2 hm'
      simp only [load, List.map_cons, List.sum_cons] at this ⊢
      omega

theorem setSub {n : ℕ} {l : List ℤ} {x : ℕ → ℤ} (hl : l.length = n) (hx : ∀ d < n, l[d]? = some (x d)) {u : ℕ} (hu : 1 ≤ u ∧ u ≤ n) (y : ℤ) :
    ∃ old, l[u - 1]? = some old ∧ (l.set (u - 1) (old - y)).length = n ∧
      ∀ d < n, (l.set (u - 1) (old - y))[d]? = some (x d - if d + 1 = u then y else 0) := by
  refine ⟨x (u - 1), hx _ (by omega), by simpa using hl, fun d hd => ?_⟩
  rw [List.getElem?_set]
  by_cases e : u - 1 = d
  · rw [if_pos e, if_pos (by omega), if_pos (by omega), e]
  · rw [if_neg e, hx d hd, if_neg (by omega), sub_zero]

theorem unload_spec {n : ℕ} {l : List ℤ} {x : ℕ → ℤ} (hl : l.length = n) (hx : ∀ d < n, l[d]? = some (x d)) {k : ℕ × ℕ × ℕ}
    (hu : 1 ≤ k.1 ∧ k.1 ≤ n) (hv : 1 ≤ k.2.1 ∧ k.2.1 ≤ n) (ht : 1 ≤ k.2.2 ∧ k.2.2 ≤ 5) :
    ∃ r, unload k.2.2 (k.1, k.2.1) l = some r ∧ r.length = n ∧ ∀ d < n, r[d]? = some (x d - need k (d + 1)) := by
  obtain ⟨u, v, t⟩ := k
  simp only at hu hv ht
  unfold unload
  have one : ∀ y : ℕ, crew t = (y, 0) → ∃ r, (do let old ← l[u - 1]?; some (l.set (u - 1) (old - (y : ℤ)))) = some r ∧ r.length = n ∧
      ∀ d < n, r[d]? = some (x d - need (u, v, t) (d + 1)) := by
    intro y hy
    obtain ⟨old, h1, h2, h3⟩ := setSub hl hx hu y
    refine ⟨_, by rw [h1]; rfl, h2, fun d hd => ?_⟩
    rw [h3 d hd]; unfold need; rw [hy]; simp only; split_ifs <;> simp
  have two : ∀ y z : ℕ, crew t = (y, z) → ∃ r, ((do let old ← l[u - 1]?; some (l.set (u - 1) (old - (y : ℤ)))).bind fun l =>
      (do let old ← l[v - 1]?; some (l.set (v - 1) (old - (z : ℤ))))) = some r ∧ r.length = n ∧
      ∀ d < n, r[d]? = some (x d - need (u, v, t) (d + 1)) := by
    intro y z hy
    obtain ⟨old, h1, h2, h3⟩ := setSub hl hx hu y
    obtain ⟨old', k1, k2, k3⟩ := setSub h2 h3 hv z
    refine ⟨_, by rw [h1]; simp only [Option.bind_eq_bind, Option.bind_some]; rw [k1]; rfl, k2, fun d hd => ?_⟩
    rw [k3 d hd]; unfold need; rw [hy]; simp only; split_ifs <;> simp <;> ring
  obtain ⟨h1, h5⟩ := ht
  interval_cases t
  · exact one 1 rfl
  · exact two 1 1 rfl
  · exact one 2 rfl
  · exact two 2 1 rfl
  · exact two 2 2 rfl

theorem lt_trans' {a b c : Num} (h1 : lt a b = false) (h2 : lt b c = false) (hb : b ≠ nan) : lt a c = false := by
  cases a <;> cases b <;> cases c <;> simp_all [lt]
  exact h2.trans h1

theorem lt_irrefl' (a : Num) : lt a a = false := by cases a <;> simp [lt]

theorem lt_asymm' {a b : Num} (h : lt a b = true) : lt b a = false := by
  cases a <;> cases b <;> simp_all [lt]
  exact h.le

theorem foldMax : ∀ (l : List Num) (x : Num), x ≠ nan → (∀ y ∈ l, y ≠ nan) →
    (l.foldl (fun m y => if gt y m then y else m) x = x ∨ l.foldl (fun m y => if gt y m then y else m) x ∈ l) ∧
      lt (l.foldl (fun m y => if gt y m then y else m) x) x = false ∧
      ∀ y ∈ l, lt (l.foldl (fun m y => if gt y m then y else m) x) y = false
  | [], x, _, _ => ⟨Or.inl rfl, lt_irrefl' x, by simp⟩
  | z :: l, x, hx, hl => by
    have hz := hl z (by simp)
    rw [List.foldl_cons]
    have hw : (if gt z x then z else x) ≠ nan := by split_ifs <;> assumption
    obtain ⟨h1, h2, h3⟩ := foldMax l (if gt z x then z else x) hw (fun y hy => hl y (by simp [hy]))
    have e1 : lt (if gt z x then z else x) x = false := by
      split_ifs with hg
      · exact lt_asymm' hg
      · exact lt_irrefl' x
    have e2 : lt (if gt z x then z else x) z = false := by
      split_ifs with hg
      · exact lt_irrefl' z
      · simpa [gt] using hg
    refine ⟨?_, lt_trans' h2 e1 hw, fun y hy => ?_⟩
    · rcases h1 with h | h
      · rw [h]; split_ifs
        · exact Or.inr (by simp)
        · exact Or.inl rfl
      · exact Or.inr (by simp [h])
    · rcases List.mem_cons.mp hy with rfl | hy
      · exact lt_trans' h2 e2 hw
      · exact h3 y hy

theorem pyMax_spec {l : List Num} (hl : l ≠ []) (h : ∀ y ∈ l, y ≠ nan) :
    ∃ m, pyMax l = some m ∧ m ∈ l ∧ ∀ y ∈ l, lt m y = false := by
  rcases l with _ | ⟨x, l⟩
  · exact absurd rfl hl
  · obtain ⟨h1, h2, h3⟩ := foldMax l x (h x (by simp)) (fun y hy => h y (by simp [hy]))
    refine ⟨_, rfl, ?_, fun y hy => ?_⟩
    · rcases h1 with e | e
      · rw [e]; simp
      · simp [e]
    · rcases List.mem_cons.mp hy with rfl | hy
      · exact h2
      · exact h3 y hy

theorem searchSorted_get : ∀ {sel : List ℕ} {i : ℕ}, sel.Pairwise (· < ·) → i ∈ sel → sel[searchSorted sel i]? = some i
  | [], _, _, h => by simp at h
  | a :: sel, i, hs, hm => by
    obtain ⟨h1, h2⟩ := List.pairwise_cons.mp hs
    unfold searchSorted
    rcases List.mem_cons.mp hm with rfl | hm'
    · have : (i :: sel).filter (fun y => y < i) = [] := List.filter_eq_nil_iff.mpr (fun y hy => by
        rcases List.mem_cons.mp hy with rfl | hy
        · simp
        · have := h1 y hy; simp; omega)
      rw [this]; rfl
    · rw [List.filter_cons, if_pos (by simpa using h1 i hm'), List.length_cons, List.getElem?_cons_succ]
      exact searchSorted_get h2 hm'

/-- The belief of team `i`. -/
abbrev bel (belief : List Num) (i : ℕ) : Num := belief.getD i nan

theorem removeTeam_spec (h : TeamTables py K) {belief : List Num} (hb : ∀ i < K.length, bel belief i ≠ nan) {st : Removal}
    (hi : RemInv py K st) {cands : List ℕ} (hc : ∀ i ∈ cands, i ∈ st.sel) (hne : cands ≠ []) :
    ∃ team st', removeTeam py belief st cands = some st' ∧ team ∈ st.sel ∧ st'.sel = st.sel.filter (fun i => i ≠ team) ∧
      RemInv py K st' ∧ (∃ c ∈ cands, bel belief c = bel belief team) ∧ ∀ c ∈ cands, lt (bel belief team) (bel belief c) = false := by
  have hget : ∀ i < K.length, belief[i]? = some (bel belief i) := by
    intro i hk
    have := hb i hk
    unfold bel at this ⊢
    rw [List.getD_eq_getElem?_getD] at this ⊢
    cases e : belief[i]? <;> simp_all
  unfold removeTeam
  rw [mapM_some (g := bel belief) (fun i hm => hget i (hi.lt i hm)), Option.bind_eq_bind, Option.bind_some,
    mapM_some (g := bel belief) (l := cands) (fun i hm => by
      rw [List.getElem?_map, searchSorted_get hi.asc (hc i hm)]; rfl), Option.bind_eq_bind, Option.bind_some]
  obtain ⟨m, m1, m2, m3⟩ := pyMax_spec (l := cands.map (bel belief)) (by simpa using hne) (by
    intro y hy
    obtain ⟨i, hm, rfl⟩ := List.mem_map.mp hy
    exact hb i (hi.lt i (hc i hm)))
  obtain ⟨c, hcm, hcb⟩ := List.mem_map.mp m2
  have hex : ∃ pos, (st.sel.map (bel belief)).findIdx? (fun b => numEq b m) = some pos := by
    rw [← Option.isSome_iff_exists, List.findIdx?_isSome, List.any_eq_true]
    refine ⟨m, List.mem_map.mpr ⟨c, hc c hcm, hcb⟩, ?_⟩
    have : m ≠ nan := hcb ▸ hb c (hi.lt c (hc c hcm))
    simp [numEq, this]
  obtain ⟨pos, hpos⟩ := hex
  rw [m1, Option.bind_eq_bind, Option.bind_some, hpos, Option.bind_eq_bind, Option.bind_some]
  rw [List.findIdx?_eq_some_iff_getElem] at hpos
  obtain ⟨hp1, hp2, -⟩ := hpos
  have hp : pos < st.sel.length := by simpa using hp1
  set team := st.sel[pos] with hteam
  have hmem : team ∈ st.sel := List.getElem_mem hp
  have htl := hi.lt team hmem
  have hbt : bel belief team = m := by
    simp only [numEq, List.getElem_map, Bool.and_eq_true, decide_eq_true_eq] at hp2
    exact hp2.1
  obtain ⟨l1, l2⟩ := locate_spec h htl
  have hloc : st.locs[st.sel.idxOf team]? = some (locOf py team) := by
    rw [hi.locs, List.getElem?_map, List.getElem?_idxOf hmem]; rfl
  obtain ⟨q1, q2, q3, q4, -⟩ := h.kinds _ (kindOf_mem htl)
  obtain ⟨r, r1, r2, r3⟩ := unload_spec hi.len hi.loads q1 q2 ⟨q3, q4⟩
  have ht : py.types[team]? = some (kindOf K team).2.2 := by rw [h.types, List.getElem?_map, kindOf_get htl]; rfl
  rw [List.getElem?_eq_getElem hp, ← hteam]
  simp only [Option.bind_eq_bind, Option.bind_some, hloc, l2, ht, r1]
  refine ⟨team, _, rfl, hmem, rfl, ⟨hi.asc.filter _, fun i hm => hi.lt i (List.mem_of_mem_filter hm), ?_, r2, fun d hd => ?_⟩,
    ⟨c, hcm, by rw [hcb, hbt]⟩, fun c' hc' => by rw [hbt]; exact m3 _ (List.mem_map.mpr ⟨c', hc', rfl⟩)⟩
  · rw [hi.locs]
    exact erase_sorted hi.asc hmem (fun i _ j hj hij => locOf_mono h hij (hi.lt j hj))
  · rw [r3 d hd, load_remove (K := K) (hi.asc.imp (fun h => h.ne)) hmem (d + 1)]
    simp

theorem pairs_get (h : TeamTables py K) {st : Removal} (hi : RemInv py K st) :
    st.sel.mapM (pairOf py.combos st) = some (st.sel.map (fun i => ((kindOf K i).1, (kindOf K i).2.1))) :=
  mapM_some (fun i hm => by
    unfold pairOf
    rw [hi.locs, List.getElem?_map, List.getElem?_idxOf hm]
    exact (locate_spec h (hi.lt i hm)).2)

theorem mem_zip_map {α β : Type} {l : List α} {g : α → β} {p : α × β} : p ∈ l.zip (l.map g) ↔ p.1 ∈ l ∧ p.2 = g p.1 := by
  induction l with
  | nil => simp
  | cons a l ih =>
    obtain ⟨x, y⟩ := p
    simp only [List.map_cons, List.zip_cons_cons, List.mem_cons, ih, Prod.mk.injEq]
    constructor
    · rintro (⟨rfl, rfl⟩ | ⟨h1, h2⟩)
      · exact ⟨Or.inl rfl, rfl⟩
      · exact ⟨Or.inr h1, h2⟩
    · rintro ⟨rfl | h1, h2⟩
      · exact Or.inl ⟨rfl, h2⟩
      · exact Or.inr ⟨h1, h2⟩

/-- An overloaded unit sends something to a selected team. -/
theorem exists_user {sel : List ℕ} {d : ℕ} (h : 0 < load K sel d) : ∃ i ∈ sel, 0 < need (kindOf K i) d := by
  by_contra hno
  push Not at hno
  have : load K sel d = 0 := List.sum_eq_zero (fun x hx => by
    obtain ⟨i, hi, rfl⟩ := List.mem_map.mp hx
    have := hno i hi
    show need (kindOf K i) d = 0
    omega)
  omega

theorem inPair_iff (h : TeamTables py K) {i : ℕ} (hi : i < K.length) {d : ℕ} :
    inPair d ((kindOf K i).1, (kindOf K i).2.1) = true ↔ Uses K i (d + 1) := by
  obtain ⟨-, -, h3, h4, h5⟩ := h.kinds _ (kindOf_mem hi)
  show _ ↔ 0 < need (kindOf K i) (d + 1)
  generalize kindOf K i = k at *
  obtain ⟨u, v, t⟩ := k
  unfold RealKind at h5
  simp only [inPair, Bool.or_eq_true, beq_iff_eq, need] at *
  interval_cases t <;> simp_all [crew] <;> split_ifs <;> simp_all

theorem uses_unit {i d : ℕ} (h : Uses K i d) : d = (kindOf K i).1 ∨ d = (kindOf K i).2.1 := by
  unfold Uses need at h
  by_contra hno
  push Not at hno
  rw [if_neg hno.1, if_neg hno.2] at h
  omega

/-- The overloaded units, numbered from 1. -/
theorem over_iff {st : Removal} (hi : RemInv py K st) {d : ℕ} :
    Over py.caps K st.sel d ↔ 1 ≤ d ∧ d - 1 ∈ overloaded py.caps st.loads := by
  rw [mem_overloaded hi]
  unfold Over
  constructor
  · rintro ⟨h1, h2, h3⟩
    exact ⟨h1, by omega, by rwa [Nat.sub_add_cancel h1]⟩
  · rintro ⟨h1, h2, h3⟩
    exact ⟨h1, by omega, by rwa [Nat.sub_add_cancel h1] at h3⟩

/-- The belief of `t` is the largest belief of the candidates. -/
def Weakest (belief : List Num) (C : ℕ → Prop) (t : ℕ) : Prop :=
  (∃ c, C c ∧ bel belief c = bel belief t) ∧ ∀ c, C c → lt (bel belief t) (bel belief c) = false

theorem roundDepartments_spec (h : TeamTables py K) {belief : List Num} (hb : ∀ i < K.length, bel belief i ≠ nan) {st : Removal}
    (hi : RemInv py K st) (hne : overloaded py.caps st.loads ≠ []) :
    ∃ team st', roundDepartments py belief st (overloaded py.caps st.loads) = some st' ∧ team ∈ st.sel ∧
      st'.sel = st.sel.filter (fun i => i ≠ team) ∧ RemInv py K st' ∧ Weakest belief (OfFirst py.caps K st.sel) team := by
  unfold roundDepartments teamsOf
  obtain ⟨d, l, e⟩ := List.exists_cons_of_ne_nil hne
  have hd := (mem_overloaded hi (d := d)).mp (by rw [e]; simp)
  have hleast : IsLeast {d | Over py.caps K st.sel d} (d + 1) := by
    refine ⟨(over_iff hi).mpr ⟨by omega, by rw [e]; simp⟩, fun x hx => ?_⟩
    obtain ⟨x1, x2⟩ := (over_iff hi).mp hx
    have hs : (overloaded py.caps st.loads).Pairwise (· < ·) := List.Pairwise.filter _ List.pairwise_lt_range
    rw [e] at x2 hs
    rcases List.mem_cons.mp x2 with hx | hx
    · omega
    · have := (List.pairwise_cons.mp hs).1 _ hx
      omega
  obtain ⟨i, i1, i2⟩ := exists_user (K := K) (sel := st.sel) (d := d + 1) (by omega)
  rw [e, pairs_get h hi]
  simp only [List.getElem?_cons_zero, Option.bind_eq_bind, Option.bind_some]
  have hmem : ∀ j, j ∈ ((st.sel.zip (st.sel.map (fun i => ((kindOf K i).1, (kindOf K i).2.1)))).filter
      (fun p => inPair d p.2)).map Prod.fst ↔ OfFirst py.caps K st.sel j := by
    intro j
    rw [List.mem_map]
    constructor
    · rintro ⟨p, hp, rfl⟩
      obtain ⟨p1, p2⟩ := List.mem_filter.mp hp
      obtain ⟨p3, p4⟩ := mem_zip_map.mp p1
      rw [p4, inPair_iff h (hi.lt _ p3)] at p2
      exact ⟨p3, d + 1, hleast, p2⟩
    · rintro ⟨j1, d', j2, j3⟩
      rw [j2.unique hleast, ← inPair_iff h (hi.lt _ j1)] at j3
      exact ⟨(j, (kindOf K j).1, (kindOf K j).2.1), List.mem_filter.mpr ⟨mem_zip_map.mpr ⟨j1, rfl⟩, j3⟩, rfl⟩
  obtain ⟨team, st', h1, h2, h3, h4, ⟨c, h5, h6⟩, h7⟩ := removeTeam_spec h hb hi
    (cands := ((st.sel.zip (st.sel.map (fun i => ((kindOf K i).1, (kindOf K i).2.1)))).filter (fun p => inPair d p.2)).map Prod.fst)
    (fun j hj => ((hmem j).mp hj).1) (List.ne_nil_of_mem (a := i) ((hmem i).mpr ⟨i1, d + 1, hleast, i2⟩))
  exact ⟨team, st', h1, h2, h3, h4, ⟨c, (hmem c).mp h5, h6⟩, fun c hc => h7 c ((hmem c).mpr hc)⟩

/-- The pair of units of a team. -/
abbrev unitsOf (K : List (ℕ × ℕ × ℕ)) (i : ℕ) : ℕ × ℕ := ((kindOf K i).1, (kindOf K i).2.1)

/-- Team `i` is considered by option 2 for unit `d`. -/
def OfUnit (caps : List ℕ) (K : List (ℕ × ℕ × ℕ)) (sel : List ℕ) (d i : ℕ) : Prop :=
  i ∈ sel ∧ Uses K i d ∧ (AllOver caps K sel i ∨ ∀ j ∈ sel, Uses K j d → ¬ AllOver caps K sel j)

theorem teamsOver_spec (h : TeamTables py K) {st : Removal} (hi : RemInv py K st) (d : ℕ) :
    ∃ l, teamsOver py st (overloaded py.caps st.loads) d = some l ∧
      ∀ p, p ∈ l ↔ OfUnit py.caps K st.sel (d + 1) p.1 ∧ p.2 = unitsOf K p.1 := by
  unfold teamsOver
  rw [pairs_get h hi]
  simp only [Option.bind_eq_bind, Option.bind_some]
  have hall : ∀ i ∈ st.sel, ((overloaded py.caps st.loads).contains ((unitsOf K i).1 - 1) &&
      (overloaded py.caps st.loads).contains ((unitsOf K i).2 - 1)) = true ↔ AllOver py.caps K st.sel i := by
    intro i hm
    obtain ⟨k1, k2, -⟩ := h.kinds _ (kindOf_mem (hi.lt i hm))
    simp only [Bool.and_eq_true, List.contains_iff_mem]
    have u1 : Uses K i (kindOf K i).1 := by
      have := (inPair_iff h (hi.lt i hm) (d := (kindOf K i).1 - 1)).mp (by
        unfold inPair; rw [Nat.sub_add_cancel k1.1, beq_self_eq_true, Bool.true_or])
      rwa [Nat.sub_add_cancel k1.1] at this
    have u2 : Uses K i (kindOf K i).2.1 := by
      have := (inPair_iff h (hi.lt i hm) (d := (kindOf K i).2.1 - 1)).mp (by
        unfold inPair; rw [Nat.sub_add_cancel k2.1, beq_self_eq_true, Bool.or_true])
      rwa [Nat.sub_add_cancel k2.1] at this
    constructor
    · rintro ⟨a, b⟩ x hx
      rcases uses_unit hx with rfl | rfl
      · exact (over_iff hi).mpr ⟨k1.1, a⟩
      · exact (over_iff hi).mpr ⟨k2.1, b⟩
    · intro ha
      exact ⟨((over_iff hi).mp (ha _ u1)).2, ((over_iff hi).mp (ha _ u2)).2⟩
  have hmem : ∀ p : ℕ × (ℕ × ℕ), p ∈ (st.sel.zip (st.sel.map (fun i => ((kindOf K i).1, (kindOf K i).2.1)))).filter
      (fun p => inPair d p.2 && (overloaded py.caps st.loads).contains (p.2.1 - 1) &&
        (overloaded py.caps st.loads).contains (p.2.2 - 1)) ↔
      p.1 ∈ st.sel ∧ p.2 = unitsOf K p.1 ∧ Uses K p.1 (d + 1) ∧ AllOver py.caps K st.sel p.1 := by
    intro p
    rw [List.mem_filter, mem_zip_map, Bool.and_assoc, Bool.and_eq_true, and_assoc]
    refine and_congr_right fun p1 => and_congr_right fun p2 => ?_
    rw [p2, inPair_iff h (hi.lt _ p1)]
    exact and_congr_right fun _ => hall _ p1
  by_cases e : (st.sel.zip (st.sel.map (fun i => ((kindOf K i).1, (kindOf K i).2.1)))).filter
      (fun p => inPair d p.2 && (overloaded py.caps st.loads).contains (p.2.1 - 1) &&
        (overloaded py.caps st.loads).contains (p.2.2 - 1)) = []
  · rw [if_pos e]
    have hno : ∀ j ∈ st.sel, Uses K j (d + 1) → ¬ AllOver py.caps K st.sel j := by
      intro j j1 j2 j3
      have := (hmem (j, unitsOf K j)).mpr ⟨j1, rfl, j2, j3⟩
      rw [e] at this
      simp at this
    refine ⟨_, rfl, fun p => ?_⟩
    rw [List.mem_filter, mem_zip_map]
    constructor
    · rintro ⟨⟨p1, p2⟩, p3⟩
      rw [p2, inPair_iff h (hi.lt _ p1)] at p3
      exact ⟨⟨p1, p3, Or.inr hno⟩, p2⟩
    · rintro ⟨⟨p1, p3, -⟩, p2⟩
      refine ⟨⟨p1, p2⟩, ?_⟩
      rw [p2]; exact (inPair_iff h (hi.lt _ p1)).mpr p3
  · rw [if_neg e]
    refine ⟨_, rfl, fun p => ?_⟩
    rw [hmem]
    constructor
    · rintro ⟨p1, p2, p3, p4⟩
      exact ⟨⟨p1, p3, Or.inl p4⟩, p2⟩
    · rintro ⟨⟨p1, p3, p4 | p4⟩, p2⟩
      · exact ⟨p1, p2, p3, p4⟩
      · obtain ⟨q, hq⟩ := List.exists_mem_of_ne_nil _ e
        obtain ⟨q1, q2, q3, q4⟩ := (hmem q).mp hq
        exact absurd q4 (p4 _ q1 q3)

theorem roundTeams_spec (h : TeamTables py K) {belief : List Num} (hb : ∀ i < K.length, bel belief i ≠ nan) {st : Removal}
    (hi : RemInv py K st) (hne : overloaded py.caps st.loads ≠ []) :
    ∃ team st', roundTeams py belief st (overloaded py.caps st.loads) = some st' ∧ team ∈ st.sel ∧
      st'.sel = st.sel.filter (fun i => i ≠ team) ∧ RemInv py K st' ∧ Weakest belief (OfSomeMixed py.caps K st.sel) team := by
  unfold roundTeams
  obtain ⟨l, h1, h2⟩ : ∃ l, loopList (overloaded py.caps st.loads) (fun d l => do
      let x ← teamsOver py st (overloaded py.caps st.loads) d
      some (l ++ x.filter (fun y => !l.contains y))) [] = some l ∧
      ∀ p, p ∈ l ↔ OfSome py.caps K st.sel p.1 ∧ p.2 = unitsOf K p.1 := by
    have key : ∀ (ds : List ℕ) (l : List (ℕ × (ℕ × ℕ))),
        ∃ l', loopList ds (fun d l => do
          let x ← teamsOver py st (overloaded py.caps st.loads) d
          some (l ++ x.filter (fun y => !l.contains y))) l = some l' ∧
          ∀ p, p ∈ l' ↔ p ∈ l ∨ ((∃ d ∈ ds, OfUnit py.caps K st.sel (d + 1) p.1) ∧ p.2 = unitsOf K p.1) := by
      intro ds
      induction ds with
      | nil => intro l; exact ⟨l, rfl, by simp⟩
      | cons d ds ih =>
        intro l
        obtain ⟨x, x1, x2⟩ := teamsOver_spec h hi d
        obtain ⟨l', k1, k2⟩ := ih (l ++ x.filter (fun y => !l.contains y))
        refine ⟨l', ?_, fun p => ?_⟩
        · simp only [loopList, x1, Option.bind_eq_bind, Option.bind_some]
          simpa using k1
        · rw [k2, List.mem_append, List.mem_filter, x2]
          simp only [List.mem_cons, exists_eq_or_imp, Bool.not_eq_true', List.contains_eq_mem, decide_eq_false_iff_not]
          tauto
    obtain ⟨l, a, b⟩ := key (overloaded py.caps st.loads) []
    refine ⟨l, a, fun p => ?_⟩
    rw [b]
    simp only [List.not_mem_nil, false_or]
    refine and_congr_left fun _ => ?_
    constructor
    · rintro ⟨d, d1, d2, d3, d4⟩
      exact ⟨d2, d + 1, (over_iff hi).mpr ⟨by omega, d1⟩, d3, d4⟩
    · rintro ⟨p1, d, p2, p3, p4⟩
      obtain ⟨q1, q2⟩ := (over_iff hi).mp p2
      refine ⟨d - 1, q2, p1, ?_⟩
      rw [Nat.sub_add_cancel q1]
      exact ⟨p3, p4⟩
  have hsome : ∃ i, OfSome py.caps K st.sel i := by
    obtain ⟨d, hd⟩ := List.exists_mem_of_ne_nil _ hne
    have hd' := (mem_overloaded hi).mp hd
    obtain ⟨i, i1, i2⟩ := exists_user (K := K) (sel := st.sel) (d := d + 1) (by omega)
    have ho : Over py.caps K st.sel (d + 1) := (over_iff hi).mpr ⟨by omega, hd⟩
    by_cases hj : ∃ j ∈ st.sel, Uses K j (d + 1) ∧ AllOver py.caps K st.sel j
    · obtain ⟨j, j1, j2, j3⟩ := hj
      exact ⟨j, j1, d + 1, ho, j2, Or.inl j3⟩
    · push Not at hj
      exact ⟨i, i1, d + 1, ho, i2, Or.inr hj⟩
  rw [h1, Option.bind_eq_bind, Option.bind_some]
  have hmem : ∀ j, j ∈ (if l.all (fun p => p.2.1 == p.2.2) then l else l.filter (fun p => p.2.1 ≠ p.2.2)).map Prod.fst ↔
      OfSomeMixed py.caps K st.sel j := by
    intro j
    rw [List.mem_map]
    split_ifs with hall
    · have hno : ∀ j, OfSome py.caps K st.sel j → ¬ Mixed K j := by
        intro j hj
        have := List.all_eq_true.mp hall (j, unitsOf K j) ((h2 _).mpr ⟨hj, rfl⟩)
        simp only [beq_iff_eq] at this
        exact not_not.mpr this
      constructor
      · rintro ⟨p, hp, rfl⟩
        exact ⟨((h2 p).mp hp).1, Or.inr hno⟩
      · rintro ⟨j1, -⟩
        exact ⟨(j, unitsOf K j), (h2 _).mpr ⟨j1, rfl⟩, rfl⟩
    · constructor
      · rintro ⟨p, hp, rfl⟩
        obtain ⟨p1, p2⟩ := List.mem_filter.mp hp
        obtain ⟨p3, p4⟩ := (h2 p).mp p1
        rw [p4] at p2
        exact ⟨p3, Or.inl (by simpa [Mixed] using p2)⟩
      · rintro ⟨j1, j2 | j2⟩
        · exact ⟨(j, unitsOf K j), List.mem_filter.mpr ⟨(h2 _).mpr ⟨j1, rfl⟩, by simpa [Mixed] using j2⟩, rfl⟩
        · refine absurd (List.all_eq_true.mpr fun p hp => ?_) hall
          obtain ⟨p1, p2⟩ := (h2 p).mp hp
          have := j2 _ p1
          rw [p2]
          simpa [Mixed] using this
  have hnil : ∃ j, OfSomeMixed py.caps K st.sel j := by
    by_cases hm : ∃ j, OfSome py.caps K st.sel j ∧ Mixed K j
    · obtain ⟨j, j1, j2⟩ := hm
      exact ⟨j, j1, Or.inl j2⟩
    · push Not at hm
      obtain ⟨i, hi⟩ := hsome
      exact ⟨i, hi, Or.inr hm⟩
  obtain ⟨j0, hj0⟩ := hnil
  obtain ⟨team, st', k1, k2, k3, k4, ⟨c, k5, k6⟩, k7⟩ := removeTeam_spec h hb hi (cands := (if l.all (fun p => p.2.1 == p.2.2) then l
      else l.filter (fun p => p.2.1 ≠ p.2.2)).map Prod.fst)
    (fun j hj => ((hmem j).mp hj).1.1) (List.ne_nil_of_mem ((hmem j0).mpr hj0))
  exact ⟨team, st', k1, k2, k3, k4, ⟨c, (hmem c).mp k5, k6⟩, fun c hc => k7 c ((hmem c).mpr hc)⟩

theorem removalLoop_spec {round : Removal → List ℕ → Option Removal} {Pick : List ℕ → ℕ → Prop}
    (hr : ∀ st, RemInv py K st → overloaded py.caps st.loads ≠ [] → ∃ team st', round st (overloaded py.caps st.loads) = some st' ∧
      team ∈ st.sel ∧ st'.sel = st.sel.filter (fun i => i ≠ team) ∧ RemInv py K st' ∧ Pick st.sel team) :
    ∀ (fuel : ℕ) (st : Removal), RemInv py K st → st.sel.length ≤ fuel → ∃ st', removalLoop py round fuel st = some st' ∧ RemInv py K st' ∧
      st'.sel.Sublist st.sel ∧ Removals py.caps K Pick st.sel st'.sel
  | fuel, st, hi, hf => by
    unfold removalLoop
    by_cases e : overloaded py.caps st.loads = []
    · rw [if_pos e]
      refine ⟨st, rfl, hi, List.Sublist.refl _, .done fun d hd => ?_⟩
      have := ((over_iff hi).mp hd).2
      rw [e] at this
      simp at this
    · rw [if_neg e]
      obtain ⟨d, hd⟩ := List.exists_mem_of_ne_nil _ e
      have ho : Over py.caps K st.sel (d + 1) := (over_iff hi).mpr ⟨by omega, hd⟩
      obtain ⟨team, st', h1, h2, h3, h4, h5⟩ := hr st hi e
      have hlen : st'.sel.length < st.sel.length := by
        rw [h3]
        exact List.length_filter_lt_length_iff_exists.mpr ⟨team, h2, by simp⟩
      match fuel, hf with
      | 0, hf => omega
      | fuel + 1, hf =>
        obtain ⟨st'', k1, k2, k3, k4⟩ := removalLoop_spec hr fuel st' h4 (by omega)
        refine ⟨st'', by simp only [h1, Option.bind_some, k1], k2, k3.trans ?_, .step ho h2 h5 (h3 ▸ k4)⟩
        rw [h3]; exact List.filter_sublist

theorem removals_fit {caps : List ℕ} {Pick : List ℕ → ℕ → Prop} {sel r : List ℕ} (h : Removals caps K Pick sel r) (d : ℕ) :
    ¬ Over caps K r d := by
  induction h with
  | done h => exact h d
  | step _ _ _ _ ih => exact ih

theorem mem_reusedPairs {pairs : List (ℕ × ℕ)} {c : (ℕ × ℕ) × (ℕ × ℕ)} (h : c ∈ reusedPairs pairs) : c.1 ∈ pairs ∧ c.2 ∈ pairs := by
  have key : ∀ (l : List (ℕ × ℕ)) (s : List (ℕ × ℕ) × List ((ℕ × ℕ) × (ℕ × ℕ))), (∀ p ∈ l, p ∈ pairs) → (∀ p ∈ s.1, p ∈ pairs) →
      (∀ c ∈ s.2, c.1 ∈ pairs ∧ c.2 ∈ pairs) → ∀ c ∈ (l.foldl (fun (s : List (ℕ × ℕ) × List ((ℕ × ℕ) × (ℕ × ℕ))) p =>
        match s.1.find? (fun q => q.2 == p.2) with
        | none => (s.1 ++ [p], s.2)
        | some q => (s.1, s.2 ++ [(p, q)])) s).2, c.1 ∈ pairs ∧ c.2 ∈ pairs := by
    intro l
    induction l with
    | nil => intro s _ _ h; simpa using h
    | cons p l ih =>
      intro s h1 h2 h3
      rw [List.foldl_cons]
      refine ih _ (fun q hq => h1 q (by simp [hq])) ?_ ?_
      · split
        · intro q hq
          rcases List.mem_append.mp hq with hq | hq
          · exact h2 q hq
          · rw [List.mem_singleton.mp hq]; exact h1 p (by simp)
        · exact h2
      · split
        · exact h3
        · rename_i q hq
          intro c hc
          rcases List.mem_append.mp hc with hc | hc
          · exact h3 c hc
          · rw [List.mem_singleton.mp hc]; exact ⟨h1 p (by simp), h2 q (List.mem_of_find?_eq_some hq)⟩
  exact key pairs ([], []) (fun _ h => h) (by simp) (by simp) c h

theorem kcPost_spec (h : TeamTables py K) {belief : List Num} (hb : ∀ i < K.length, bel belief i ≠ nan) {a : Mat Num}
    (ha : a.cols = K.length) (byTeams : Bool) {fuel : ℕ} (hf : K.length ≤ fuel) (threshold : Num) :
    ∃ out, kcPost py byTeams fuel threshold a belief = some out ∧ RemInv py K out.final ∧
      out.final.sel.Sublist (selectedTeams (decisionMatrix threshold a)) ∧
      (reusedPairs (matchedPairs (decisionMatrix threshold a))).mapM (pickPair a) = some out.ic ∧
      Removals py.caps K (fun sel t => Weakest belief (candidates byTeams py.caps K sel) t)
        (selectedTeams (decisionMatrix threshold a)) out.final.sel := by
  unfold kcPost
  have hasc : (selectedTeams (decisionMatrix threshold a)).Pairwise (· < ·) := List.Pairwise.filter _ List.pairwise_lt_range
  have hlt : ∀ i ∈ selectedTeams (decisionMatrix threshold a), i < K.length := by
    intro i hi
    have := List.mem_range.mp (List.mem_of_mem_filter hi)
    rwa [show (decisionMatrix threshold a).cols = a.cols from rfl, ha] at this
  obtain ⟨loads, locs, h1, h2⟩ := analyseTeams_spec h hasc hlt
  have hpick : ∃ ic, (reusedPairs (matchedPairs (decisionMatrix threshold a))).mapM (pickPair a) = some ic := by
    refine ⟨_, mapM_some (g := fun c => (pickPair a c).getD none) fun c hc => ?_⟩
    obtain ⟨c1, c2⟩ := mem_reusedPairs hc
    have b1 := mem_matchedPairs.mp c1
    have b2 := mem_matchedPairs.mp c2
    have e1 : a.rd c.1.1 c.1.2 = some (a.data c.1.1 c.1.2) := by
      unfold Mat.rd; rw [if_pos ⟨b1.1, b1.2.1⟩]
    have e2 : a.rd c.2.1 c.2.2 = some (a.data c.2.1 c.2.2) := by
      unfold Mat.rd; rw [if_pos ⟨b2.1, b2.2.1⟩]
    unfold pickPair
    simp only [e1, e2, Option.bind_eq_bind, Option.bind_some]
    rfl
  obtain ⟨ic, hic⟩ := hpick
  simp only [h1, Option.bind_eq_bind, Option.bind_some, hic]
  have hlen : (selectedTeams (decisionMatrix threshold a)).length ≤ fuel := by
    refine le_trans ?_ hf
    rw [← ha]
    refine le_trans (List.length_filter_le _ _) ?_
    simp [decisionMatrix]
  obtain ⟨st', k1, k2, k3, k4⟩ := removalLoop_spec (py := py) (K := K)
    (round := if byTeams then roundTeams py belief else roundDepartments py belief)
    (Pick := fun sel t => Weakest belief (candidates byTeams py.caps K sel) t) (by
      intro st hi hne
      cases byTeams
      · exact roundDepartments_spec h hb hi hne
      · exact roundTeams_spec h hb hi hne) fuel ⟨_, locs, loads⟩ h2 hlen
  by_cases e : exceeded py.caps loads = true
  · rw [if_pos e, k1]
    exact ⟨_, rfl, k2, k3, rfl, k4⟩
  · rw [if_neg e]
    refine ⟨_, rfl, h2, List.Sublist.refl _, rfl, .done fun d hd => e ?_⟩
    have hm := ((over_iff h2).mp hd).2
    unfold overloaded at hm
    unfold exceeded
    obtain ⟨m1, m2⟩ := List.mem_filter.mp hm
    exact List.any_eq_true.mpr ⟨_, m1, m2⟩

/-- The generated tables describe the generated teams. -/
theorem generated_tables {d : TeamData} {caps types : List ℕ} (ht : TypesOk types) {combos : List (ℕ × ℕ)} (hp : PairsOk caps.length combos)
    (hf : ∀ c ∈ combos, ∀ t ∈ types, RealKind (c.1, c.2, t) → countOf (capOf caps) (c.1, c.2, t) ≠ 0) :
    ∃ T, generateTeams d caps types combos = some T ∧
      (∀ c ∈ combos, ∀ t ∈ types, IsCount (capOf caps) (c.1, c.2, t) (countOf (capOf caps) (c.1, c.2, t))) ∧
      TeamTables ⟨caps, T.weights, T.types.getD 0 [], T.last, combos⟩ (teams combos types (countOf (capOf caps))) := by
  obtain ⟨st, h1, h2, h3⟩ := generateTeams_spec (d := d) (fit := True) ht hp (fun _ => hf)
  refine ⟨_, h1, h2, ⟨fun x hx => ?_, ?_, fun k hk => ?_, fun i kind hk => lastIndex_spec hk⟩⟩
  · have hx' : x < st.weights.length := by rw [h3.shaped.1]; exact hx
    have e := (h3.tables trivial x hx).1
    rw [List.getD_eq_getElem?_getD, List.getElem?_eq_getElem hx'] at e
    show st.weights[x]? = _
    rw [List.getElem?_eq_getElem hx', ← e]; rfl
  · by_cases hc : 0 < caps.length
    · exact (h3.tables trivial 0 hc).2
    · have : combos = [] := by
        rcases combos with _ | ⟨c, combos⟩
        · rfl
        · have := hp c (by simp); omega
      have e : st.types.length = caps.length := h3.shaped.2
      have : st.types = [] := List.length_eq_zero_iff.mp (by omega)
      simp_all [teams]
  · unfold teams at hk
    simp only [List.mem_flatMap, List.mem_replicate] at hk
    obtain ⟨c, hc, t, htt, hne, rfl⟩ := hk
    have := hp c hc
    have h5 := ht t htt
    refine ⟨⟨this.1, this.2.1⟩, ⟨this.2.2.1, this.2.2.2⟩, h5.1, h5.2, ?_⟩
    by_contra hr
    exact hne ((h2 c hc t htt).2 hr)

theorem bel_ne_nan {belief : List Num} {n : ℕ} (hl : belief.length = n) (hb : nan ∉ belief) : ∀ i < n, bel belief i ≠ nan := by
  intro i hi e
  apply hb
  unfold bel at e
  rw [List.getD_eq_getElem?_getD, List.getElem?_eq_getElem (by omega)] at e
  rw [← show belief[i]'(by omega) = nan from e]
  exact List.getElem_mem _

theorem removals_mono {caps : List ℕ} {K : List (ℕ × ℕ × ℕ)} {P Q : List ℕ → ℕ → Prop} {sel r : List ℕ} (h : Removals caps K P sel r)
    (hPQ : ∀ s t, s.Sublist sel → t ∈ s → P s t → Q s t) : Removals caps K Q sel r := by
  induction h with
  | done h => exact .done h
  | step h1 h2 h3 _ ih =>
    exact .step h1 h2 (hPQ _ _ (List.Sublist.refl _) h2 h3) (ih fun s t hs => hPQ s t (hs.trans List.filter_sublist))

theorem load_filter_le (K : List (ℕ × ℕ × ℕ)) (sel : List ℕ) (p : ℕ → Bool) (d : ℕ) : load K (sel.filter p) d ≤ load K sel d :=
  List.Sublist.sum_le_sum (List.filter_sublist.map _) (by simp)

/-- A team that uses no overloaded unit is kept if only teams of overloaded units are removed. -/
theorem innocent_kept {caps : List ℕ} {K : List (ℕ × ℕ × ℕ)} {P : List ℕ → ℕ → Prop} {sel r : List ℕ} (h : Removals caps K P sel r)
    (hP : ∀ s t, P s t → ∃ d, Over caps K s d ∧ Uses K t d) {i : ℕ} (hi : i ∈ sel) (hno : ∀ d, Uses K i d → ¬ Over caps K sel d) :
    i ∈ r := by
  induction h with
  | done _ => exact hi
  | step h1 h2 h3 _ ih =>
    refine ih (List.mem_filter.mpr ⟨hi, ?_⟩) fun d hd ho => hno d hd ⟨ho.1, ho.2.1, ho.2.2.trans_le (load_filter_le _ _ _ _)⟩
    obtain ⟨d, d1, d2⟩ := hP _ _ h3
    simp only [decide_eq_true_eq]
    rintro rfl
    exact hno d d2 d1

theorem candidates_use {byTeams : Bool} {caps : List ℕ} {K : List (ℕ × ℕ × ℕ)} {s : List ℕ} {t : ℕ} (h : candidates byTeams caps K s t) :
    t ∈ s ∧ ∃ d, Over caps K s d ∧ Uses K t d := by
  cases byTeams with
  | false => obtain ⟨h1, d, h2, h3⟩ := h; exact ⟨h1, d, h2.1, h3⟩
  | true => obtain ⟨⟨h1, d, h2, h3, -⟩, -⟩ := h; exact ⟨h1, d, h2, h3⟩

end
end Verif.Proofs
