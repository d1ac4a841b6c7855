import Verif.Model.KsatGen
import Verif.Spec.Formula
import Mathlib.Data.List.GetD
import Mathlib.Data.Finset.Card
import Mathlib.Data.Finset.Range
import Mathlib.Data.Finset.SDiff

namespace Verif.Proofs
open Verif Spec Model

theorem getD_set {α : Type} (l : List α) (i j : ℕ) (a d : α) (hi : i < l.length) : (l.set i a).getD j d = if j = i then a else l.getD j d := by
  simp only [List.getD_eq_getElem?_getD, List.getElem?_set]
  by_cases h : i = j
  · subst h; simp [hi]
  · rw [if_neg h, if_neg (fun e => h e.symm)]

/-- The variable entries that a clause `cl` with number `ic` adds to variable `v`. -/
def added (cl : List (ℕ × ℤ)) (ic v : ℕ) : List (ℕ × ℤ) := (cl.filter (fun l => l.1 == v)).map (fun l => (ic, l.2))

theorem mem_added {cl : List (ℕ × ℤ)} {ic v c : ℕ} {s : ℤ} : (c, s) ∈ added cl ic v ↔ c = ic ∧ (v, s) ∈ cl := by
  simp only [added, List.mem_map, List.mem_filter, beq_iff_eq, Prod.mk.injEq, Prod.exists]
  constructor
  · rintro ⟨a, b, ⟨h, rfl⟩, rfl, rfl⟩; exact ⟨rfl, h⟩
  · rintro ⟨rfl, h⟩; exact ⟨v, s, ⟨h, rfl⟩, rfl, rfl⟩

theorem added_nil {cl : List (ℕ × ℤ)} {ic v : ℕ} (h : v ∉ cl.map Prod.fst) : added cl ic v = [] := by
  rw [added, List.map_eq_nil_iff, List.filter_eq_nil_iff]
  intro l hl e
  exact h (List.mem_map.mpr ⟨l, hl, by simpa using e⟩)

theorem added_one {cl : List (ℕ × ℤ)} {ic v : ℕ} (hn : (cl.map Prod.fst).Nodup) (h : v ∈ cl.map Prod.fst) :
    ∃ s, added cl ic v = [(ic, s)] := by
  induction cl with
  | nil => simp at h
  | cons l cl ih =>
    obtain ⟨a, b⟩ := l
    rw [List.map_cons, List.nodup_cons] at hn
    by_cases e : a = v
    · subst e
      refine ⟨b, ?_⟩
      have : added cl ic a = [] := added_nil hn.1
      simp only [added] at this ⊢
      rw [List.filter_cons_of_pos (by simp), List.map_cons, this]
    · have h' : v ∈ cl.map Prod.fst := by
        rw [List.map_cons, List.mem_cons] at h
        rcases h with h | h
        · exact absurd h.symm e
        · exact h
      obtain ⟨s, hs⟩ := ih hn.2 h'
      refine ⟨s, ?_⟩
      simp only [added] at hs ⊢
      rw [List.filter_cons_of_neg (by simpa using e), hs]

theorem added_append {cl : List (ℕ × ℤ)} {ic v : ℕ} {l : ℕ × ℤ} :
    added (cl ++ [l]) ic v = added cl ic v ++ if v = l.1 then [(ic, l.2)] else [] := by
  simp only [added, List.filter_append, List.map_append]
  congr 1
  by_cases h : v = l.1
  · rw [if_pos h, List.filter_cons_of_pos (by simp [h])]; rfl
  · rw [if_neg h, List.filter_cons_of_neg (by simpa using fun e => h e.symm)]; rfl

/-- What holds while a clause is drawn. -/
structure DrawOk (n : ℕ) (sol : List Bool) (ic : ℕ) (used : List ℕ) (conns : List (List (ℕ × ℤ))) (g : GenClause) : Prop where
  nodup : (g.cl.map Prod.fst).Nodup
  lt : ∀ l ∈ g.cl, l.1 < n
  sign : ∀ l ∈ g.cl, l.2 = 1 ∨ l.2 = -1
  used : g.used = used ++ g.cl.map Prod.fst
  len : g.conns.length = n
  conns : ∀ v, g.conns.getD v [] = conns.getD v [] ++ added g.cl ic v

theorem addLiteral_spec {n : ℕ} {sol : List Bool} {ic : ℕ} {used : List ℕ} {conns : List (List (ℕ × ℤ))} {g : GenClause}
    (h : DrawOk n sol ic used conns g) {l : ℕ × ℤ} (hl : l.1 < n) (hs : l.2 = 1 ∨ l.2 = -1) (hnew : l.1 ∉ g.cl.map Prod.fst) :
    ∃ g', addLiteral ic l g = some g' ∧ DrawOk n sol ic used conns g' ∧ g'.cl = g.cl ++ [l] := by
  have hlt : l.1 < g.conns.length := by rw [h.len]; exact hl
  refine ⟨⟨g.cl ++ [l], g.used ++ [l.1], g.conns.set l.1 (g.conns.getD l.1 [] ++ [(ic, l.2)])⟩, ?_, ⟨?_, ?_, ?_, ?_, ?_, ?_⟩, rfl⟩
  · simp only [addLiteral, List.getElem?_eq_getElem hlt, List.getD_eq_getElem?_getD, Option.bind_eq_bind, Option.bind_some,
      Option.getD_some]
  · show ((g.cl ++ [l]).map Prod.fst).Nodup
    rw [List.map_append, List.map_singleton, List.nodup_append]
    refine ⟨h.nodup, by simp, fun a ha b hb => ?_⟩
    rw [List.mem_singleton] at hb
    rintro rfl
    exact hnew (hb ▸ ha)
  · intro x hx
    rcases List.mem_append.mp hx with hx | hx
    · exact h.lt x hx
    · rw [List.mem_singleton.mp hx]; exact hl
  · intro x hx
    rcases List.mem_append.mp hx with hx | hx
    · exact h.sign x hx
    · rw [List.mem_singleton.mp hx]; exact hs
  · show g.used ++ [l.1] = used ++ (g.cl ++ [l]).map Prod.fst
    rw [h.used, List.map_append, List.append_assoc, List.map_singleton]
  · show (g.conns.set _ _).length = n
    rw [List.length_set, h.len]
  · intro v
    show (g.conns.set _ _).getD v [] = _ ++ added (g.cl ++ [l]) ic v
    rw [getD_set _ _ _ _ _ hlt, added_append]
    by_cases e : v = l.1
    · rw [if_pos e, if_pos e, ← e, h.conns v, List.append_assoc]
    · rw [if_neg e, if_neg e, h.conns v, List.append_nil]

theorem candidates_length {n : ℕ} {l : List ℕ} (hn : l.Nodup) (hl : ∀ x ∈ l, x < n) :
    ((List.range n).filter (fun x => !l.contains x)).length = n - l.length := by
  have h1 : ((List.range n).filter (fun x => !l.contains x)).toFinset = Finset.range n \ l.toFinset := by
    ext x; simp
  have hnd : ((List.range n).filter (fun x => !l.contains x)).Nodup := List.Nodup.filter _ List.nodup_range
  rw [← List.toFinset_card_of_nodup hnd, h1, Finset.card_sdiff_of_subset, Finset.card_range, List.toFinset_card_of_nodup hn]
  intro x hx
  rw [Finset.mem_range]
  exact hl x (List.mem_toFinset.mp hx)

theorem drawClause_spec {n k : ℕ} {sol : List Bool} {first : ℕ} {pick : ℕ → ℕ} {sign : ℕ → Bool} {ic : ℕ} {used : List ℕ}
    {conns : List (List (ℕ × ℤ))} (hk : 1 ≤ k) (hsol : sol.length = n) (hf : first < n)
    (hp : ∀ j < k - 1, pick j < n - 1 - j) (hc : conns.length = n) :
    ∃ g, drawClause n k sol first pick sign ic ⟨[], used, conns⟩ = some g ∧ DrawOk n sol ic used conns g ∧ g.cl.length = k ∧
      ∃ l ∈ g.cl, LitTrue (asgn sol) l := by
  have hf' : first < sol.length := by omega
  obtain ⟨g1, a1, a2, a3⟩ := addLiteral_spec (n := n) (sol := sol) (ic := ic) (used := used) (conns := conns) (g := ⟨[], used, conns⟩)
    ⟨by simp, by simp, by simp, by simp, hc, fun v => by simp [added]⟩ (l := (first, if sol[first] then 1 else -1)) hf
    (by by_cases h : sol[first] <;> simp [h]) (by simp)
  obtain ⟨g, b1, b2, b3, b4⟩ := loopUp_inv (n := k - 1) (body := fun j g => do
    let cands := (List.range n).filter (fun x => !(g.cl.map Prod.fst).contains x)
    let v ← cands[pick j]?
    addLiteral ic (v, if sign j then 1 else -1) g) (s := g1)
    (fun j g => DrawOk n sol ic used conns g ∧ g.cl.length = 1 + j ∧ (first, if sol[first] then (1 : ℤ) else -1) ∈ g.cl)
    ⟨a2, by rw [a3]; rfl, by rw [a3]; simp⟩
    (by
      rintro j hj g ⟨c1, c2, c3⟩
      have hlen : ((List.range n).filter (fun x => !(g.cl.map Prod.fst).contains x)).length = n - 1 - j := by
        rw [candidates_length c1.nodup, List.length_map, c2]
        · omega
        · intro x hx
          obtain ⟨l, hl, rfl⟩ := List.mem_map.mp hx
          exact c1.lt l hl
      have hlt := hp j hj
      rw [← hlen] at hlt
      have hmem := List.getElem_mem hlt
      rw [List.mem_filter] at hmem
      obtain ⟨g', d1, d2, d3⟩ := addLiteral_spec c1
        (l := (((List.range n).filter (fun x => !(g.cl.map Prod.fst).contains x))[pick j], if sign j then 1 else -1))
        (List.mem_range.mp hmem.1) (by by_cases h : sign j <;> simp [h]) (by simpa using hmem.2)
      refine ⟨g', ?_, d2, ?_, ?_⟩
      · simp only [List.getElem?_eq_getElem hlt, Option.bind_eq_bind, Option.bind_some, d1]
      · rw [d3, List.length_append, c2]; rfl
      · rw [d3]; exact List.mem_append_left _ c3)
  refine ⟨g, ?_, b2, by omega, _, b4, ?_⟩
  · simp only [Option.bind_eq_bind] at b1
    simp only [drawClause, List.getElem?_eq_getElem hf', Option.bind_eq_bind, Option.bind_some, a1, b1]
  · have e : asgn sol first = sol[first] := by simp [asgn, hf']
    by_cases h : sol[first]
    · exact Or.inl ⟨by simp [h], by simpa [h] using e⟩
    · exact Or.inr ⟨by simp [h], by simpa [h] using e⟩

/-- Same set of variables. -/
def SameVars (a b : List (ℕ × ℤ)) : Prop := ∀ v, v ∈ a.map Prod.fst ↔ v ∈ b.map Prod.fst

theorem sameVars_iff {a b : List (ℕ × ℤ)} : sameVars a b = true ↔ SameVars a b := by
  simp only [sameVars, Bool.and_eq_true, List.all_eq_true, List.contains_iff_mem, SameVars]
  exact ⟨fun h v => ⟨h.1 v, h.2 v⟩, fun h => ⟨fun v => (h v).mp, fun v => (h v).mpr⟩⟩

/-- A well formed clause that is true under `sol`. -/
structure ClauseOk (n k : ℕ) (sol : List Bool) (cl : List (ℕ × ℤ)) : Prop where
  len : cl.length = k
  nodup : (cl.map Prod.fst).Nodup
  lt : ∀ l ∈ cl, l.1 < n
  sign : ∀ l ∈ cl, l.2 = 1 ∨ l.2 = -1
  sat : ∃ l ∈ cl, LitTrue (asgn sol) l

/-- Invariant of the outer loop; `acc` are the accepted clauses. -/
structure GenOk (n m k : ℕ) (sol : List Bool) (st : GenState) (acc : List (List (ℕ × ℤ))) : Prop where
  slots : st.slots = acc ++ List.replicate (m - acc.length) []
  ic : st.ic = acc.length
  ok : ∀ cl ∈ acc, ClauseOk n k sol cl
  distinct : acc.Pairwise (fun a b => ¬ SameVars a b)
  len : st.conns.length = n
  mem : ∀ v c s, (c, s) ∈ st.conns.getD v [] ↔ (v, s) ∈ acc.getD c []
  nodup : ∀ v, ((st.conns.getD v []).map Prod.fst).Nodup
  used : ∀ v, v ∈ st.used ↔ ∃ cl ∈ acc, v ∈ cl.map Prod.fst

theorem popConn_spec {ic v : ℕ} {conns : List (List (ℕ × ℤ))} {base : List (ℕ × ℤ)} {s : ℤ} (hv : v < conns.length)
    (hrow : conns.getD v [] = base ++ [(ic, s)]) (hb : ∀ p ∈ base, p.1 ≠ ic) : popConn ic v conns = some (conns.set v base) := by
  have e : conns[v]? = some (base ++ [(ic, s)]) := by
    rw [List.getElem?_eq_getElem hv]
    rw [List.getD_eq_getElem?_getD, List.getElem?_eq_getElem hv] at hrow
    exact congrArg some hrow
  simp only [popConn, e, Option.bind_eq_bind, Option.bind_some]
  rw [if_pos (by simp), List.eraseP_append_right _ (fun b hbm => by simpa using hb b hbm)]
  simp

theorem genStep_spec {n m k : ℕ} {sol : List Bool} {first : ℕ → ℕ} {pick : ℕ → ℕ → ℕ} {sign : ℕ → ℕ → Bool} {c : ℕ} {st : GenState}
    {acc : List (List (ℕ × ℤ))} (hk : 1 ≤ k) (hsol : sol.length = n) (hf : first c < n)
    (hp : ∀ j < k - 1, pick c j < n - 1 - j) (hacc : acc.length ≤ c) (hcm : c < m) (h : GenOk n m k sol st acc) :
    ∃ st' acc', genStep n k sol first pick sign c st = some st' ∧ GenOk n m k sol st' acc' ∧ acc'.length ≤ c + 1 ∧ acc' ≠ [] := by
  obtain ⟨g, a1, a2, a3, a4⟩ := drawClause_spec (sign := sign c) (ic := st.ic) (used := st.used) (conns := st.conns) hk hsol hf hp h.len
  have hclok : ClauseOk n k sol g.cl := ⟨a3, a2.nodup, a2.lt, a2.sign, a4⟩
  have hne : g.cl ≠ [] := by intro e; rw [e] at a3; simp at a3; omega
  have hbase : ∀ v, ∀ p ∈ st.conns.getD v [], p.1 ≠ st.ic := by
    rintro v ⟨c', s⟩ hp' rfl
    have := (h.mem v st.ic s).mp hp'
    rw [h.ic, List.getD_eq_getElem?_getD, List.getElem?_eq_none le_rfl] at this
    simp at this
  have hfound : st.slots.any (fun a => sameVars a g.cl) = true ↔ ∃ a ∈ acc, SameVars a g.cl := by
    rw [List.any_eq_true]
    constructor
    · rintro ⟨a, ha, hs⟩
      rw [sameVars_iff] at hs
      rw [h.slots, List.mem_append] at ha
      rcases ha with ha | ha
      · exact ⟨a, ha, hs⟩
      · have := List.eq_of_mem_replicate ha
        subst this
        obtain ⟨l, hl⟩ := List.exists_mem_of_ne_nil _ hne
        have := (hs l.1).mpr (List.mem_map.mpr ⟨l, hl, rfl⟩)
        simp at this
    · rintro ⟨a, ha, hs⟩
      exact ⟨a, by rw [h.slots]; exact List.mem_append_left _ ha, sameVars_iff.mpr hs⟩
  by_cases hd : st.slots.any (fun a => sameVars a g.cl) = true
  · obtain ⟨d, hdm, hds⟩ := hfound.mp hd
    obtain ⟨conns', b1, b2, b3⟩ := loopList_inv_idx (l := g.cl.map Prod.fst) (body := popConn st.ic) (s := g.conns)
      (fun i cs => cs.length = n ∧ ∀ v, cs.getD v [] = if v ∈ (g.cl.map Prod.fst).take i then st.conns.getD v [] else g.conns.getD v [])
      ⟨a2.len, fun v => by simp⟩
      (by
        rintro i hi cs ⟨c1, c2⟩
        have hvmem : (g.cl.map Prod.fst)[i] ∈ g.cl.map Prod.fst := List.getElem_mem hi
        have hvlt : (g.cl.map Prod.fst)[i] < n := by
          obtain ⟨l, hl, e⟩ := List.mem_map.mp hvmem
          rw [← e]; exact a2.lt l hl
        have hnot : (g.cl.map Prod.fst)[i] ∉ (g.cl.map Prod.fst).take i := by
          intro hm
          obtain ⟨j, hj, e⟩ := List.mem_take_iff_getElem.mp hm
          have := (List.Nodup.getElem_inj_iff a2.nodup).mp e
          omega
        obtain ⟨s, hs⟩ := added_one (ic := st.ic) a2.nodup hvmem
        have hrow : cs.getD (g.cl.map Prod.fst)[i] [] = st.conns.getD (g.cl.map Prod.fst)[i] [] ++ [(st.ic, s)] := by
          rw [c2, if_neg hnot, a2.conns, hs]
        refine ⟨_, popConn_spec (by omega) hrow (hbase _), by rw [List.length_set, c1], fun v => ?_⟩
        have hm : v ∈ (g.cl.map Prod.fst).take (i + 1) ↔ v ∈ (g.cl.map Prod.fst).take i ∨ v = (g.cl.map Prod.fst)[i] := by
          rw [List.take_succ_eq_append_getElem hi, List.mem_append, List.mem_singleton]
        rw [getD_set _ _ _ _ _ (by omega)]
        by_cases e : v = (g.cl.map Prod.fst)[i]
        · rw [if_pos e, if_pos (hm.mpr (Or.inr e)), e]
        · rw [if_neg e, c2 v]
          by_cases hv : v ∈ (g.cl.map Prod.fst).take i
          · rw [if_pos hv, if_pos (hm.mpr (Or.inl hv))]
          · rw [if_neg hv, if_neg (fun hx => (hm.mp hx).elim hv e)])
    rw [List.take_length] at b3
    have b4 : ∀ v, conns'.getD v [] = st.conns.getD v [] := by
      intro v
      rw [b3 v]
      by_cases hv : v ∈ g.cl.map Prod.fst
      · rw [if_pos hv]
      · rw [if_neg hv, a2.conns, added_nil hv, List.append_nil]
    refine ⟨⟨st.slots, g.used, conns', st.ic⟩, acc, ?_, ⟨h.slots, h.ic, h.ok, h.distinct, b2, fun v c s => ?_, fun v => ?_, fun v => ?_⟩,
      by omega, List.ne_nil_of_mem hdm⟩
    · simp only [genStep, a1, b1, hd, Option.bind_eq_bind, Option.bind_some]
      rw [if_neg (by simp)]
    · show (c, s) ∈ conns'.getD v [] ↔ _
      rw [b4]; exact h.mem v c s
    · show ((conns'.getD v []).map Prod.fst).Nodup
      rw [b4]; exact h.nodup v
    · show v ∈ g.used ↔ _
      rw [a2.used, List.mem_append, h.used]
      constructor
      · rintro (hv | hv)
        · exact hv
        · exact ⟨d, hdm, (hds v).mpr hv⟩
      · exact Or.inl
  · have hlt : st.ic < st.slots.length := by
      rw [h.slots, List.length_append, List.length_replicate, h.ic]; omega
    have hset : st.slots.set st.ic g.cl = (acc ++ [g.cl]) ++ List.replicate (m - (acc ++ [g.cl]).length) [] := by
      rw [h.slots, h.ic, List.set_append_right _ _ le_rfl, Nat.sub_self]
      have : m - acc.length = (m - (acc ++ [g.cl]).length) + 1 := by
        rw [List.length_append]; simp; omega
      rw [this, List.replicate_succ, List.set_cons_zero, List.append_assoc]; rfl
    refine ⟨⟨st.slots.set st.ic g.cl, g.used, g.conns, st.ic + 1⟩, acc ++ [g.cl], ?_, ⟨hset, ?_, ?_, ?_, a2.len, fun v c s => ?_,
      fun v => ?_, fun v => ?_⟩, ?_, by simp⟩
    · simp only [genStep, a1, hd, Option.bind_eq_bind, Option.bind_some]
      rw [if_pos (by simp), if_pos hlt]
    · show st.ic + 1 = _
      rw [h.ic, List.length_append]; rfl
    · intro cl hcl
      rcases List.mem_append.mp hcl with hcl | hcl
      · exact h.ok cl hcl
      · rw [List.mem_singleton.mp hcl]; exact hclok
    · rw [List.pairwise_append]
      refine ⟨h.distinct, List.pairwise_singleton _ _, fun a ha b hb hs => hd (hfound.mpr ⟨a, ha, ?_⟩)⟩
      rw [List.mem_singleton.mp hb] at hs; exact hs
    · show (c, s) ∈ g.conns.getD v [] ↔ _
      rw [a2.conns, List.mem_append, h.mem, mem_added, h.ic]
      rcases Nat.lt_trichotomy c acc.length with hc | hc | hc
      · rw [List.getD_append _ _ _ _ hc]
        exact ⟨fun hx => hx.elim id (fun hx => by omega), Or.inl⟩
      · subst hc
        rw [List.getD_append_right _ _ _ _ le_rfl, Nat.sub_self, List.getD_eq_getElem?_getD (l := acc), List.getElem?_eq_none le_rfl]
        simp
      · rw [List.getD_append_right _ _ _ _ hc.le, List.getD_eq_getElem?_getD (l := acc), List.getElem?_eq_none hc.le,
          List.getD_eq_getElem?_getD, List.getElem?_eq_none (by simp; omega)]
        simp; omega
    · show ((g.conns.getD v []).map Prod.fst).Nodup
      rw [a2.conns, List.map_append, List.nodup_append]
      refine ⟨h.nodup v, ?_, fun a ha b hb => ?_⟩
      · by_cases hv : v ∈ g.cl.map Prod.fst
        · obtain ⟨s, hs⟩ := added_one (ic := st.ic) a2.nodup hv
          rw [hs]; simp
        · rw [added_nil hv]; simp
      · obtain ⟨p, hp', rfl⟩ := List.mem_map.mp ha
        obtain ⟨q, hq, rfl⟩ := List.mem_map.mp hb
        rw [(mem_added (c := q.1) (s := q.2)).mp hq |>.1]
        exact hbase v p hp'
    · show v ∈ g.used ↔ _
      rw [a2.used, List.mem_append, h.used]
      constructor
      · rintro (⟨cl, hcl, hv⟩ | hv)
        · exact ⟨cl, List.mem_append_left _ hcl, hv⟩
        · exact ⟨g.cl, by simp, hv⟩
      · rintro ⟨cl, hcl, hv⟩
        rcases List.mem_append.mp hcl with hcl | hcl
        · exact Or.inl ⟨cl, hcl, hv⟩
        · rw [List.mem_singleton.mp hcl] at hv; exact Or.inr hv
    · rw [List.length_append]; simp; omega

theorem generate_spec {n m k : ℕ} {order : List ℕ → List ℕ} {sol : List Bool} {first : ℕ → ℕ} {pick : ℕ → ℕ → ℕ}
    {sign : ℕ → ℕ → Bool} (hk : 1 ≤ k) (hsol : sol.length = n) (hf : ∀ c < m, first c < n)
    (hp : ∀ c < m, ∀ j < k - 1, pick c j < n - 1 - j) :
    ∃ st, generate n m k order sol first pick sign =
        some ⟨order st.used.dedup, st.slots.filter (fun l => !l.isEmpty), st.conns⟩ ∧
      ∃ acc, GenOk n m k sol st acc ∧ acc.length ≤ m ∧ (m ≠ 0 → acc ≠ []) ∧ st.slots.filter (fun l => !l.isEmpty) = acc := by
  obtain ⟨st, a1, acc, a2, a3, a4⟩ := loopUp_inv (n := m) (body := genStep n k sol first pick sign)
    (s := ⟨List.replicate m [], [], List.replicate n [], 0⟩)
    (fun c st => ∃ acc, GenOk n m k sol st acc ∧ acc.length ≤ c ∧ (c ≠ 0 → acc ≠ []))
    ⟨[], ⟨by simp, rfl, by simp, by simp, by simp, fun v c s => by
      simp only [List.getD_eq_getElem?_getD, List.getElem?_replicate]; by_cases h : v < n <;> simp [h], fun v => by
      simp only [List.getD_eq_getElem?_getD, List.getElem?_replicate]; by_cases h : v < n <;> simp [h], by simp⟩, le_rfl, by simp⟩
    (by
      rintro c hc st ⟨acc, b1, b2, -⟩
      obtain ⟨st', acc', c1, c2, c3, c4⟩ := genStep_spec hk hsol (hf c hc) (hp c hc) (sign := sign) b2 hc b1
      exact ⟨st', c1, acc', c2, c3, fun _ => c4⟩)
  refine ⟨st, ?_, acc, a2, a3, a4, ?_⟩
  · simp only [generate, a1, Option.bind_eq_bind, Option.bind_some]
  · rw [a2.slots, List.filter_append, List.filter_eq_self.mpr, List.filter_eq_nil_iff.mpr, List.append_nil]
    · intro l hl; rw [List.eq_of_mem_replicate hl]; simp
    · intro l hl
      have h1 := (a2.ok l hl).len
      cases l with
      | nil => simp at h1; omega
      | cons => simp

end Verif.Proofs
