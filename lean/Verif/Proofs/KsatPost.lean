import Verif.Model.KsatPost
import Verif.Spec.Formula

namespace Verif.Proofs
open Verif Num Spec Model

section
variable {n : ℕ} {t : KsatTables} {hard : List Bool}

theorem mapM_getElem? {used : List ℕ} (h : ∀ v ∈ used, v < hard.length) :
    used.mapM (fun v => hard[v]?) = some (used.map (asgn hard)) := by
  induction used with
  | nil => rfl
  | cons v l ih =>
    have hv := h v (by simp)
    rw [List.mapM_cons, ih (fun x hx => h x (by simp [hx]))]
    simp [asgn, hv]

theorem zip_filter_map {used : List ℕ} {σ : ℕ → Bool} {d : Bool} :
    ((used.zip (used.map σ)).filter (fun p => p.2 == d)).map Prod.fst = used.filter (fun v => σ v == d) := by
  induction used with
  | nil => rfl
  | cons v l ih =>
    rw [List.map_cons, List.zip_cons_cons, List.filter_cons, List.filter_cons]
    by_cases h : σ v == d
    · rw [if_pos h, if_pos h, List.map_cons, ih]
    · rw [if_neg h, if_neg h, ih]

theorem usedWith_eq (h : ∀ v ∈ t.used, v < hard.length) (d : Bool) :
    usedWith t hard d = some (t.used.filter (fun v => asgn hard v == d)) := by
  simp only [usedWith, mapM_getElem? h, Option.bind_eq_bind, Option.bind_some, zip_filter_map]

theorem mem_clausesWith {s : ℤ} {vars : List ℕ} {c : ℕ} :
    c ∈ clausesWith t s vars ↔ ∃ v ∈ vars, (c, s) ∈ t.conns.getD v [] := by
  simp only [clausesWith, List.mem_dedup, List.mem_flatMap, List.mem_range, List.mem_map, List.mem_filter, Bool.and_eq_true,
    beq_iff_eq, List.contains_iff_mem]
  constructor
  · rintro ⟨v, hv, ⟨c', s'⟩, ⟨h1, h2, h3⟩, rfl⟩
    subst h2
    exact ⟨v, h3, h1⟩
  · rintro ⟨v, hv, h⟩
    refine ⟨v, ?_, (c, s), ⟨h, rfl, hv⟩, rfl⟩
    by_contra hn
    rw [List.getD_eq_getElem?_getD, List.getElem?_eq_none (by omega)] at h
    simp at h

/-- The summary of an assignment. -/
def summaryOf (t : KsatTables) (hard : List Bool) : KsatSummary :=
  ⟨t.used.filter (fun v => asgn hard v == true), t.used.filter (fun v => asgn hard v == false), violated t.clauses (asgn hard)⟩

theorem getSummary_eq (h : FormulaTables n t.clauses t.used t.conns) (hn : hard.length = n) :
    getSummary t hard = some (summaryOf t hard) := by
  have hu : ∀ v ∈ t.used, v < hard.length := fun v hv => by rw [hn]; exact h.used_lt v hv
  simp only [getSummary, usedWith_eq hu, Option.bind_eq_bind, Option.bind_some, summaryOf, violated]
  congr 2
  refine List.filter_congr fun c hc => ?_
  rw [Bool.eq_iff_iff]
  simp only [Bool.not_eq_true', List.contains_eq_mem, decide_eq_false_iff_not, List.mem_dedup, List.mem_append, mem_clausesWith,
    decide_eq_true_eq, List.mem_filter, beq_iff_eq, h.mem]
  have hc' : c < t.clauses.length := List.mem_range.mp hc
  have hcl : t.clauses.getD c [] ∈ t.clauses := by
    rw [List.getD_eq_getElem?_getD, List.getElem?_eq_getElem hc']; exact List.getElem_mem hc'
  constructor
  · rintro hno ⟨v, s⟩ hl (⟨h1, h2⟩ | ⟨h1, h2⟩)
    · simp only at h1 h2; subst h1
      exact hno (Or.inl ⟨v, ⟨h.used_mem _ hcl _ hl, h2⟩, hl⟩)
    · simp only at h1 h2; subst h1
      exact hno (Or.inr ⟨v, ⟨h.used_mem _ hcl _ hl, h2⟩, hl⟩)
  · rintro hv (⟨v, ⟨-, h2⟩, h3⟩ | ⟨v, ⟨-, h2⟩, h3⟩)
    · exact hv _ h3 (Or.inl ⟨rfl, h2⟩)
    · exact hv _ h3 (Or.inr ⟨rfl, h2⟩)

/-- The number of violated clauses. -/
def viol (t : KsatTables) (hard : List Bool) : ℕ := (violated t.clauses (asgn hard)).length

theorem viol_eq (t : KsatTables) (hard : List Bool) : (summaryOf t hard).unsat.length = viol t hard := by
  rw [viol, summaryOf]

/-- State in which the flag is right. -/
structure PostOk (n : ℕ) (t : KsatTables) (st : PostState) : Prop where
  len : st.hard.length = n
  flag : st.flag = (viol t st.hard == 0)

theorem tryAll_spec (h : FormulaTables n t.clauses t.used t.conns) :
    ∀ {l : List (ℕ × Bool)} {old : ℕ} {st : PostState}, (∀ p ∈ l, p.1 < n) → PostOk n t st →
      ∃ st', tryAll t l old st = some st' ∧ PostOk n t st' ∧ (viol t st'.hard < old ∨ st'.hard = st.hard)
  | [], _, st, _, hs => ⟨st, rfl, hs, Or.inr rfl⟩
  | (v, b) :: l, old, st, hl, hs => by
    have hv : v < st.hard.length := by rw [hs.len]; exact hl (v, b) (by simp)
    have hn : (st.hard.set v b).length = n := by rw [List.length_set, hs.len]
    simp only [tryAll, if_pos hv, getSummary_eq h hn, Option.bind_eq_bind, Option.bind_some, viol_eq]
    by_cases h1 : viol t (st.hard.set v b) < old
    · rw [if_pos h1]
      by_cases h2 : viol t (st.hard.set v b) = 0
      · rw [if_pos h2]
        exact ⟨_, rfl, ⟨hn, by simp [h2]⟩, Or.inl h1⟩
      · rw [if_neg h2]
        obtain ⟨st', a1, a2, a3⟩ := tryAll_spec h (l := l) (old := viol t (st.hard.set v b))
          (st := ⟨st.hard.set v b, summaryOf t (st.hard.set v b), false⟩) (fun p hp => hl p (by simp [hp])) ⟨hn, by simp [h2]⟩
        refine ⟨st', a1, a2, Or.inl ?_⟩
        rcases a3 with a3 | a3
        · omega
        · rw [a3]; exact h1
    · rw [if_neg h1]
      obtain ⟨st', a1, a2, a3⟩ := tryAll_spec h (l := l) (old := old) (st := { st with sum := summaryOf t (st.hard.set v b) })
        (fun p hp => hl p (by simp [hp])) ⟨hs.len, hs.flag⟩
      exact ⟨st', a1, a2, a3⟩

theorem clause_var_lt (h : FormulaTables n t.clauses t.used t.conns) {c : ℕ} {p : ℕ × ℤ} (hp : p ∈ t.clauses.getD c []) : p.1 < n := by
  by_cases hc : c < t.clauses.length
  · have hcl : t.clauses.getD c [] ∈ t.clauses := by
      rw [List.getD_eq_getElem?_getD, List.getElem?_eq_getElem hc]; exact List.getElem_mem hc
    exact h.used_lt _ (h.used_mem _ hcl p hp)
  · rw [List.getD_eq_getElem?_getD, List.getElem?_eq_none (by omega)] at hp
    simp at hp

theorem commonLiterals_mem {s : KsatSummary} {p : ℕ × ℤ} (hp : p ∈ commonLiterals t s) : ∃ c, p ∈ t.clauses.getD c [] := by
  have inner : ∀ (c : ℕ) (l : List ℕ) (acc : List (ℕ × ℤ)), (∀ q ∈ acc, ∃ c, q ∈ t.clauses.getD c []) →
      ∀ q ∈ l.foldl (fun acc r =>
        let common := (t.clauses.getD c []).flatMap (fun p => ((t.clauses.getD r []).filter (fun q =>
          p.1 == q.1 && p.2 == q.2 && ((s.active.contains p.1 && p.2 == -1) || (s.inactive.contains p.1 && p.2 == 1)))).map (fun _ => p))
        acc ++ common.filter (fun p => !acc.contains p)) acc, ∃ c, q ∈ t.clauses.getD c [] := by
    intro c l
    induction l with
    | nil => exact fun acc h => h
    | cons r l ih =>
      intro acc hacc
      rw [List.foldl_cons]
      refine ih _ fun q hq => ?_
      rcases List.mem_append.mp hq with hq | hq
      · exact hacc q hq
      · have hq := (List.mem_filter.mp hq).1
        obtain ⟨p, hp, hq⟩ := List.mem_flatMap.mp hq
        obtain ⟨-, -, rfl⟩ := List.mem_map.mp hq
        exact ⟨c, hp⟩
  have outer : ∀ (l : List ℕ) (acc : List (ℕ × ℤ)), (∀ q ∈ acc, ∃ c, q ∈ t.clauses.getD c []) →
      ∀ q ∈ l.foldl (fun acc c => (s.unsat.filter (· ≠ c)).foldl (fun acc r =>
        let common := (t.clauses.getD c []).flatMap (fun p => ((t.clauses.getD r []).filter (fun q =>
          p.1 == q.1 && p.2 == q.2 && ((s.active.contains p.1 && p.2 == -1) || (s.inactive.contains p.1 && p.2 == 1)))).map (fun _ => p))
        acc ++ common.filter (fun p => !acc.contains p)) acc) acc, ∃ c, q ∈ t.clauses.getD c [] := by
    intro l
    induction l with
    | nil => exact fun acc h => h
    | cons c l ih =>
      intro acc hacc
      rw [List.foldl_cons]
      exact ih _ (inner c _ acc hacc)
  exact outer s.unsat [] (by simp) p hp

theorem postPhase1_spec (h : FormulaTables n t.clauses t.used t.conns) {st : PostState} (hs : PostOk n t st)
    (hsum : st.sum = summaryOf t st.hard) :
    ∃ st', postPhase1 t st = some st' ∧ PostOk n t st' ∧ st'.sum = summaryOf t st'.hard ∧ viol t st'.hard ≤ viol t st.hard := by
  obtain ⟨st1, a1, a2, a3⟩ := tryAll_spec h (l := (commonLiterals t st.sum).map (fun p => (p.1, p.2 != -1)))
    (old := st.sum.unsat.length) (st := st) (by
      intro p hp
      obtain ⟨q, hq, rfl⟩ := List.mem_map.mp hp
      obtain ⟨c, hc⟩ := commonLiterals_mem hq
      exact clause_var_lt h hc) hs
  refine ⟨{ st1 with sum := summaryOf t st1.hard }, ?_, ⟨a2.len, a2.flag⟩, rfl, ?_⟩
  · simp only [postPhase1, a1, Option.bind_eq_bind, Option.bind_some, getSummary_eq h a2.len]
  · rw [hsum, viol_eq] at a3
    show viol t st1.hard ≤ _
    rcases a3 with a3 | a3
    · omega
    · rw [a3]

theorem poolOf_mem {c : ℕ} {nb : List ℕ} {x : ℕ} (hx : x ∈ poolOf t c nb) : ∃ i, ∃ p ∈ t.clauses.getD i [], p.1 = x := by
  simp only [poolOf, List.mem_dedup, List.mem_filter, List.mem_flatMap] at hx
  obtain ⟨⟨i, -, ⟨hx, -⟩, -⟩, -⟩ := hx
  obtain ⟨p, hp, e⟩ := List.mem_map.mp hx
  exact ⟨i, p, hp, e⟩

theorem postClause_spec (h : FormulaTables n t.clauses t.used t.conns) {order : List ℕ → List ℕ} (ho : ∀ l, (order l).Perm l) {c : ℕ}
    {s : PostState × List ℕ} (hs : PostOk n t s.1) (hc : ∀ x ∈ s.2, x < n) :
    ∃ s', postClause t order c s = some s' ∧ PostOk n t s'.1 ∧ (∀ x ∈ s'.2, x < n) ∧
      (viol t s'.1.hard < s.1.sum.unsat.length ∨ s'.1.hard = s.1.hard) := by
  obtain ⟨st', a1, a2, a3⟩ := tryAll_spec h
    (l := (order (poolOf t c (neighbours t s.1.sum c))).map (fun x => (x, signOf (t.clauses.getD c []) x == some 1)))
    (old := s.1.sum.unsat.length) (st := s.1) (by
      intro p hp
      obtain ⟨q, hq, rfl⟩ := List.mem_map.mp hp
      obtain ⟨i, p, hp, e⟩ := poolOf_mem ((ho _).mem_iff.mp hq)
      show q < n
      rw [← e]; exact clause_var_lt h hp) hs
  refine ⟨(st', s.2 ++ (c :: neighbours t s.1.sum c).flatMap (fun i => (t.clauses.getD i []).map Prod.fst)), ?_, a2, fun x hx => ?_, a3⟩
  · simp only [postClause, a1, Option.bind_eq_bind, Option.bind_some]
  · rcases List.mem_append.mp hx with hx | hx
    · exact hc x hx
    · obtain ⟨i, -, hx⟩ := List.mem_flatMap.mp hx
      obtain ⟨p, hp, rfl⟩ := List.mem_map.mp hx
      exact clause_var_lt h hp

theorem postPhase2_spec (h : FormulaTables n t.clauses t.used t.conns) {order : List ℕ → List ℕ} (ho : ∀ l, (order l).Perm l)
    {st : PostState} (hs : PostOk n t st) (hsum : st.sum = summaryOf t st.hard) :
    ∃ s', postPhase2 t order st = some s' ∧ PostOk n t s'.1 ∧ s'.1.sum = summaryOf t s'.1.hard ∧ (∀ x ∈ s'.2, x < n) ∧
      (viol t st.hard ≤ 1 → viol t s'.1.hard ≤ viol t st.hard) := by
  obtain ⟨s1, a1, a2, a3, a4⟩ := loopList_inv (l := st.sum.unsat) (body := postClause t order) (s := (st, ([] : List ℕ)))
    (fun l s => PostOk n t s.1 ∧ (∀ x ∈ s.2, x < n) ∧
      (viol t st.hard ≤ 1 → (l = st.sum.unsat ∧ s.1 = st) ∨ (l = [] ∧ viol t s.1.hard ≤ viol t st.hard)))
    ⟨hs, by simp, fun _ => Or.inl ⟨rfl, rfl⟩⟩
    (by
      rintro c l s ⟨b1, b2, b3⟩
      obtain ⟨s', c1, c2, c3, c4⟩ := postClause_spec h ho (c := c) b1 b2
      refine ⟨s', c1, c2, c3, fun hle => Or.inr ?_⟩
      rcases b3 hle with ⟨e1, e2⟩ | ⟨e1, -⟩
      · have hlen : (c :: l).length = viol t st.hard := by rw [e1, hsum]; rfl
        rw [List.length_cons] at hlen
        refine ⟨List.eq_nil_of_length_eq_zero (by omega), ?_⟩
        rw [e2, hsum, viol_eq] at c4
        rcases c4 with c4 | c4
        · omega
        · rw [c4]
      · cases e1)
  refine ⟨({ s1.1 with sum := summaryOf t s1.1.hard }, s1.2), ?_, ⟨a2.len, a2.flag⟩, rfl, a3, fun hle => ?_⟩
  · simp only [postPhase2, a1, Option.bind_eq_bind, Option.bind_some, getSummary_eq h a2.len]
  · rcases a4 hle with ⟨-, e⟩ | ⟨-, e⟩
    · show viol t s1.1.hard ≤ _; rw [e]
    · exact e

theorem combinations_mem : ∀ {m : ℕ} {l c : List ℕ}, c ∈ combinations m l → ∀ x ∈ c, x ∈ l
  | 0, _, c, hc => by simp [combinations] at hc; subst hc; simp
  | _ + 1, [], c, hc => by simp [combinations] at hc
  | m + 1, a :: l, c, hc => by
    rw [combinations, List.mem_append] at hc
    rcases hc with hc | hc
    · obtain ⟨c', hc', rfl⟩ := List.mem_map.mp hc
      intro x hx
      rcases List.mem_cons.mp hx with rfl | hx
      · simp
      · exact List.mem_cons_of_mem _ (combinations_mem hc' x hx)
    · exact fun x hx => List.mem_cons_of_mem _ (combinations_mem hc x hx)

theorem setAll_spec : ∀ {l : List (ℕ × Bool)} {hard : List Bool}, hard.length = n → (∀ p ∈ l, p.1 < n) →
    ∃ h', setAll hard l = some h' ∧ h'.length = n
  | [], hard, hn, _ => ⟨hard, rfl, hn⟩
  | (v, b) :: l, hard, hn, hl => by
    have hv : v < hard.length := by rw [hn]; exact hl (v, b) (by simp)
    rw [setAll, if_pos hv]
    exact setAll_spec (by rw [List.length_set, hn]) fun p hp => hl p (by simp [hp])

theorem tryDecisions_spec (h : FormulaTables n t.clauses t.used t.conns) {vars : List ℕ} (hv : ∀ x ∈ vars, x < n) :
    ∀ {ds : List (List Bool)} {s : PostState × ℕ}, PostOk n t s.1 → viol t s.1.hard = s.2 →
      ∃ s', tryDecisions t vars ds s = some s' ∧ PostOk n t s'.1 ∧ viol t s'.1.hard = s'.2 ∧ s'.2 ≤ s.2
  | [], s, h1, h2 => ⟨s, rfl, h1, h2, le_rfl⟩
  | d :: ds, s, h1, h2 => by
    obtain ⟨h', a1, a2⟩ := setAll_spec (n := n) (l := vars.zip d) h1.len (fun p hp => hv _ (List.of_mem_zip hp).1)
    simp only [tryDecisions, a1, getSummary_eq h a2, Option.bind_eq_bind, Option.bind_some, viol_eq]
    by_cases hlt : viol t h' < s.2
    · rw [if_pos hlt]
      exact ⟨_, rfl, ⟨a2, rfl⟩, rfl, hlt.le⟩
    · rw [if_neg hlt]
      exact tryDecisions_spec h hv (s := ({ s.1 with sum := summaryOf t h' }, s.2)) ⟨h1.len, h1.flag⟩ h2

theorem tryCombinations_spec (h : FormulaTables n t.clauses t.used t.conns) {m : ℕ} :
    ∀ {l : List (List ℕ)} {s : PostState × ℕ}, (∀ c ∈ l, ∀ x ∈ c, x < n) → PostOk n t s.1 → viol t s.1.hard = s.2 →
      ∃ s', tryCombinations t m l s = some s' ∧ PostOk n t s'.1 ∧ viol t s'.1.hard = s'.2 ∧ s'.2 ≤ s.2
  | [], s, _, h1, h2 => ⟨s, rfl, h1, h2, le_rfl⟩
  | c :: l, s, hl, h1, h2 => by
    obtain ⟨s', a1, a2, a3, a4⟩ := tryDecisions_spec h (vars := c) (ds := decisions m) (hl c (by simp)) h1 h2
    simp only [tryCombinations, a1, Option.bind_eq_bind, Option.bind_some]
    by_cases hz : s'.1.sum.unsat.length = 0
    · rw [if_pos hz]; exact ⟨s', rfl, a2, a3, a4⟩
    · rw [if_neg hz]
      obtain ⟨s'', b1, b2, b3, b4⟩ := tryCombinations_spec h (m := m) (l := l) (fun c hc => hl c (by simp [hc])) a2 a3
      exact ⟨s'', b1, b2, b3, b4.trans a4⟩

theorem postPhase3_spec (h : FormulaTables n t.clauses t.used t.conns) {order : List ℕ → List ℕ} (ho : ∀ l, (order l).Perm l)
    {pp : ℕ} {s : PostState × List ℕ} (hs : PostOk n t s.1) (hsum : s.1.sum = summaryOf t s.1.hard) (hc : ∀ x ∈ s.2, x < n) :
    ∃ st', postPhase3 t order pp s = some st' ∧ PostOk n t st' ∧ st'.sum = summaryOf t st'.hard ∧
      viol t st'.hard ≤ viol t s.1.hard := by
  have hl : s.1.sum.unsat.length = viol t s.1.hard := by rw [hsum]; rfl
  by_cases hz : s.1.sum.unsat.length ≠ 0
  · obtain ⟨s', a1, a2, a3, a4⟩ := loopDown_inv (n := pp - 1)
      (body := fun m x => tryCombinations t (m + 2) (combinations (m + 2) (order s.2.dedup)) x) (s := (s.1, s.1.sum.unsat.length))
      (fun _ x => PostOk n t x.1 ∧ viol t x.1.hard = x.2 ∧ x.2 ≤ viol t s.1.hard) ⟨hs, hl.symm, hl.le⟩
      (by
        rintro m hm x ⟨b1, b2, b3⟩
        obtain ⟨x', c1, c2, c3, c4⟩ := tryCombinations_spec h (m := m + 2) (l := combinations (m + 2) (order s.2.dedup)) (by
          intro c hcm x hx
          exact hc x (List.mem_dedup.mp ((ho _).mem_iff.mp (combinations_mem hcm x hx)))) b1 b2
        exact ⟨x', c1, c2, c3, c4.trans b3⟩)
    refine ⟨{ s'.1 with sum := summaryOf t s'.1.hard }, ?_, ⟨a2.len, a2.flag⟩, rfl, ?_⟩
    · simp only [postPhase3, if_pos hz, a1, Option.bind_eq_bind, Option.bind_some, getSummary_eq h a2.len]
    · show viol t s'.1.hard ≤ _
      rw [a3]; exact a4
  · refine ⟨{ s.1 with sum := summaryOf t s.1.hard }, ?_, ⟨hs.len, hs.flag⟩, rfl, le_rfl⟩
    simp only [postPhase3, if_neg hz, Option.bind_eq_bind, Option.bind_some, getSummary_eq h hs.len]

theorem postProcess_spec (h : FormulaTables n t.clauses t.used t.conns) {order order' : List ℕ → List ℕ} (ho : ∀ l, (order l).Perm l)
    (ho' : ∀ l, (order' l).Perm l) {pp : ℕ} {st : PostState} (hs : PostOk n t st) (hsum : st.sum = summaryOf t st.hard) :
    ∃ st', postProcess t order order' pp st = some st' ∧ PostOk n t st' ∧ st'.sum = summaryOf t st'.hard ∧
      ((∀ st1, postPhase1 t st = some st1 → viol t st1.hard ≤ 1) → viol t st'.hard ≤ viol t st.hard) := by
  obtain ⟨st1, a1, a2, a3, a4⟩ := postPhase1_spec h hs hsum
  obtain ⟨s2, b1, b2, b3, b4, b5⟩ := postPhase2_spec h ho a2 a3
  obtain ⟨st3, c1, c2, c3, c4⟩ := postPhase3_spec h ho' (pp := pp) b2 b3 b4
  refine ⟨st3, ?_, c2, c3, fun h1 => ?_⟩
  · simp only [postProcess, a1, b1, c1, Option.bind_eq_bind, Option.bind_some]
  · have := b5 (h1 st1 a1)
    omega

end

end Verif.Proofs
