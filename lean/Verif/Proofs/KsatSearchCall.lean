import Verif.Proofs.KsatSearch
import Verif.Spec.Region

/-! Post-processing with one or two violated clauses. -/

namespace Verif.Proofs
open Verif Num Spec Model

section
variable {n : ℕ} {t : KsatTables}

theorem mem_varsOf {F : List (List (ℕ × ℤ))} {c x : ℕ} : x ∈ varsOf F c ↔ x ∈ (F.getD c []).map Prod.fst := by
  rw [varsOf, List.mem_toFinset]

theorem used_of_mem (h : FormulaTables n t.clauses t.used t.conns) {i : ℕ} {p : ℕ × ℤ} (hp : p ∈ t.clauses.getD i []) : p.1 ∈ t.used := by
  by_cases hc : i < t.clauses.length
  · have hcl : t.clauses.getD i [] ∈ t.clauses := by
      rw [List.getD_eq_getElem?_getD, List.getElem?_eq_getElem hc]; exact List.getElem_mem hc
    exact h.used_mem _ hcl p hp
  · rw [List.getD_eq_getElem?_getD, List.getElem?_eq_none (by omega)] at hp
    simp at hp

/-- The clauses found by the second phase are the near ones. -/
theorem mem_neighbours (h : FormulaTables n t.clauses t.used t.conns) {hard : List Bool} {c i : ℕ} :
    i ∈ neighbours t (summaryOf t hard) c ↔ i < t.clauses.length ∧ Near t.clauses (asgn hard) c i := by
  simp only [neighbours, List.mem_filter, List.mem_range, Bool.and_eq_true, List.any_eq_true, List.contains_iff_mem,
    Bool.not_eq_true', List.all_eq_false, List.any_eq_false, Near, mem_varsOf, and_assoc]
  refine and_congr_right fun _ => and_congr_right fun _ => and_congr Iff.rfl ?_
  refine forall_congr' fun l => forall_congr' fun hl => ?_
  have hu := used_of_mem h hl
  simp only [List.contains_eq_mem, decide_eq_true_eq, decide_eq_false_iff_not, not_and, LitTrue, not_or,
    summaryOf, List.mem_filter, beq_iff_eq, hu, true_and, Bool.or_eq_true, Bool.and_eq_true]

variable (h : FormulaTables n t.clauses t.used t.conns) {order order' : List ℕ → List ℕ} (ho : ∀ l, (order l).Perm l)
  (ho' : ∀ l, (order' l).Perm l)
include h ho ho'

/-- With one violated clause the first phase changes nothing and the second one looks at this clause only. -/
theorem one_violated {pp : ℕ} {st st' : PostState} (hs : PostOk n t st) (hsum : st.sum = summaryOf t st.hard) {c : ℕ}
    (hc : violated t.clauses (asgn st.hard) = [c]) (hst : postProcess t order order' pp st = some st') :
    ∃ st2 : PostState, tryAll t ((order (poolOf t c (neighbours t st.sum c))).map (fun x => (x, signOf (t.clauses.getD c []) x == some 1))) 1 st =
        some st2 ∧ PostOk n t st2 ∧
      postPhase3 t order' pp ({ st2 with sum := summaryOf t st2.hard },
        (c :: neighbours t st.sum c).flatMap (fun i => (t.clauses.getD i []).map Prod.fst)) = some st' := by
  have hu : st.sum.unsat = [c] := by rw [hsum]; exact hc
  have h1 : postPhase1 t st = some st := by
    have : commonLiterals t st.sum = [] := by simp [commonLiterals, hu]
    simp only [postPhase1, this, List.map_nil, tryAll, Option.bind_eq_bind, Option.bind_some, getSummary_eq h hs.len, ← hsum]
  obtain ⟨st2, a1, a2, -⟩ := tryAll_spec h
    (l := (order (poolOf t c (neighbours t st.sum c))).map (fun x => (x, signOf (t.clauses.getD c []) x == some 1)))
    (old := 1) (st := st) (by
      intro p hp
      obtain ⟨q, hq, rfl⟩ := List.mem_map.mp hp
      obtain ⟨i, p, hp, e⟩ := poolOf_mem ((ho _).mem_iff.mp hq)
      show q < n
      rw [← e]; exact clause_var_lt h hp) hs
  refine ⟨st2, a1, a2, ?_⟩
  have h2 : postPhase2 t order st = some ({ st2 with sum := summaryOf t st2.hard },
      (c :: neighbours t st.sum c).flatMap (fun i => (t.clauses.getD i []).map Prod.fst)) := by
    simp only [postPhase2, hu, loopList, postClause, List.length_cons, List.length_nil, zero_add, a1, Option.bind_eq_bind,
      Option.bind_some, getSummary_eq h a2.len, List.nil_append]
  simpa only [postProcess, h1, h2, Option.bind_eq_bind, Option.bind_some] using hst

theorem brute_force {pp : ℕ} {st st' : PostState} (hs : PostOk n t st) (hsum : st.sum = summaryOf t st.hard) {c : ℕ}
    (hc : violated t.clauses (asgn st.hard) = [c]) (h2 : 2 ≤ (varsOf t.clauses c).card) (hpp : 2 ≤ pp)
    {τ : ℕ → Bool} {D : Finset ℕ} (hτ : ∀ v, v ∉ D → τ v = asgn st.hard v) (hD : ∀ v ∈ D, Region t.clauses (asgn st.hard) c v)
    (hcard : D.card ≤ pp) (hsat : violated t.clauses τ = []) (hst : postProcess t order order' pp st = some st') :
    viol t st'.hard = 0 := by
  obtain ⟨st2, a1, a2, a3⟩ := one_violated h ho ho' hs hsum hc hst
  have hn : ∀ x ∈ (c :: neighbours t st.sum c).flatMap (fun i => (t.clauses.getD i []).map Prod.fst), x < n := by
    intro x hx
    obtain ⟨i, -, hx⟩ := List.mem_flatMap.mp hx
    obtain ⟨p, hp, rfl⟩ := List.mem_map.mp hx
    exact clause_var_lt h hp
  have ok : PostOk n t { st2 with sum := summaryOf t st2.hard } := ⟨a2.len, a2.flag⟩
  have hv1 : viol t st.hard = 1 := by rw [viol, hc]; rfl
  have hpool : ∀ p ∈ (order (poolOf t c (neighbours t st.sum c))).map (fun x => (x, signOf (t.clauses.getD c []) x == some 1)), p.1 < n := by
    intro p hp
    obtain ⟨q, hq, rfl⟩ := List.mem_map.mp hp
    obtain ⟨i, p, hp, e⟩ := poolOf_mem ((ho _).mem_iff.mp hq)
    show q < n
    rw [← e]; exact clause_var_lt h hp
  have hle : viol t st'.hard ≤ viol t st2.hard := by
    obtain ⟨st3, b1, -, -, b4⟩ := postPhase3_spec h ho' (pp := pp) (s := ({ st2 with sum := summaryOf t st2.hard },
      (c :: neighbours t st.sum c).flatMap (fun i => (t.clauses.getD i []).map Prod.fst))) ok rfl hn
    rw [b1] at a3
    obtain rfl := Option.some.inj a3
    exact b4
  rcases tryAll_search h hpool hs a1 with g | ⟨g, -⟩
  · omega
  · rcases postPhase3_search h ho' ok rfl hn a3 with g' | ⟨-, g'⟩
    · simp only at g'
      rw [g] at g'
      omega
    · have := g' τ D (by simpa only [g] using hτ) (by
        intro v hv
        rw [List.mem_toFinset, List.mem_flatMap]
        rcases hD v hv with hd | ⟨i, hi, hn', hd⟩
        · exact ⟨c, by simp, mem_varsOf.mp hd⟩
        · refine ⟨i, List.mem_cons_of_mem _ ?_, mem_varsOf.mp hd⟩
          rw [hsum]; exact (mem_neighbours h).mpr ⟨hi, hn'⟩) hcard hpp
        (h2.trans (Finset.card_le_card (by
          intro v hv
          rw [List.mem_toFinset, List.mem_flatMap]
          exact ⟨c, by simp, mem_varsOf.mp hv⟩)))
      simp only [g, hsat, List.length_nil] at this
      omega

/-- With two violated clauses that share a literal: if setting this literal leaves at most one violated clause, so does the run. -/
theorem two_violated {pp : ℕ} {st st' : PostState} (hs : PostOk n t st) (hsum : st.sum = summaryOf t st.hard) {c d : ℕ} (hcd : c ≠ d)
    (hc : violated t.clauses (asgn st.hard) = [c, d]) {v : ℕ} {s : ℤ} (hvc : (v, s) ∈ t.clauses.getD c []) (hvd : (v, s) ∈ t.clauses.getD d [])
    (hs1 : s = 1 ∨ s = -1) (hfl : (violated t.clauses (flipped (asgn st.hard) v)).length ≤ 1)
    (hst : postProcess t order order' pp st = some st') : viol t st'.hard ≤ 1 := by
  have hu : st.sum.unsat = [c, d] := by rw [hsum]; exact hc
  have hfalse : ¬ LitTrue (asgn st.hard) (v, s) := by
    have : c ∈ violated t.clauses (asgn st.hard) := by rw [hc]; simp
    have := (List.mem_filter.mp this).2
    simp only [decide_eq_true_eq] at this
    exact this _ hvc
  have hmem : (v, s) ∈ commonLiterals t st.sum := by
    have hu1 : [c, d].filter (fun x => decide (x ≠ c)) = [d] := by simp [Ne.symm hcd]
    have hu2 : [c, d].filter (fun x => decide (x ≠ d)) = [c] := by simp [hcd]
    simp only [commonLiterals, hu, List.foldl_cons, List.foldl_nil, hu1, hu2, List.nil_append]
    refine List.mem_append_left _ (List.mem_filter.mpr ⟨List.mem_flatMap.mpr ⟨(v, s), hvc, List.mem_map.mpr ⟨(v, s), List.mem_filter.mpr ⟨hvd, ?_⟩, rfl⟩⟩, by simp⟩)
    have hused := used_of_mem h hvc
    simp only [LitTrue, not_or, not_and, Bool.not_eq_true] at hfalse
    rw [hsum]
    simp only [summaryOf, beq_self_eq_true, Bool.true_and, List.contains_eq_mem, List.mem_filter, beq_iff_eq, hused, true_and,
      Bool.or_eq_true, Bool.and_eq_true, decide_eq_true_eq]
    rcases hs1 with rfl | rfl
    · right; exact ⟨hfalse.1 rfl, rfl⟩
    · left; refine ⟨?_, rfl⟩
      simpa using hfalse.2 rfl
  obtain ⟨st1, a1, a2, a3, a4⟩ := postPhase1_spec h hs hsum
  have hone : viol t st1.hard ≤ 1 := by
    simp only [postPhase1] at a1
    obtain ⟨x, b1, b2⟩ := Option.bind_eq_some_iff.mp a1
    have hl : ∀ p ∈ (commonLiterals t st.sum).map (fun p => (p.1, p.2 != -1)), p.1 < n := by
      intro p hp
      obtain ⟨q, hq, rfl⟩ := List.mem_map.mp hp
      obtain ⟨c, hc⟩ := commonLiterals_mem hq
      exact clause_var_lt h hc
    have hx := tryAll_spec h (old := st.sum.unsat.length) hl hs
    obtain ⟨x', hx1, hx2, -⟩ := hx
    rw [hx1] at b1
    obtain rfl := Option.some.inj b1
    rw [getSummary_eq h hx2.len] at b2
    simp only [Option.bind_eq_bind, Option.bind_some, Option.some.injEq] at b2
    subst b2
    rcases tryAll_search h hl hs hx1 with g | ⟨-, g⟩
    · rw [hu] at g
      simp only [List.length_cons, List.length_nil] at g
      show viol t x'.hard ≤ 1
      omega
    · have := g (v, s != -1) (List.mem_map.mpr ⟨(v, s), hmem, rfl⟩)
      rw [hu] at this
      simp only [List.length_cons, List.length_nil, viol] at this
      have e : violated t.clauses (asgn (st.hard.set v (s != -1))) = violated t.clauses (flipped (asgn st.hard) v) := by
        refine viol_congr h fun x hx => ?_
        have hvl : v < st.hard.length := by rw [hs.len]; exact clause_var_lt h hvc
        by_cases e : x = v
        · subst e
          simp only [LitTrue, not_or, not_and, Bool.not_eq_true] at hfalse
          simp only [asgn, flipped, if_true, List.getD_eq_getElem?_getD, List.getElem?_set_self hvl, Option.getD_some]
          simp only [asgn, List.getD_eq_getElem?_getD] at hfalse
          rcases hs1 with rfl | rfl
          · rw [hfalse.1 rfl]; rfl
          · have h2 := hfalse.2 rfl
            cases h3 : st.hard[x]?.getD false
            · rw [h3] at h2; simp at h2
            · rfl
        · simp only [asgn, flipped, if_neg e, List.getD_eq_getElem?_getD]
          rw [List.getElem?_set_ne (fun he => e he.symm)]
      rw [e] at this
      omega
  obtain ⟨s2, b1, b2, b3, b4, b5⟩ := postPhase2_spec h ho a2 a3
  obtain ⟨st3, c1, c2, c3, c4⟩ := postPhase3_spec h ho' (pp := pp) b2 b3 b4
  simp only [postProcess, a1, b1, c1, Option.bind_eq_bind, Option.bind_some, Option.some.injEq] at hst
  subst hst
  exact (c4.trans (b5 hone)).trans hone

/-- With one violated clause: a variable of it that some near clause contains with the same sign, and that is not the only common
variable with any near clause, is tried, whatever the number of variables of the brute force. -/
theorem pool_flip {pp : ℕ} {st st' : PostState} (hs : PostOk n t st) (hsum : st.sum = summaryOf t st.hard) {c : ℕ}
    (hc : violated t.clauses (asgn st.hard) = [c]) (hnd : ∀ cl ∈ t.clauses, (cl.map Prod.fst).Nodup)
    {x : ℕ} {s : ℤ} (hx : (x, s) ∈ t.clauses.getD c []) (hs1 : s = 1 ∨ s = -1)
    {i : ℕ} (hi : i < t.clauses.length) (hnear : Near t.clauses (asgn st.hard) c i) (hxi : (x, s) ∈ t.clauses.getD i [])
    (hforb : ∀ j < t.clauses.length, Near t.clauses (asgn st.hard) c j → x ∈ varsOf t.clauses j →
      ∃ y ≠ x, y ∈ varsOf t.clauses c ∧ y ∈ varsOf t.clauses j)
    (hsat : violated t.clauses (flipped (asgn st.hard) x) = []) (hst : postProcess t order order' pp st = some st') :
    viol t st'.hard = 0 := by
  obtain ⟨st2, a1, a2, a3⟩ := one_violated h ho ho' hs hsum hc hst
  have hfalse : ¬ LitTrue (asgn st.hard) (x, s) := by
    have : c ∈ violated t.clauses (asgn st.hard) := by rw [hc]; simp
    have := (List.mem_filter.mp this).2
    simp only [decide_eq_true_eq] at this
    exact this _ hx
  have hclause : ∀ {j : ℕ}, (x, s) ∈ t.clauses.getD j [] → signOf (t.clauses.getD j []) x = some s := by
    intro j hj
    have hnd' : ((t.clauses.getD j []).map Prod.fst).Nodup := by
      by_cases hlt : j < t.clauses.length
      · refine hnd _ ?_
        rw [List.getD_eq_getElem?_getD, List.getElem?_eq_getElem hlt]; exact List.getElem_mem hlt
      · rw [List.getD_eq_getElem?_getD, List.getElem?_eq_none (by omega)]; simp
    revert hj hnd'
    generalize t.clauses.getD j [] = cl
    intro hj hnd'
    induction cl with
    | nil => simp at hj
    | cons p cl ih =>
      by_cases e : p.1 = x
      · rcases List.mem_cons.mp hj with rfl | hj
        · simp [signOf]
        · exfalso
          rw [List.map_cons, List.nodup_cons] at hnd'
          exact hnd'.1 (List.mem_map.mpr ⟨(x, s), hj, e.symm⟩)
      · have hj : (x, s) ∈ cl := by
          rcases List.mem_cons.mp hj with rfl | hj
          · exact absurd rfl e
          · exact hj
        rw [List.map_cons, List.nodup_cons] at hnd'
        have := ih hj hnd'.2
        simpa [signOf, List.find?_cons, e] using this
  have hxv : ∀ {j : ℕ}, (x, s) ∈ t.clauses.getD j [] → x ∈ (t.clauses.getD j []).map Prod.fst := fun hj => List.mem_map.mpr ⟨_, hj, rfl⟩
  have hpoolx : x ∈ poolOf t c (neighbours t st.sum c) := by
    simp only [poolOf, List.mem_dedup, List.mem_filter, List.mem_flatMap, beq_iff_eq, Bool.not_eq_true',
      List.contains_eq_mem, decide_eq_true_eq, decide_eq_false_iff_not, not_exists, not_and]
    refine ⟨⟨i, by rw [hsum]; exact (mem_neighbours h).mpr ⟨hi, hnear⟩, ⟨hxv hxi, hxv hx⟩, by rw [hclause hxi, hclause hx]⟩, fun j hj hm => ?_⟩
    rw [hsum, mem_neighbours h] at hj
    split at hm
    · rename_i hlen
      have hxj := (List.mem_filter.mp hm).1
      obtain ⟨y, hy, hyc, hyj⟩ := hforb j hj.1 hj.2 (mem_varsOf.mpr hxj)
      obtain ⟨z, hz⟩ := List.length_eq_one_iff.mp hlen
      have hy' : y ∈ ((t.clauses.getD j []).map Prod.fst).filter (fun x => decide (x ∈ (t.clauses.getD c []).map Prod.fst)) :=
        List.mem_filter.mpr ⟨mem_varsOf.mp hyj, by simpa using mem_varsOf.mp hyc⟩
      rw [hz] at hm hy'
      exact hy ((List.mem_singleton.mp hy').trans (List.mem_singleton.mp hm).symm)
    · simp at hm
  have hpool : ∀ p ∈ (order (poolOf t c (neighbours t st.sum c))).map (fun x => (x, signOf (t.clauses.getD c []) x == some 1)), p.1 < n := by
    intro p hp
    obtain ⟨q, hq, rfl⟩ := List.mem_map.mp hp
    obtain ⟨i, p, hp, e⟩ := poolOf_mem ((ho _).mem_iff.mp hq)
    show q < n
    rw [← e]; exact clause_var_lt h hp
  have h0 : viol t st2.hard = 0 := by
    rcases tryAll_search h hpool hs a1 with g | ⟨-, g⟩
    · omega
    · have := g (x, signOf (t.clauses.getD c []) x == some 1) (List.mem_map.mpr ⟨x, (ho _).mem_iff.mpr hpoolx, rfl⟩)
      simp only [hclause hx, viol] at this
      have e : violated t.clauses (asgn (st.hard.set x (some s == some (1 : ℤ)))) = violated t.clauses (flipped (asgn st.hard) x) := by
        refine viol_congr h fun v hv => ?_
        have hvl : x < st.hard.length := by rw [hs.len]; exact clause_var_lt h hx
        by_cases e : v = x
        · subst e
          simp only [LitTrue, not_or, not_and, Bool.not_eq_true] at hfalse
          simp only [asgn, flipped, if_true, List.getD_eq_getElem?_getD, List.getElem?_set_self hvl, Option.getD_some]
          simp only [asgn, List.getD_eq_getElem?_getD] at hfalse
          rcases hs1 with rfl | rfl
          · rw [hfalse.1 rfl]; rfl
          · have h2 := hfalse.2 rfl
            cases h3 : st.hard[v]?.getD false
            · rw [h3] at h2; simp at h2
            · rfl
        · simp only [asgn, flipped, if_neg e, List.getD_eq_getElem?_getD]
          rw [List.getElem?_set_ne (fun he => e he.symm)]
      rw [e, hsat] at this
      simp at this
  have hn : ∀ x ∈ (c :: neighbours t st.sum c).flatMap (fun i => (t.clauses.getD i []).map Prod.fst), x < n := by
    intro x hx
    obtain ⟨i, -, hx⟩ := List.mem_flatMap.mp hx
    obtain ⟨p, hp, rfl⟩ := List.mem_map.mp hx
    exact clause_var_lt h hp
  obtain ⟨st3, b1, -, -, b4⟩ := postPhase3_spec h ho' (pp := pp) (s := ({ st2 with sum := summaryOf t st2.hard },
    (c :: neighbours t st.sum c).flatMap (fun i => (t.clauses.getD i []).map Prod.fst))) ⟨a2.len, a2.flag⟩ rfl hn
  rw [b1] at a3
  obtain rfl := Option.some.inj a3
  simp only at b4
  omega

/-- The state at the beginning of post-processing. -/
theorem post_start {pp : ℕ} {threshold : Num} {beliefs : List Num} (hb : beliefs.length = n) {st : PostState}
    (hst : decideAndPost t threshold order order' true pp beliefs = some st)
    (hne : violated t.clauses (asgn (hardDecisions threshold beliefs)) ≠ []) :
    ∃ st0 : PostState, st0.hard = hardDecisions threshold beliefs ∧ PostOk n t st0 ∧ st0.sum = summaryOf t st0.hard ∧
      postProcess t order order' pp st0 = some st ∧ (st.flag = true ↔ viol t st.hard = 0) := by
  have hn : (hardDecisions threshold beliefs).length = n := by simp [hardDecisions, hb]
  have hs : PostOk n t ⟨hardDecisions threshold beliefs, summaryOf t (hardDecisions threshold beliefs),
      (summaryOf t (hardDecisions threshold beliefs)).unsat.length == 0⟩ := ⟨hn, rfl⟩
  simp only [decideAndPost, getSummary_eq h hn, Option.bind_eq_bind, Option.bind_some] at hst
  rw [if_pos ⟨by rw [viol_eq, viol]; exact fun e => hne (List.length_eq_zero_iff.mp e), trivial⟩] at hst
  obtain ⟨st', a1, a2, -⟩ := postProcess_spec h ho ho' (pp := pp) hs rfl
  have e := hst
  rw [a1] at e
  obtain rfl := Option.some.inj e
  exact ⟨_, rfl, hs, rfl, hst, by rw [a2.flag, beq_iff_eq]⟩

end

end Verif.Proofs
