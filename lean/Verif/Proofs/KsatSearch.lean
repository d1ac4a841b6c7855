import Verif.Proofs.KsatPost
import Mathlib.Data.Finset.Card
import Mathlib.Data.List.Sublists
import Mathlib.Data.List.GetD

/-! What the searches of k-SAT post-processing try. -/

namespace Verif.Proofs
open Verif Num Spec Model

section
variable {n : ℕ} {t : KsatTables}

theorem mem_decisions : ∀ {m : ℕ} {d : List Bool}, d.length = m → d ∈ decisions m
  | 0, d, h => by rw [List.length_eq_zero_iff.mp h]; simp [decisions]
  | m + 1, [], h => by simp at h
  | m + 1, b :: d, h => by
    have := mem_decisions (m := m) (d := d) (by simpa using h)
    cases b <;> simp [decisions, this]

theorem mem_combinations : ∀ {m : ℕ} {l c : List ℕ}, c.Sublist l → c.length = m → c ∈ combinations m l
  | 0, _, c, _, h => by rw [List.length_eq_zero_iff.mp h]; simp [combinations]
  | m + 1, [], c, hs, h => by rw [List.sublist_nil.mp hs] at h; simp at h
  | m + 1, a :: l, c, hs, h => by
    rw [combinations, List.mem_append]
    rcases List.sublist_cons_iff.mp hs with hs | ⟨r, rfl, hr⟩
    · exact Or.inr (mem_combinations hs h)
    · exact Or.inl (List.mem_map.mpr ⟨r, mem_combinations hr (by simpa using h), rfl⟩)

/-- The values after setting the variables `vars` to the values of `τ`. -/
theorem setAll_val {τ : ℕ → Bool} : ∀ {vars : List ℕ} {hard : List Bool}, (∀ x ∈ vars, x < hard.length) →
    ∃ h', setAll hard (vars.zip (vars.map τ)) = some h' ∧ h'.length = hard.length ∧
      ∀ v, asgn h' v = if v ∈ vars then τ v else asgn hard v
  | [], hard, _ => ⟨hard, rfl, rfl, fun v => by simp⟩
  | x :: vars, hard, hx => by
    have hv : x < hard.length := hx x (by simp)
    obtain ⟨h', a1, a2, a3⟩ := setAll_val (τ := τ) (vars := vars) (hard := hard.set x (τ x)) (by
      intro y hy; rw [List.length_set]; exact hx y (by simp [hy]))
    refine ⟨h', ?_, by rw [a2, List.length_set], fun v => ?_⟩
    · rw [List.map_cons, List.zip_cons_cons, setAll, if_pos hv]; exact a1
    · rw [a3 v]
      by_cases hm : v ∈ vars
      · simp [hm]
      · rw [if_neg hm]
        by_cases e : v = x
        · subst e
          simp [asgn, hv]
        · rw [if_neg (by simp [e, hm])]
          simp only [asgn, List.getD_eq_getElem?_getD]
          rw [List.getElem?_set_ne (fun h => e h.symm)]

/-- The state of a search: the last summary has at least as many violated clauses as the kept decisions. -/
def SearchOk (n : ℕ) (t : KsatTables) (s : PostState × ℕ) : Prop :=
  PostOk n t s.1 ∧ viol t s.1.hard = s.2 ∧ s.2 ≤ s.1.sum.unsat.length

/-- Setting the variables to any values does not reduce the number of violated clauses below `old`. -/
def NoGain (t : KsatTables) (hard : List Bool) (old : ℕ) (vars : List ℕ) (ds : List (List Bool)) : Prop :=
  ∀ d ∈ ds, ∀ h', setAll hard (vars.zip d) = some h' → old ≤ viol t h'

theorem tryDecisions_search (h : FormulaTables n t.clauses t.used t.conns) {vars : List ℕ} (hv : ∀ x ∈ vars, x < n) :
    ∀ {ds : List (List Bool)} {s : PostState × ℕ}, SearchOk n t s →
      ∃ s', tryDecisions t vars ds s = some s' ∧ SearchOk n t s' ∧
        (s'.2 < s.2 ∨ (s'.2 = s.2 ∧ s'.1.hard = s.1.hard ∧ NoGain t s.1.hard s.2 vars ds))
  | [], s, hs => ⟨s, rfl, hs, Or.inr ⟨rfl, rfl, fun d hd => by simp at hd⟩⟩
  | d :: ds, s, hs => by
    obtain ⟨h1, h2, h3⟩ := hs
    obtain ⟨h', a1, a2⟩ := setAll_spec (n := n) (l := vars.zip d) h1.len (fun p hp => hv _ (List.of_mem_zip hp).1)
    simp only [tryDecisions, a1, getSummary_eq h a2, Option.bind_eq_bind, Option.bind_some, viol_eq]
    by_cases hlt : viol t h' < s.2
    · rw [if_pos hlt]
      exact ⟨_, rfl, ⟨⟨a2, rfl⟩, rfl, (viol_eq t h').ge⟩, Or.inl hlt⟩
    · rw [if_neg hlt]
      obtain ⟨s', b1, b2, b3⟩ := tryDecisions_search h hv (ds := ds) (s := ({ s.1 with sum := summaryOf t h' }, s.2))
        ⟨⟨h1.len, h1.flag⟩, h2, by show s.2 ≤ (summaryOf t h').unsat.length; rw [viol_eq]; omega⟩
      refine ⟨s', b1, b2, b3.imp id fun ⟨c1, c2, c3⟩ => ⟨c1, c2, fun d' hd' h'' hh => ?_⟩⟩
      rcases List.mem_cons.mp hd' with rfl | hd'
      · rw [a1] at hh
        obtain rfl := Option.some.inj hh
        omega
      · exact c3 d' hd' h'' hh

theorem tryCombinations_search (h : FormulaTables n t.clauses t.used t.conns) {m : ℕ} :
    ∀ {l : List (List ℕ)} {s : PostState × ℕ}, (∀ c ∈ l, ∀ x ∈ c, x < n) → SearchOk n t s →
      ∃ s', tryCombinations t m l s = some s' ∧ SearchOk n t s' ∧
        (s'.2 < s.2 ∨ (s'.2 = s.2 ∧ s'.1.hard = s.1.hard ∧ ∀ c ∈ l, NoGain t s.1.hard s.2 c (decisions m)))
  | [], s, _, hs => ⟨s, rfl, hs, Or.inr ⟨rfl, rfl, by simp⟩⟩
  | c :: l, s, hl, hs => by
    obtain ⟨s', a1, a2, a3⟩ := tryDecisions_search h (vars := c) (ds := decisions m) (hl c (by simp)) hs
    simp only [tryCombinations, a1, Option.bind_eq_bind, Option.bind_some]
    by_cases hz : s'.1.sum.unsat.length = 0
    · rw [if_pos hz]
      refine ⟨s', rfl, a2, ?_⟩
      have h0 : s'.2 = 0 := by have := a2.2.2; omega
      rcases a3 with a3 | ⟨c1, c2, c3⟩
      · exact Or.inl a3
      · refine Or.inr ⟨c1, c2, fun c' _ d _ h' _ => ?_⟩
        omega
    · rw [if_neg hz]
      obtain ⟨s'', b1, b2, b3⟩ := tryCombinations_search h (m := m) (l := l) (fun c hc => hl c (by simp [hc])) a2
      refine ⟨s'', b1, b2, ?_⟩
      rcases a3 with a3 | ⟨c1, c2, c3⟩
      · rcases b3 with b3 | ⟨b3, -⟩ <;> exact Or.inl (by omega)
      · rcases b3 with b3 | ⟨d1, d2, d3⟩
        · exact Or.inl (by omega)
        · refine Or.inr ⟨by omega, by rw [d2, c2], fun c' hc' => ?_⟩
          rcases List.mem_cons.mp hc' with rfl | hc'
          · exact c3
          · have := d3 c' hc'
            rwa [c1, c2] at this

theorem sizes_search (h : FormulaTables n t.clauses t.used t.conns) {l : List ℕ} (hl : ∀ x ∈ l, x < n) :
    ∀ {k : ℕ} {s : PostState × ℕ}, SearchOk n t s →
      ∃ s', loopDown k (fun m x => tryCombinations t (m + 2) (combinations (m + 2) l) x) s = some s' ∧ SearchOk n t s' ∧
        (s'.2 < s.2 ∨ (s'.2 = s.2 ∧ s'.1.hard = s.1.hard ∧
          ∀ m < k, ∀ c ∈ combinations (m + 2) l, NoGain t s.1.hard s.2 c (decisions (m + 2))))
  | 0, s, hs => ⟨s, rfl, hs, Or.inr ⟨rfl, rfl, fun m hm => by omega⟩⟩
  | k + 1, s, hs => by
    obtain ⟨s', a1, a2, a3⟩ := tryCombinations_search h (m := k + 2) (l := combinations (k + 2) l)
      (fun c hc x hx => hl x (combinations_mem hc x hx)) hs
    obtain ⟨s'', b1, b2, b3⟩ := sizes_search h hl (k := k) a2
    refine ⟨s'', ?_, b2, ?_⟩
    · rw [loopDown]
      show (tryCombinations t (k + 2) (combinations (k + 2) l) s).bind _ = _
      rw [a1]; exact b1
    · rcases a3 with a3 | ⟨c1, c2, c3⟩
      · rcases b3 with b3 | ⟨b3, -⟩ <;> exact Or.inl (by omega)
      · rcases b3 with b3 | ⟨d1, d2, d3⟩
        · exact Or.inl (by omega)
        · refine Or.inr ⟨by omega, by rw [d2, c2], fun m hm c hc => ?_⟩
          rcases Nat.lt_succ_iff_lt_or_eq.mp hm with hm | rfl
          · have := d3 m hm c hc
            rwa [c1, c2] at this
          · exact c3 c hc

theorem viol_congr (h : FormulaTables n t.clauses t.used t.conns) {σ τ : ℕ → Bool} (he : ∀ v < n, σ v = τ v) :
    violated t.clauses σ = violated t.clauses τ := by
  refine List.filter_congr fun c _ => ?_
  have : ∀ l ∈ t.clauses.getD c [], (LitTrue σ l ↔ LitTrue τ l) := by
    intro l hl
    rw [LitTrue, LitTrue, he _ (clause_var_lt h hl)]
  exact decide_eq_decide.mpr ⟨fun g l hl => (this l hl).not.mp (g l hl), fun g l hl => (this l hl).not.mpr (g l hl)⟩

/-- The third phase either reduces the number of violated clauses, or nothing was violated, or it changes nothing and no change of
at most `pp` variables of the region reduces that number. -/
theorem postPhase3_search (h : FormulaTables n t.clauses t.used t.conns) {order : List ℕ → List ℕ} (ho : ∀ l, (order l).Perm l)
    {pp : ℕ} {s : PostState × List ℕ} (hs : PostOk n t s.1) (hsum : s.1.sum = summaryOf t s.1.hard) (hc : ∀ x ∈ s.2, x < n)
    {st' : PostState} (hst : postPhase3 t order pp s = some st') :
    viol t st'.hard < viol t s.1.hard ∨ (st'.hard = s.1.hard ∧
      ∀ (τ : ℕ → Bool) (D : Finset ℕ), (∀ v, v ∉ D → τ v = asgn s.1.hard v) → D ⊆ s.2.toFinset → D.card ≤ pp → 2 ≤ pp →
        2 ≤ s.2.toFinset.card → viol t s.1.hard ≤ (violated t.clauses τ).length) := by
  have hl : s.1.sum.unsat.length = viol t s.1.hard := by rw [hsum]; rfl
  by_cases hz : s.1.sum.unsat.length ≠ 0
  · have hn : ∀ x ∈ order s.2.dedup, x < n := fun x hx => hc x (List.mem_dedup.mp ((ho _).mem_iff.mp hx))
    obtain ⟨s', a1, a2, a3⟩ := sizes_search h hn (k := pp - 1) (s := (s.1, s.1.sum.unsat.length)) ⟨hs, hl.symm, le_rfl⟩
    simp only [postPhase3, if_pos hz, a1, Option.bind_eq_bind, Option.bind_some, getSummary_eq h a2.1.len, Option.some.injEq] at hst
    subst hst
    simp only
    rcases a3 with a3 | ⟨c1, c2, c3⟩
    · left
      have := a2.2.1
      omega
    · right
      refine ⟨c2, fun τ D hτ hD hcard h2 h2' => ?_⟩
      have hDc : D.card ≤ s.2.toFinset.card := Finset.card_le_card hD
      obtain ⟨E, hDE, hE, hEc⟩ := Finset.exists_subsuperset_card_eq (n := max 2 D.card) hD (le_max_right _ _) (by omega)
      set sub := (order s.2.dedup).filter (fun x => decide (x ∈ E)) with hsub
      have hnd : (order s.2.dedup).Nodup := (ho _).nodup_iff.mpr (List.nodup_dedup _)
      have hmem : ∀ x, x ∈ sub ↔ x ∈ E := by
        intro x
        simp only [hsub, List.mem_filter, decide_eq_true_eq, (ho _).mem_iff, List.mem_dedup]
        exact ⟨fun hx => hx.2, fun hx => ⟨List.mem_toFinset.mp (hE hx), hx⟩⟩
      have hlen : sub.length = max 2 D.card := by
        rw [← hEc, ← List.toFinset_card_of_nodup (hnd.filter _)]
        congr 1
        ext x
        rw [List.mem_toFinset]; exact hmem x
      have hxlt : ∀ x ∈ sub, x < s.1.hard.length := by
        intro x hx; rw [hs.len]; exact hn x (List.mem_filter.mp hx).1
      obtain ⟨h', b1, b2, b3⟩ := setAll_val (τ := τ) hxlt
      have hcomb : sub ∈ combinations ((max 2 D.card - 2) + 2) (order s.2.dedup) :=
        mem_combinations List.filter_sublist (by rw [hlen]; omega)
      have := c3 (max 2 D.card - 2) (by omega) sub hcomb (sub.map τ) (mem_decisions (by rw [List.length_map, hlen]; omega)) h' b1
      simp only at this
      rw [hl] at this
      unfold viol at this ⊢
      have e : violated t.clauses (asgn h') = violated t.clauses τ := by
        refine viol_congr h fun v _ => ?_
        rw [b3 v]
        by_cases hv : v ∈ sub
        · rw [if_pos hv]
        · rw [if_neg hv]
          exact (hτ v fun hd => hv ((hmem v).mpr (hDE hd))).symm
      rw [e] at this
      exact this
  · simp only [postPhase3, if_neg hz, Option.bind_eq_bind, Option.bind_some, getSummary_eq h hs.len, Option.some.injEq] at hst
    subst hst
    refine Or.inr ⟨rfl, fun τ D _ _ _ _ _ => ?_⟩
    omega

theorem tryAll_search (h : FormulaTables n t.clauses t.used t.conns) :
    ∀ {l : List (ℕ × Bool)} {old : ℕ} {st st' : PostState}, (∀ p ∈ l, p.1 < n) → PostOk n t st → tryAll t l old st = some st' →
      viol t st'.hard < old ∨ (st'.hard = st.hard ∧ ∀ p ∈ l, old ≤ viol t (st.hard.set p.1 p.2))
  | [], _, st, st', _, hs, hr => by
    obtain rfl := Option.some.inj hr
    exact Or.inr ⟨rfl, by simp⟩
  | (v, b) :: l, old, st, st', hl, hs, hr => by
    have hv : v < st.hard.length := by rw [hs.len]; exact hl (v, b) (by simp)
    have hn : (st.hard.set v b).length = n := by rw [List.length_set, hs.len]
    simp only [tryAll, if_pos hv, getSummary_eq h hn, Option.bind_eq_bind, Option.bind_some, viol_eq] at hr
    by_cases h1 : viol t (st.hard.set v b) < old
    · rw [if_pos h1] at hr
      left
      by_cases h2 : viol t (st.hard.set v b) = 0
      · rw [if_pos h2] at hr
        obtain rfl := Option.some.inj hr
        exact h1
      · rw [if_neg h2] at hr
        rcases tryAll_search h (fun p hp => hl p (by simp [hp])) ⟨hn, by simp [h2]⟩ hr with g | ⟨g, -⟩
        · omega
        · rw [g]; exact h1
    · rw [if_neg h1] at hr
      rcases tryAll_search h (fun p hp => hl p (by simp [hp])) (by exact ⟨hs.len, hs.flag⟩) hr with g | ⟨g1, g2⟩
      · exact Or.inl g
      · refine Or.inr ⟨g1, fun p hp => ?_⟩
        rcases List.mem_cons.mp hp with rfl | hp
        · exact Nat.le_of_not_lt h1
        · exact g2 p hp

end

end Verif.Proofs
