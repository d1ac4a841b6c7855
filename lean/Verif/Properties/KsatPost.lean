import Verif.Proofs.KsatPost
import Mathlib.Algebra.Order.Field.Basic
import Mathlib.Algebra.Order.Field.Rat
import Mathlib.Data.Nat.Cast.Order.Field
import Mathlib.Tactic.NormNum
import Mathlib.Data.List.Sort

/-!
C28, C30, C35, C40: decision, report and post-processing of the k-SAT solver.

Trusted base: Lean kernel; axioms propext, Classical.choice, Quot.sound.
-/

namespace Verif.Properties
open Verif Num Spec Model Proofs

/-- C28: on tables that agree, the report never fails; the unsatisfied clauses are exactly the clauses without a true literal
(each once, in increasing order), the active and inactive variables exactly the used variables that are true and false. -/
theorem C28_report {n : ℕ} {t : KsatTables} {hard : List Bool} (h : FormulaTables n t.clauses t.used t.conns) (hn : hard.length = n) :
    ∃ s, getSummary t hard = some s ∧ s.unsat = violated t.clauses (asgn hard) ∧
      (∀ v, v ∈ s.active ↔ v ∈ t.used ∧ asgn hard v = true) ∧ (∀ v, v ∈ s.inactive ↔ v ∈ t.used ∧ asgn hard v = false) := by
  refine ⟨_, getSummary_eq h hn, rfl, fun v => ?_, fun v => ?_⟩ <;> simp [summaryOf]

/-- A formula with three clauses over variables 0, 1, 3 of 4. -/
def smallFormula : KsatTables :=
  ⟨[0, 1, 3], [[(0, 1), (1, -1)], [(1, 1), (3, 1)], [(3, -1), (0, -1)]], [[(0, 1), (2, -1)], [(0, -1), (1, 1)], [], [(1, 1), (2, -1)]]⟩

theorem smallFormula_ok : FormulaTables 4 smallFormula.clauses smallFormula.used smallFormula.conns := by
  refine ⟨fun v c s => ?_, by decide, by decide⟩
  by_cases hv : v < 4
  · by_cases hc : c < 3
    · have hv' : v = 0 ∨ v = 1 ∨ v = 2 ∨ v = 3 := by omega
      have hc' : c = 0 ∨ c = 1 ∨ c = 2 := by omega
      rcases hv' with rfl | rfl | rfl | rfl <;> rcases hc' with rfl | rfl | rfl <;> simp [smallFormula]
    · have hc' : smallFormula.clauses.getD c [] = [] := by
        rw [List.getD_eq_getElem?_getD, List.getElem?_eq_none (by show 3 ≤ c; omega)]; rfl
      rw [hc']
      have hv' : v = 0 ∨ v = 1 ∨ v = 2 ∨ v = 3 := by omega
      rcases hv' with rfl | rfl | rfl | rfl <;> simp [smallFormula] <;> omega
  · have h1 : smallFormula.conns.getD v [] = [] := by
      rw [List.getD_eq_getElem?_getD, List.getElem?_eq_none (by show 4 ≤ v; omega)]; rfl
    rw [h1]
    by_cases hc : c < 3
    · have hc' : c = 0 ∨ c = 1 ∨ c = 2 := by omega
      rcases hc' with rfl | rfl | rfl <;> simp [smallFormula] <;> omega
    · have hc' : smallFormula.clauses.getD c [] = [] := by
        rw [List.getD_eq_getElem?_getD, List.getElem?_eq_none (by show 3 ≤ c; omega)]; rfl
      rw [hc']; simp

/-- Non-vacuity: one violated clause of three. -/
example : FormulaTables 4 smallFormula.clauses smallFormula.used smallFormula.conns ∧ ([true, false, true, true] : List Bool).length = 4 ∧
    violated smallFormula.clauses (asgn [true, false, true, true]) = [2] ∧
    (getSummary smallFormula [true, false, true, true]).map (fun s => (s.active, s.inactive, s.unsat)) = some ([0, 3], [1], [2]) :=
  ⟨smallFormula_ok, rfl, by decide, by decide⟩

/-- C40: with finite beliefs and a finite threshold, a used variable is reported true iff its belief is at most the threshold,
and false iff it is larger; nothing else is reported. -/
theorem C40_decision {n : ℕ} {t : KsatTables} (h : FormulaTables n t.clauses t.used t.conns) (b : ℕ → ℚ) (threshold : ℚ) :
    ∃ s, getSummary t (hardDecisions (fin threshold) ((List.range n).map (fun v => fin (b v)))) = some s ∧
      (∀ v, v ∈ s.active ↔ v ∈ t.used ∧ b v ≤ threshold) ∧ (∀ v, v ∈ s.inactive ↔ v ∈ t.used ∧ threshold < b v) := by
  have hd : ∀ v ∈ t.used, asgn (hardDecisions (fin threshold) ((List.range n).map (fun v => fin (b v)))) v = !decide (threshold < b v) := by
    intro v hv
    have hvn := h.used_lt v hv
    simp only [asgn, hardDecisions, List.map_map, List.getD_eq_getElem?_getD, List.getElem?_map, List.getElem?_range hvn,
      Option.map_some, Option.getD_some, Function.comp, Num.lt]
    by_cases hlt : threshold < b v <;> simp [hlt]
  obtain ⟨s, h1, -, h2, h3⟩ := C28_report (hard := hardDecisions (fin threshold) ((List.range n).map (fun v => fin (b v)))) h
    (by simp [hardDecisions])
  refine ⟨s, h1, fun v => ?_, fun v => ?_⟩
  · rw [h2]
    constructor
    · rintro ⟨hv, e⟩; rw [hd v hv] at e; exact ⟨hv, by simpa using e⟩
    · rintro ⟨hv, e⟩; exact ⟨hv, by rw [hd v hv]; simpa using e⟩
  · rw [h3]
    constructor
    · rintro ⟨hv, e⟩; rw [hd v hv] at e; exact ⟨hv, by simpa using e⟩
    · rintro ⟨hv, e⟩; exact ⟨hv, by rw [hd v hv]; simpa using e⟩

/-- Non-vacuity: a belief equal to the threshold counts as true; an unused variable (2) is not reported. -/
example : (getSummary smallFormula (hardDecisions (fin (-1)) [fin (-2), fin (-1), fin (-5), fin 0])).map (fun s => (s.active, s.inactive)) =
    some ([0, 1], [3]) := by decide +kernel

/-- C30, the full claim: post-processing never increases the number of violated clauses, whatever the iteration orders of the two
Python sets. -/
def C30_claim : Prop :=
  ∀ (n : ℕ) (t : KsatTables) (order order' : List ℕ → List ℕ) (pp : ℕ) (threshold : Num) (beliefs : List Num) (st : PostState),
    FormulaTables n t.clauses t.used t.conns → beliefs.length = n → (∀ l, (order l).Perm l) → (∀ l, (order' l).Perm l) →
    decideAndPost t threshold order order' true pp beliefs = some st →
    (violated t.clauses (asgn st.hard)).length ≤ (violated t.clauses (asgn (hardDecisions threshold beliefs))).length

/-- The variable side of a formula. -/
def occTable (n : ℕ) (F : List (List (ℕ × ℤ))) : List (List (ℕ × ℤ)) :=
  (List.range n).map (fun v => (List.range F.length).flatMap (fun c => ((F.getD c []).filter (fun l => l.1 == v)).map (fun l => (c, l.2))))

theorem occTable_ok {n : ℕ} {F : List (List (ℕ × ℤ))} (h : ∀ cl ∈ F, ∀ l ∈ cl, l.1 < n) : FormulaTables n F (List.range n) (occTable n F) := by
  refine ⟨fun v c s => ?_, fun cl hcl l hl => List.mem_range.mpr (h cl hcl l hl), fun v hv => List.mem_range.mp hv⟩
  have hF : ∀ {c : ℕ} {l : ℕ × ℤ}, l ∈ F.getD c [] → c < F.length ∧ l.1 < n := by
    intro c l hl
    by_cases hc : c < F.length
    · refine ⟨hc, h (F.getD c []) ?_ l hl⟩
      rw [List.getD_eq_getElem?_getD, List.getElem?_eq_getElem hc]; exact List.getElem_mem hc
    · rw [List.getD_eq_getElem?_getD, List.getElem?_eq_none (by omega)] at hl
      simp at hl
  by_cases hv : v < n
  · have e : (occTable n F).getD v [] =
        (List.range F.length).flatMap (fun c => ((F.getD c []).filter (fun l => l.1 == v)).map (fun l => (c, l.2))) := by
      rw [occTable, List.getD_eq_getElem?_getD, List.getElem?_map, List.getElem?_range hv]; rfl
    rw [e]
    simp only [List.mem_flatMap, List.mem_range, List.mem_map, List.mem_filter, beq_iff_eq, Prod.mk.injEq]
    constructor
    · rintro ⟨c', -, ⟨v', s'⟩, ⟨h1, h2⟩, rfl, rfl⟩
      simp only at h2; subst h2; exact h1
    · intro hl
      exact ⟨c, (hF hl).1, (v, s), ⟨hl, rfl⟩, rfl, rfl⟩
  · have e : (occTable n F).getD v [] = [] := by
      rw [occTable, List.getD_eq_getElem?_getD, List.getElem?_eq_none (by simp; omega)]; rfl
    rw [e]
    constructor
    · intro hx; simp at hx
    · intro hl; exact absurd (hF hl).2 hv

/-- Nine clauses over eight variables: two are violated before post-processing and three after it. -/
def badFormula : List (List (ℕ × ℤ)) :=
  [[(7, 1), (0, -1), (5, 1)], [(2, 1), (3, -1), (5, -1)], [(0, 1), (5, 1), (3, -1)], [(4, 1), (0, 1), (6, -1)],
   [(4, 1), (3, -1), (0, -1)], [(6, -1), (5, -1), (0, 1)], [(0, -1), (1, -1), (4, 1)], [(3, -1), (4, 1), (5, -1)], [(4, 1), (1, -1), (3, 1)]]

/-- Its tables. -/
def badTables : KsatTables := ⟨List.range 8, badFormula, occTable 8 badFormula⟩

/-- Beliefs that give the assignment 0, 1, 0, 1, 0, 0, 1, 0. -/
def badBeliefs : List Num := [fin 1, fin (-1), fin 1, fin (-1), fin 1, fin 1, fin (-1), fin 1]

/-- Increasing order (in which CPython iterates over small sets of integers below 8). -/
def asc (l : List ℕ) : List ℕ := l.insertionSort (· ≤ ·)

theorem asc_perm (l : List ℕ) : (asc l).Perm l := List.perm_insertionSort _ l

/-- C30: the full claim is false (with single-variable brute force, `pp_elements = 1`).  The second phase compares a trial with
the number of clauses violated by the last, possibly rejected, trial. -/
theorem C30_claim_false : ¬ C30_claim := by
  intro h
  have hr : (decideAndPost badTables 0 asc asc true 1 badBeliefs).map (fun st => (violated badFormula (asgn st.hard)).length) = some 3 := by
    decide +kernel
  cases hd : decideAndPost badTables 0 asc asc true 1 badBeliefs with
  | none => rw [hd] at hr; cases hr
  | some st =>
    rw [hd] at hr
    have := h 8 badTables asc asc 1 0 badBeliefs st (occTable_ok (by decide)) rfl asc_perm asc_perm hd
    have h2 : (violated badFormula (asgn (hardDecisions 0 badBeliefs))).length = 2 := by decide +kernel
    have h3 : (violated badFormula (asgn st.hard)).length = 3 := Option.some.inj hr
    have h4 : (violated badFormula (asgn st.hard)).length ≤ (violated badFormula (asgn (hardDecisions 0 badBeliefs))).length := this
    omega

/-- C30, second half, in full: the run never fails, and the reported flag, unsatisfied clauses, active and inactive variables
are those of the returned assignment.  A satisfying start assignment is returned unchanged. -/
theorem C30_reported {n : ℕ} {t : KsatTables} (h : FormulaTables n t.clauses t.used t.conns) {order order' : List ℕ → List ℕ}
    (ho : ∀ l, (order l).Perm l) (ho' : ∀ l, (order' l).Perm l) (post : Bool) (pp : ℕ) (threshold : Num) {beliefs : List Num}
    (hb : beliefs.length = n) :
    ∃ st, decideAndPost t threshold order order' post pp beliefs = some st ∧ st.hard.length = n ∧
      (st.flag = true ↔ violated t.clauses (asgn st.hard) = []) ∧ st.sum.unsat = violated t.clauses (asgn st.hard) ∧
      (∀ v, v ∈ st.sum.active ↔ v ∈ t.used ∧ asgn st.hard v = true) ∧
      (∀ v, v ∈ st.sum.inactive ↔ v ∈ t.used ∧ asgn st.hard v = false) ∧
      (violated t.clauses (asgn (hardDecisions threshold beliefs)) = [] → st.hard = hardDecisions threshold beliefs) := by
  have hn : (hardDecisions threshold beliefs).length = n := by simp [hardDecisions, hb]
  have key : ∀ st : PostState, PostOk n t st → st.sum = summaryOf t st.hard →
      st.hard.length = n ∧ (st.flag = true ↔ violated t.clauses (asgn st.hard) = []) ∧
      st.sum.unsat = violated t.clauses (asgn st.hard) ∧
      (∀ v, v ∈ st.sum.active ↔ v ∈ t.used ∧ asgn st.hard v = true) ∧
      (∀ v, v ∈ st.sum.inactive ↔ v ∈ t.used ∧ asgn st.hard v = false) := by
    intro st h1 h2
    refine ⟨h1.len, ?_, by rw [h2]; rfl, ?_, ?_⟩
    · rw [h1.flag, beq_iff_eq, viol, List.length_eq_zero_iff]
    · intro v; rw [h2]; simp [summaryOf]
    · intro v; rw [h2]; simp [summaryOf]
  simp only [decideAndPost, getSummary_eq h hn, Option.bind_eq_bind, Option.bind_some]
  have hs : PostOk n t ⟨hardDecisions threshold beliefs, summaryOf t (hardDecisions threshold beliefs),
      (summaryOf t (hardDecisions threshold beliefs)).unsat.length == 0⟩ := ⟨hn, rfl⟩
  by_cases hc : (summaryOf t (hardDecisions threshold beliefs)).unsat.length ≠ 0 ∧ post = true
  · rw [if_pos hc]
    obtain ⟨st, a1, a2, a3, -⟩ := postProcess_spec h ho ho' (pp := pp) hs rfl
    obtain ⟨b1, b2, b3, b4, b5⟩ := key st a2 a3
    refine ⟨st, a1, b1, b2, b3, b4, b5, fun he => absurd ?_ hc.1⟩
    rw [viol_eq, viol, he]; rfl
  · rw [if_neg hc]
    obtain ⟨b1, b2, b3, b4, b5⟩ := key _ hs rfl
    exact ⟨_, rfl, b1, b2, b3, b4, b5, fun _ => rfl⟩

/-- Non-vacuity: a run on the three-clause formula that repairs its violated clause, and the run above that makes it worse. -/
example : (decideAndPost smallFormula 0 id id true 2 [fin (-1), fin 1, fin 0, fin (-1)]).map (fun st => (st.hard, st.flag, st.sum.unsat)) =
      some ([false, false, true, true], true, []) ∧
    (decideAndPost badTables 0 asc asc true 1 badBeliefs).map (fun st => (st.flag, st.sum.unsat.length)) = some (false, 3) := by
  decide +kernel

/-- C30, first half, partial: post-processing does not increase the number of violated clauses when at most one clause is
violated before it, for all iteration orders and every `pp_elements`.  Missing: two or more violated clauses (false in
general, `C30_claim_false`). -/
theorem C30_one_violated_partial {n : ℕ} {t : KsatTables} (h : FormulaTables n t.clauses t.used t.conns) {order order' : List ℕ → List ℕ}
    (ho : ∀ l, (order l).Perm l) (ho' : ∀ l, (order' l).Perm l) {post : Bool} {pp : ℕ} {threshold : Num} {beliefs : List Num}
    (hb : beliefs.length = n) (h1 : (violated t.clauses (asgn (hardDecisions threshold beliefs))).length ≤ 1) {st : PostState}
    (hst : decideAndPost t threshold order order' post pp beliefs = some st) :
    (violated t.clauses (asgn st.hard)).length ≤ (violated t.clauses (asgn (hardDecisions threshold beliefs))).length := by
  have hn : (hardDecisions threshold beliefs).length = n := by simp [hardDecisions, hb]
  simp only [decideAndPost, getSummary_eq h hn, Option.bind_eq_bind, Option.bind_some] at hst
  have hs : PostOk n t ⟨hardDecisions threshold beliefs, summaryOf t (hardDecisions threshold beliefs),
      (summaryOf t (hardDecisions threshold beliefs)).unsat.length == 0⟩ := ⟨hn, rfl⟩
  by_cases hc : (summaryOf t (hardDecisions threshold beliefs)).unsat.length ≠ 0 ∧ post = true
  · rw [if_pos hc] at hst
    obtain ⟨st', a1, -, -, a4⟩ := postProcess_spec h ho ho' (pp := pp) hs rfl
    rw [a1] at hst
    obtain rfl := Option.some.inj hst
    refine a4 fun st1 hst1 => ?_
    obtain ⟨st1', b1, -, -, b4⟩ := postPhase1_spec h hs rfl
    rw [b1] at hst1
    obtain rfl := Option.some.inj hst1
    exact b4.trans h1
  · rw [if_neg hc] at hst
    obtain rfl := Option.some.inj hst
    exact le_rfl

/-- Non-vacuity: one violated clause before, none after. -/
example : (violated smallFormula.clauses (asgn (hardDecisions 0 [fin (-1), fin 1, fin 0, fin (-1)]))).length = 1 ∧
    (decideAndPost smallFormula 0 id id true 2 [fin (-1), fin 1, fin 0, fin (-1)]).map (fun st => (violated smallFormula.clauses (asgn st.hard)).length) =
      some 0 := by
  decide +kernel

/-- C30, first half, partial: whatever happens before, post-processing does not increase the number of violated clauses
when the first phase leaves at most one violated clause.  Missing: the other cases, as above. -/
theorem C30_first_phase_partial {n : ℕ} {t : KsatTables} (h : FormulaTables n t.clauses t.used t.conns) {order order' : List ℕ → List ℕ}
    (ho : ∀ l, (order l).Perm l) (ho' : ∀ l, (order' l).Perm l) {pp : ℕ} {st st1 st' : PostState} (hn : st.hard.length = n)
    (hsum : getSummary t st.hard = some st.sum) (hflag : st.flag = (st.sum.unsat.length == 0))
    (h1 : postPhase1 t st = some st1) (hv : (violated t.clauses (asgn st1.hard)).length ≤ 1)
    (hst : postProcess t order order' pp st = some st') :
    (violated t.clauses (asgn st1.hard)).length ≤ (violated t.clauses (asgn st.hard)).length ∧
    (violated t.clauses (asgn st'.hard)).length ≤ (violated t.clauses (asgn st1.hard)).length := by
  rw [getSummary_eq h hn] at hsum
  have hsum := (Option.some.inj hsum).symm
  have hs : PostOk n t st := ⟨hn, by rw [hflag, hsum, viol_eq]⟩
  obtain ⟨st1', a1, a2, a3, a4⟩ := postPhase1_spec h hs hsum
  rw [a1] at h1
  obtain rfl := Option.some.inj h1
  obtain ⟨s2, b1, b2, b3, b4, b5⟩ := postPhase2_spec h ho a2 a3
  obtain ⟨st3, c1, c2, c3, c4⟩ := postPhase3_spec h ho' (pp := pp) b2 b3 b4
  simp only [postProcess, a1, b1, c1, Option.bind_eq_bind, Option.bind_some, Option.some.injEq] at hst
  subst hst
  exact ⟨a4, c4.trans (b5 hv)⟩

/-- Non-vacuity: two violated clauses with a common literal, both repaired in the first phase. -/
example : (do
    let t : KsatTables := ⟨[0, 1, 2], [[(0, 1), (1, 1)], [(0, 1), (2, 1)]], occTable 3 [[(0, 1), (1, 1)], [(0, 1), (2, 1)]]⟩
    let s ← getSummary t [false, false, false]
    let st1 ← postPhase1 t ⟨[false, false, false], s, false⟩
    let st' ← postProcess t id id 2 ⟨[false, false, false], s, false⟩
    some (s.unsat, st1.hard, st'.hard, st'.flag)) = some ([0, 1], [true, false, false], [true, false, false], true) := by
  decide +kernel

/-- C35: the similarity of two sets of variables is between 0 and 1, symmetric, 1 exactly when they are equal, and 0 exactly when they
have no common element (and are not both empty). -/
theorem C35_similarity (a b : Finset ℕ) :
    0 ≤ similarity a b ∧ similarity a b ≤ 1 ∧ similarity a b = similarity b a ∧ (similarity a b = 1 ↔ a = b) ∧
      (similarity a b = 0 ↔ Disjoint a b ∧ (a ∪ b).Nonempty) := by
  have hsub : a ∩ b ⊆ a ∪ b := fun x hx => Finset.mem_union_left _ (Finset.mem_inter.mp hx).1
  have hle := Finset.card_le_card hsub
  by_cases h0 : (a ∪ b).card = 0
  · have hu : a ∪ b = ∅ := Finset.card_eq_zero.mp h0
    have ha : a = ∅ := Finset.subset_empty.mp (hu ▸ Finset.subset_union_left)
    have hb : b = ∅ := Finset.subset_empty.mp (hu ▸ Finset.subset_union_right)
    subst ha; subst hb
    simp [similarity]
  · have hpos : (0 : ℚ) < ((a ∪ b).card : ℚ) := by exact_mod_cast Nat.pos_of_ne_zero h0
    have e : similarity a b = ((a ∩ b).card : ℚ) / ((a ∪ b).card : ℚ) := by rw [similarity, if_neg h0]
    refine ⟨?_, ?_, ?_, ?_, ?_⟩
    · rw [e]; positivity
    · rw [e, div_le_one hpos]; exact_mod_cast hle
    · simp only [similarity, Finset.union_comm b a, Finset.inter_comm b a]
    · rw [e, div_eq_one_iff_eq hpos.ne']
      constructor
      · intro h
        have h : (a ∩ b).card = (a ∪ b).card := by exact_mod_cast h
        have heq := Finset.eq_of_subset_of_card_le hsub h.ge
        refine Finset.Subset.antisymm (fun x hx => ?_) fun x hx => ?_
        · have : x ∈ a ∩ b := heq ▸ Finset.mem_union_left _ hx
          exact (Finset.mem_inter.mp this).2
        · have : x ∈ a ∩ b := heq ▸ Finset.mem_union_right _ hx
          exact (Finset.mem_inter.mp this).1
      · rintro rfl; simp
    · rw [e, div_eq_zero_iff]
      constructor
      · rintro (h | h)
        · have h : (a ∩ b).card = 0 := by exact_mod_cast h
          exact ⟨Finset.disjoint_iff_inter_eq_empty.mpr (Finset.card_eq_zero.mp h), Finset.card_pos.mp (Nat.pos_of_ne_zero h0)⟩
        · exact absurd h hpos.ne'
      · rintro ⟨h, -⟩
        left
        rw [Finset.disjoint_iff_inter_eq_empty.mp h]; simp

/-- Non-vacuity: two clauses over three variables each that share two of them. -/
example : similarity {0, 1, 2} {1, 2, 3} = 1 / 2 ∧ similarity {0, 1} {1, 0} = 1 ∧ similarity {0} {1} = 0 := by decide +kernel

end Verif.Properties
