import Verif.Proofs.TspAnalysis
import Verif.Spec.TspSolve

/-! # Control flow of the TSP solver -/

namespace Verif.Proofs
open Verif Num Spec Model

theorem loopUp_steps {σ : Type} {n : ℕ} {body : ℕ → σ → Option σ} {s t : σ} (h : loopUp n body s = some t) :
    ∃ f : ℕ → σ, f 0 = s ∧ f n = t ∧ ∀ i < n, body i (f i) = some (f (i + 1)) := by
  induction n generalizing t with
  | zero => simp only [loopUp, Option.some.injEq] at h; exact ⟨fun _ => s, rfl, h, by simp⟩
  | succ n ih =>
    rw [loopUp] at h
    cases h' : loopUp n body s with
    | none => rw [h'] at h; simp at h
    | some u =>
      rw [h', Option.bind_some] at h
      obtain ⟨f, f0, fn, fs⟩ := ih h'
      refine ⟨fun i => if i ≤ n then f i else t, by simp [f0], by simp, fun i hi => ?_⟩
      simp only [if_pos (show i ≤ n by omega)]
      by_cases hin : i = n
      · subst hin; simp [fn, h]
      · rw [if_pos (by omega)]; exact fs i (by omega)

theorem hardDecision_nil {E : ℕ} {thr total : Num} {intr cost : Arr Num} {edges : List (ℕ × ℕ)}
    (h : hardDecision E thr intr edges cost = some ([], total)) : total = 0 := by
  unfold hardDecision at h
  generalize hcp : (⟨intr.size, fun e => if gt (intr.data e) thr then 0 else 1⟩ : Arr ℕ).copyTo (Arr.fill E 2147483647) = hd' at h
  cases hd' with
  | none => simp at h
  | some hd =>
    have hsize : hd.size = E := by
      unfold Arr.copyTo at hcp
      split at hcp
      · simp only [Option.some.injEq] at hcp; rw [← hcp]; rfl
      · simp at hcp
    simp only [Option.bind_eq_bind, Option.bind_some] at h
    rw [Option.bind_eq_some_iff] at h
    obtain ⟨sel, h1, h⟩ := h
    rw [Option.bind_eq_some_iff] at h
    obtain ⟨tot, h2, h⟩ := h
    simp only [Option.some.injEq, Prod.mk.injEq] at h
    obtain ⟨rfl, rfl⟩ := h
    obtain ⟨f, f0, fn, fs⟩ := loopUp_steps h1
    obtain ⟨g, g0, gn, gs⟩ := loopUp_steps h2
    have hmono : ∀ i < E, (f i).length + (if hd.data i = 1 then 1 else 0) = (f (i + 1)).length := by
      intro i hi
      have := fs i hi
      rw [Arr.rd_of_lt (by omega)] at this
      simp only [Option.bind_some] at this
      by_cases h1 : hd.data i = 1
      · rw [if_pos h1] at this ⊢
        rw [Option.bind_eq_some_iff] at this
        obtain ⟨c, -, hc⟩ := this
        simp only [Option.some.injEq] at hc
        rw [← hc]; simp
      · rw [if_neg h1] at this ⊢
        simp only [Option.some.injEq] at this
        rw [this]; simp
    have hzero : ∀ i ≤ E, (f (E - i)).length = 0 := by
      intro i
      induction i with
      | zero => intro _; rw [Nat.sub_zero, fn]; rfl
      | succ i ih =>
        intro hi
        have h1 := ih (by omega)
        have h2 := hmono (E - (i + 1)) (by omega)
        rw [show E - (i + 1) + 1 = E - i by omega] at h2
        omega
    have hno : ∀ i < E, hd.data i ≠ 1 := by
      intro i hi h1
      have h2 := hmono i hi
      have h3 := hzero (E - (i + 1)) (by omega)
      rw [show E - (E - (i + 1)) = i + 1 by omega] at h3
      rw [if_pos h1] at h2
      omega
    have hg : ∀ i ≤ hd.size, g i = 0 := by
      intro i
      induction i with
      | zero => intro _; exact g0
      | succ i ih =>
        intro hi
        have := gs i (by omega)
        rw [Arr.rd_of_lt (by omega), ih (by omega)] at this
        simp only [Option.bind_some, if_neg (hno i (by omega)), Option.some.injEq] at this
        exact this.symm
    rw [← gn]; exact hg _ le_rfl

/-- What one analysis does to the flags. -/
theorem analyse_flags {n mc : ℕ} {edges sel : List (ℕ × ℕ)} {order : List ℕ} {s s' : TspAnalysis} (ho : StartOrder sel order)
    (h : analyse n mc edges sel order s = some s') :
    (Acyclic sel ∧ s'.noConsCount = s.noConsCount + 1 ∧ s'.noConsFlag = (s.noConsFlag || decide (s.noConsCount + 1 > mc)) ∧
        s'.tourFlag = s.tourFlag ∧ s'.satisfied = s.satisfied ∧ s'.tour = s.tour) ∨
      (¬ Acyclic sel ∧ s'.noConsFlag = s.noConsFlag ∧ ((s'.tourFlag = true ∧ s'.satisfied = true ∧
        (∃ l, s'.subtourPaths = [l] ∧ l.length = n ∧ s'.tour = l ++ l.take 1) ∧ s'.closedPathsSize = []) ∨
        (s'.noConsCount = 0 ∧ s'.tourFlag = s.tourFlag ∧ s'.satisfied = s.satisfied ∧ s'.tour = s.tour ∧
          s'.closedPathsSize = s'.subtourPaths.map List.length))) := by
  obtain ⟨loops, h1, h2, -, -, h5⟩ := getClosedLoops_spec ho
  simp only [analyse, h1, Option.bind_eq_bind, Option.bind_some, Option.some.injEq] at h
  subst h
  match loops, h5 with
  | [], h5 =>
    refine Or.inl ⟨h5.mp rfl, ?_⟩
    simp only [analyseLoops]
    by_cases hc : s.noConsCount + 1 > mc
    · rw [if_pos hc]; simp [hc]
    · rw [if_neg hc]; simp [hc]
  | l :: rest, h5 =>
    refine Or.inr ⟨fun hA => by simpa using h5.mpr hA, ?_⟩
    by_cases hl : rest = [] ∧ l.length = n
    · obtain ⟨rfl, hn⟩ := hl
      simp only [analyseLoops, hn, and_true, if_true, true_and]
      exact Or.inl ⟨l, rfl, hn, rfl⟩
    · simp only [analyseLoops, if_neg hl, analyseLoops_foldl]
      exact ⟨trivial, Or.inr ⟨trivial, trivial, trivial, trivial, by simp⟩⟩

theorem analyse_some {n mc : ℕ} {edges sel : List (ℕ × ℕ)} {order : List ℕ} (ho : StartOrder sel order) (s : TspAnalysis) :
    ∃ s', analyse n mc edges sel order s = some s' := by
  obtain ⟨loops, h1, -⟩ := getClosedLoops_spec ho
  exact ⟨analyseLoops n mc edges loops s, by simp only [analyse, h1, Option.bind_eq_bind, Option.bind_some]⟩

theorem iterateRelaxed_facts {c : TspSetup} {st st1 : TspState} (h : iterateRelaxed c st = some st1) :
    ∃ m ext intr sel total an, c.relaxed [] st.msgs (st.ext, st.intr) = some (m, ext, intr) ∧
      hardDecision c.numEdges c.thr intr c.edges c.cost = some (sel, total) ∧
      analyse c.numNodes c.maxCount c.edges sel (c.order st.numAugm sel) st.an = some an ∧
      st1 = { st with msgs := m, ext := ext, intr := intr, cost := total, an := an, selected := sel } := by
  unfold iterateRelaxed at h
  simp only [Option.bind_eq_bind, Option.bind_eq_some_iff] at h
  obtain ⟨⟨m, ext, intr⟩, h1, ⟨sel, total⟩, h2, an, h3, h4⟩ := h
  exact ⟨m, ext, intr, sel, total, an, h1, h2, h3, by simpa using h4.symm⟩

theorem iterateAugmented_facts {c : TspSetup} {st st1 : TspState} (h : iterateAugmented c st = some st1) :
    ∃ intr, c.augmented st.an.deltas st.msgs (st.ext, st.intr) = some (st1.msgs, st1.ext, intr) ∧ st1.intr = intr ∧
      hardDecision c.numEdges c.thr intr c.edges c.cost = some (st1.selected, st1.cost) ∧
      analyse c.numNodes c.maxCount c.edges st1.selected (c.order (st.numAugm + 1) st1.selected) st.an = some st1.an ∧
      st1.numAugm = st.numAugm + 1 ∧ st1.old = st1.selected ∧ st1.oldOld = (if st.old ≠ [] then st.old else st.oldOld) ∧
      st1.noImprovCount = (if st.old ≠ [] then if st1.selected = st.old then st.noImprovCount + 1 else 0 else st.noImprovCount) ∧
      st1.noImprovFlag = (st.noImprovFlag || decide (st.old ≠ [] ∧ st1.selected = st.old ∧ st.noImprovCount + 1 > c.maxCount)) ∧
      st1.solOscCount = (if st.oldOld ≠ [] then if st1.selected = st.oldOld ∧ st.oldOld ≠ st.old then st.solOscCount + 1 else 0 else
        st.solOscCount) ∧
      st1.solOscFlag = (st.solOscFlag || decide (st.oldOld ≠ [] ∧ (st1.selected = st.oldOld ∧ st.oldOld ≠ st.old) ∧
        st.solOscCount + 1 > c.maxCount)) := by
  unfold iterateAugmented at h
  simp only [Option.bind_eq_bind, Option.bind_eq_some_iff] at h
  obtain ⟨⟨m, ext, intr⟩, h1, ⟨sel, total⟩, h2, an, h3, h4⟩ := h
  simp only [Option.some.injEq] at h4
  subst h4
  simp only at h1 h2 h3
  generalize hst : ({ st with numAugm := st.numAugm + 1, msgs := m, ext := ext, intr := intr, cost := total } : TspState) = s0 at h3 ⊢
  have e0 : s0.msgs = m ∧ s0.ext = ext ∧ s0.intr = intr ∧ s0.cost = total ∧ s0.numAugm = st.numAugm + 1 ∧ s0.old = st.old ∧
      s0.oldOld = st.oldOld ∧ s0.noImprovCount = st.noImprovCount ∧ s0.noImprovFlag = st.noImprovFlag ∧
      s0.solOscCount = st.solOscCount ∧ s0.solOscFlag = st.solOscFlag ∧ s0.an = st.an := by subst hst; simp
  have eI : ∀ s0 : TspState, (checkImprovement c.maxCount sel s0) = { s0 with
      noImprovCount := (if s0.old ≠ [] then if sel = s0.old then s0.noImprovCount + 1 else 0 else s0.noImprovCount)
      noImprovFlag := (s0.noImprovFlag || decide (s0.old ≠ [] ∧ sel = s0.old ∧ s0.noImprovCount + 1 > c.maxCount)) } := by
    intro s0
    unfold checkImprovement
    by_cases a : s0.old ≠ []
    · by_cases b : sel = s0.old
      · by_cases d : s0.noImprovCount + 1 > c.maxCount
        · simp only [if_pos a, if_pos b, if_pos d]; simp [a, b, d]
        · simp only [if_pos a, if_pos b, if_neg d]; simp [a, b, d]
      · simp only [if_pos a, if_neg b]; simp [b]
    · simp only [if_neg a]; simp [a]
  have eO : ∀ s0 : TspState, (checkOscillation c.maxCount sel s0) = { s0 with
      solOscCount := (if s0.oldOld ≠ [] then if sel = s0.oldOld ∧ s0.oldOld ≠ s0.old then s0.solOscCount + 1 else 0 else s0.solOscCount)
      solOscFlag := (s0.solOscFlag || decide (s0.oldOld ≠ [] ∧ (sel = s0.oldOld ∧ s0.oldOld ≠ s0.old) ∧
        s0.solOscCount + 1 > c.maxCount)) } := by
    intro s0
    unfold checkOscillation
    by_cases a : s0.oldOld ≠ []
    · by_cases b : sel = s0.oldOld ∧ s0.oldOld ≠ s0.old
      · by_cases d : s0.solOscCount + 1 > c.maxCount
        · simp only [if_pos a, if_pos b, if_pos d]
          have : decide (s0.oldOld ≠ [] ∧ (sel = s0.oldOld ∧ s0.oldOld ≠ s0.old) ∧ s0.solOscCount + 1 > c.maxCount) = true :=
            decide_eq_true ⟨a, b, d⟩
          rw [this]; simp
        · simp only [if_pos a, if_pos b, if_neg d]
          have : decide (s0.oldOld ≠ [] ∧ (sel = s0.oldOld ∧ s0.oldOld ≠ s0.old) ∧ s0.solOscCount + 1 > c.maxCount) = false :=
            decide_eq_false fun h => d h.2.2
          rw [this]; simp
      · simp only [if_pos a, if_neg b]
        have : decide (s0.oldOld ≠ [] ∧ (sel = s0.oldOld ∧ s0.oldOld ≠ s0.old) ∧ s0.solOscCount + 1 > c.maxCount) = false :=
          decide_eq_false fun h => b h.2.1
        rw [this]; simp
    · simp only [if_neg a]
      have : decide (s0.oldOld ≠ [] ∧ (sel = s0.oldOld ∧ s0.oldOld ≠ s0.old) ∧ s0.solOscCount + 1 > c.maxCount) = false :=
        decide_eq_false fun h => a h.1
      rw [this]; simp
  rw [eI, eO] at h3 ⊢
  obtain ⟨b1, b2, b3, b4, b5, b6, b7, b8, b9, b10, b11, b12⟩ := e0
  simp only [b6, b7, b8, b9, b10, b11, b12] at h3 ⊢
  by_cases hold : st.old ≠ []
  · simp only [if_pos hold, b1, b2, b3, b4, b5] at h3 ⊢
    exact ⟨intr, h1, rfl, h2, h3, by simp⟩
  · simp only [if_neg hold, b1, b2, b3, b4, b5, b7] at h3 ⊢
    exact ⟨intr, h1, rfl, h2, h3, by simp⟩

theorem addMissingRows_facts {st st' : TspState} (h : addMissingRows st = some st') :
    st'.msgs.s2e.rows = st.an.deltas.length ∧ ∃ m, st' = { st with msgs := m } := by
  unfold addMissingRows at h
  split at h
  · rename_i h'
    simp only [Option.some.injEq] at h; subst h
    exact ⟨h', st.msgs, rfl⟩
  · split at h
    · simp at h
    · simp only [Option.some.injEq] at h; subst h
      refine ⟨?_, _, rfl⟩
      show st.msgs.s2e.rows + _ = _
      omega

/-- The loop, as a run of rounds. -/
theorem augmentLoop_run {c : TspSetup} {fuel : ℕ} : ∀ {st st' : TspState}, augmentLoop c fuel st = some (some st') →
    ∃ k f, f 0 = st ∧ f k = st' ∧ AugRun c f k ∧ StopReason c st' := by
  induction fuel with
  | zero => intro _ _ h; simp [augmentLoop] at h
  | succ fuel ih =>
    intro st st' h
    have stop : st = st' → StopReason c st → ∃ k f, f 0 = st ∧ f k = st' ∧ AugRun c f k ∧ StopReason c st' := by
      rintro rfl hs; exact ⟨0, fun _ => st, rfl, rfl, ⟨by simp, by simp⟩, hs⟩
    rw [augmentLoop] at h
    by_cases h1 : (!st.an.satisfied && c.augmentation && !st.an.tourFlag) = true
    · rw [if_pos h1] at h
      by_cases h2 : (st.an.noConsFlag || st.noImprovFlag || st.solOscFlag) = true
      · rw [if_pos h2] at h
        refine stop (by simpa using h) ?_
        simp only [Bool.or_eq_true] at h2
        unfold StopReason; tauto
      · rw [if_neg h2] at h
        by_cases h3 : st.cost = 0
        · rw [if_pos h3] at h; simp at h
        · rw [if_neg h3] at h
          have hgo : st.an.tourFlag = false ∧ st.an.satisfied = false ∧ st.an.noConsFlag = false ∧ st.noImprovFlag = false ∧
              st.solOscFlag = false ∧ st.cost ≠ 0 := by
            simp only [Bool.and_eq_true, Bool.not_eq_true', Bool.or_eq_true, not_or, Bool.not_eq_true] at h1 h2
            exact ⟨h1.2, h1.1.1, h2.1.1, h2.1.2, h2.2, h3⟩
          cases hi : iterateAugmented c st with
          | none => rw [hi] at h; simp at h
          | some st1 =>
            rw [hi] at h
            simp only at h
            by_cases h4 : (st1.numAugm : ℤ) = c.maxAugm
            · rw [if_pos h4] at h
              obtain rfl : st1 = st' := by simpa using h
              refine ⟨1, fun i => if i = 0 then st else st1, rfl, rfl, ⟨?_, ?_⟩, by unfold StopReason; tauto⟩
              · intro i hi; obtain rfl : i = 0 := by omega
                exact hgo
              · intro i hi'; obtain rfl : i = 0 := by omega
                exact ⟨st1, hi, Or.inl ⟨rfl, h4, rfl⟩⟩
            · rw [if_neg h4] at h
              cases ha : addMissingRows st1 with
              | none => rw [ha] at h; simp at h
              | some st2 =>
                rw [ha] at h
                obtain ⟨k, f, f0, fk, hr, hstop⟩ := ih h
                refine ⟨k + 1, fun i => if i = 0 then st else f (i - 1), rfl, by simpa using fk, ⟨?_, ?_⟩, hstop⟩
                · intro i hi'
                  by_cases h0 : i = 0
                  · subst h0; exact hgo
                  · simp only [if_neg h0]; exact hr.going (i - 1) (by omega)
                · intro i hi'
                  by_cases h0 : i = 0
                  · subst h0
                    refine ⟨st1, hi, Or.inr ⟨h4, ?_⟩⟩
                    simp only [Nat.zero_add, one_ne_zero, if_false, Nat.sub_self, f0]; exact ha
                  · obtain ⟨s, s1, s2⟩ := hr.round (i - 1) (by omega)
                    have e : i - 1 + 1 = i := by omega
                    rw [e] at s2
                    have e2 : k + 1 - 1 = k := rfl
                    simp only [if_neg h0, Nat.add_one_ne_zero, if_false, Nat.add_sub_cancel]
                    refine ⟨s, s1, ?_⟩
                    rcases s2 with ⟨t1, t2, t3⟩ | t
                    · exact Or.inl ⟨by omega, t2, t3⟩
                    · exact Or.inr t
    · rw [if_neg h1] at h
      refine stop (by simpa using h) ?_
      simp only [Bool.and_eq_true, Bool.not_eq_true', not_and, Bool.not_eq_false] at h1
      unfold StopReason
      cases h2 : st.an.satisfied <;> cases h3 : c.augmentation <;> simp_all

/-- The loop ends. -/
theorem augmentLoop_ends {c : TspSetup} {fuel : ℕ} : ∀ {st : TspState}, (st.numAugm : ℤ) < c.maxAugm →
    c.maxAugm - st.numAugm < fuel → augmentLoop c fuel st ≠ none := by
  induction fuel with
  | zero => intro st h1 h2; push_cast at h2; omega
  | succ fuel ih =>
    intro st h1 h2
    push_cast at h2
    rw [augmentLoop]
    split
    · split
      · simp
      · split
        · simp
        · cases hi : iterateAugmented c st with
          | none => simp
          | some st1 =>
            obtain ⟨-, -, -, -, -, hn, -⟩ := iterateAugmented_facts hi
            simp only
            split
            · simp
            · rename_i h4
              cases ha : addMissingRows st1 with
              | none => simp
              | some st2 =>
                obtain ⟨-, m, rfl⟩ := addMissingRows_facts ha
                refine ih ?_ ?_
                · show (st1.numAugm : ℤ) < _
                  rw [hn] at h4 ⊢; push_cast at h4 ⊢; omega
                · show c.maxAugm - (st1.numAugm : ℤ) < _
                  rw [hn]; push_cast; omega
    · simp

/-- A counter of consecutive events exceeds `m` iff the last `m + 1` events happened. -/
theorem counter_iff {cnt : ℕ → ℕ} {P : ℕ → Prop} {i0 k : ℕ} (hi0 : 1 ≤ i0) (h0 : ∀ i < i0, i ≤ k → cnt i = 0)
    (hs : ∀ i, i0 ≤ i → i ≤ k → (P i ∧ cnt i = cnt (i - 1) + 1) ∨ (¬ P i ∧ cnt i = 0)) (m : ℕ) :
    cnt k > m ↔ i0 + m ≤ k ∧ ∀ j ≤ m, P (k - j) := by
  induction m generalizing k with
  | zero =>
    by_cases hk : i0 ≤ k
    · rcases hs k hk le_rfl with ⟨h, e⟩ | ⟨h, e⟩
      · rw [e]
        refine ⟨fun _ => ⟨by omega, fun j hj => ?_⟩, fun _ => by omega⟩
        obtain rfl : j = 0 := by omega
        exact h
      · rw [e]; exact ⟨fun h => by omega, fun h' => absurd (h'.2 0 le_rfl) h⟩
    · rw [h0 k (by omega) le_rfl]; exact ⟨fun h => by omega, fun h => by omega⟩
  | succ m ih =>
    by_cases hk : i0 ≤ k
    · rcases hs k hk le_rfl with ⟨h, e⟩ | ⟨h, e⟩
      · have := ih (k := k - 1) (fun i h1 h2 => h0 i h1 (by omega)) (fun i h1 h2 => hs i h1 (by omega))
        rw [e]
        constructor
        · intro hgt
          obtain ⟨a, b⟩ := this.mp (by omega)
          refine ⟨by omega, fun j hj => ?_⟩
          by_cases hj0 : j = 0
          · subst hj0; exact h
          · have := b (j - 1) (by omega)
            rwa [show k - 1 - (j - 1) = k - j by omega] at this
        · rintro ⟨a, b⟩
          have := this.mpr ⟨by omega, fun j hj => by
            have := b (j + 1) (by omega)
            rwa [show k - (j + 1) = k - 1 - j by omega] at this⟩
          omega
      · rw [e]; exact ⟨fun h => by omega, fun h' => absurd (h'.2 0 (by omega)) h⟩
    · rw [h0 k (by omega) le_rfl]; exact ⟨fun h => by omega, fun h => by omega⟩

/-- The state before the first round: nothing compared yet. -/
structure FreshState (c : TspSetup) (st : TspState) : Prop where
  old : st.old = []
  oldOld : st.oldOld = []
  numAugm : st.numAugm = 0
  noImprovCount : st.noImprovCount = 0
  noImprovFlag : st.noImprovFlag = false
  solOscCount : st.solOscCount = 0
  solOscFlag : st.solOscFlag = false
  cons : (Acyclic st.selected ∧ st.an.noConsCount = 1) ∨ (¬ Acyclic st.selected ∧ st.an.noConsCount = 0)
  consFlag : st.an.noConsFlag = true ↔ st.an.noConsCount > c.maxCount

theorem run_flags {c : TspSetup} (ho : ∀ k sel, StartOrder sel (c.order k sel)) {f : ℕ → TspState} {k : ℕ} (hr : AugRun c f k)
    (h0 : FreshState c (f 0)) :
    (∀ i ≤ k, (f i).numAugm = i) ∧
    ((f k).noImprovFlag = true ↔ 2 + c.maxCount ≤ k ∧ ∀ j ≤ c.maxCount, (f (k - j)).selected = (f (k - j - 1)).selected) ∧
    ((f k).solOscFlag = true ↔ 3 + c.maxCount ≤ k ∧ ∀ j ≤ c.maxCount, (f (k - j)).selected = (f (k - j - 2)).selected ∧
      (f (k - j)).selected ≠ (f (k - j - 1)).selected) ∧
    ((f k).an.noConsFlag = true ↔ c.maxCount ≤ k ∧ ∀ j ≤ c.maxCount, Acyclic (f (k - j)).selected) := by
  have hstep : ∀ i < k, ∃ st, iterateAugmented c (f i) = some st ∧ ∃ m, f (i + 1) = { st with msgs := m } := by
    intro i hi
    obtain ⟨st, s1, s2⟩ := hr.round i hi
    refine ⟨st, s1, ?_⟩
    rcases s2 with ⟨a, -, b⟩ | ⟨-, h⟩
    · exact ⟨st.msgs, by rw [a, b]⟩
    · exact (addMissingRows_facts h).2
  have hne : ∀ i, 1 ≤ i → i < k → (f i).selected ≠ [] := by
    intro i h1 h2 hnil
    obtain ⟨st, s1, m, s2⟩ := hstep (i - 1) (by omega)
    rw [show i - 1 + 1 = i by omega] at s2
    obtain ⟨intr, -, -, hh, -⟩ := iterateAugmented_facts s1
    have e1 : st.selected = [] := by rw [s2] at hnil; exact hnil
    rw [e1] at hh
    have : (f i).cost = 0 := by rw [s2]; exact hardDecision_nil hh
    exact (hr.going i h2).2.2.2.2.2 this
  have hnum : ∀ i ≤ k, (f i).numAugm = i := by
    intro i
    induction i with
    | zero => intro _; exact h0.numAugm
    | succ i ih =>
      intro hi
      obtain ⟨st, s1, m, s2⟩ := hstep i (by omega)
      obtain ⟨_, -, -, -, -, hn, -⟩ := iterateAugmented_facts s1
      rw [s2]; show st.numAugm = _
      rw [hn, ih (by omega)]
  have hold : ∀ i, 1 ≤ i → i ≤ k → (f i).old = (f i).selected := by
    intro i h1 h2
    obtain ⟨st, s1, m, s2⟩ := hstep (i - 1) (by omega)
    rw [show i - 1 + 1 = i by omega] at s2
    obtain ⟨_, -, -, -, -, -, hn, -⟩ := iterateAugmented_facts s1
    rw [s2]; exact hn
  have holdold1 : ∀ i, i ≤ 1 → i ≤ k → (f i).oldOld = [] := by
    intro i h1 h2
    by_cases hi : i = 0
    · subst hi; exact h0.oldOld
    · obtain rfl : i = 1 := by omega
      obtain ⟨st, s1, m, s2⟩ := hstep 0 (by omega)
      obtain ⟨_, -, -, -, -, -, -, hn, -⟩ := iterateAugmented_facts s1
      rw [h0.old, h0.oldOld] at hn
      rw [s2]; show st.oldOld = []; rw [hn]; simp
  have holdold : ∀ i, 2 ≤ i → i ≤ k → (f i).oldOld = (f (i - 1)).selected := by
    intro i h1 h2
    obtain ⟨st, s1, m, s2⟩ := hstep (i - 1) (by omega)
    rw [show i - 1 + 1 = i by omega] at s2
    obtain ⟨_, -, -, -, -, -, -, hn, -⟩ := iterateAugmented_facts s1
    rw [hold (i - 1) (by omega) (by omega), if_pos (hne (i - 1) (by omega) (by omega))] at hn
    rw [s2]; exact hn
  refine ⟨hnum, ?_, ?_, ?_⟩
  · -- no improvement
    have hc0 : ∀ i < 2, i ≤ k → (f i).noImprovCount = 0 ∧ (f i).noImprovFlag = false := by
      intro i h1 h2
      by_cases hi : i = 0
      · subst hi; exact ⟨h0.noImprovCount, h0.noImprovFlag⟩
      · obtain rfl : i = 1 := by omega
        obtain ⟨st, s1, m, s2⟩ := hstep 0 (by omega)
        obtain ⟨_, -, -, -, -, -, -, -, hn, hf, -⟩ := iterateAugmented_facts s1
        rw [h0.old, h0.noImprovCount] at hn
        rw [h0.old, h0.noImprovFlag] at hf
        rw [s2]; show st.noImprovCount = 0 ∧ st.noImprovFlag = false
        rw [hn, hf]; simp
    have hcs : ∀ i, 2 ≤ i → i ≤ k → (((f i).selected = (f (i - 1)).selected ∧ (f i).noImprovCount = (f (i - 1)).noImprovCount + 1) ∨
        (¬ (f i).selected = (f (i - 1)).selected ∧ (f i).noImprovCount = 0)) ∧
        ((f i).noImprovFlag = true ↔ (f i).noImprovCount > c.maxCount) := by
      intro i h1 h2
      obtain ⟨st, s1, m, s2⟩ := hstep (i - 1) (by omega)
      rw [show i - 1 + 1 = i by omega] at s2
      obtain ⟨_, -, -, -, -, -, -, -, hn, hf, -⟩ := iterateAugmented_facts s1
      have ho1 := hne (i - 1) (by omega) (by omega)
      rw [hold (i - 1) (by omega) (by omega)] at hn hf
      rw [if_pos ho1] at hn
      rw [(hr.going (i - 1) (by omega)).2.2.2.1, Bool.false_or] at hf
      rw [s2]
      show (((st.selected = _ ∧ st.noImprovCount = _) ∨ _) ∧ (st.noImprovFlag = true ↔ st.noImprovCount > _))
      by_cases he : st.selected = (f (i - 1)).selected
      · rw [if_pos he] at hn
        refine ⟨Or.inl ⟨he, hn⟩, ?_⟩
        rw [hf, decide_eq_true_iff, hn]
        exact ⟨fun h => h.2.2, fun h => ⟨ho1, he, h⟩⟩
      · rw [if_neg he] at hn
        refine ⟨Or.inr ⟨he, hn⟩, ?_⟩
        rw [hf, decide_eq_true_iff, hn]
        exact ⟨fun h => absurd h.2.1 he, fun h => absurd h (by omega)⟩
    have := counter_iff (cnt := fun i => (f i).noImprovCount) (P := fun i => (f i).selected = (f (i - 1)).selected) (i0 := 2) (k := k)
      (by omega) (fun i h1 h2 => (hc0 i h1 h2).1) (fun i h1 h2 => (hcs i h1 h2).1) c.maxCount
    rw [← this]
    by_cases hk : 2 ≤ k
    · exact (hcs k hk le_rfl).2
    · obtain ⟨a, b⟩ := hc0 k (by omega) le_rfl
      rw [a, b]; simp
  · -- oscillation
    have hc0 : ∀ i < 3, i ≤ k → (f i).solOscCount = 0 ∧ (f i).solOscFlag = false := by
      intro i
      induction i with
      | zero => intro _ _; exact ⟨h0.solOscCount, h0.solOscFlag⟩
      | succ i ih =>
        intro h1 h2
        obtain ⟨a, b⟩ := ih (by omega) (by omega)
        obtain ⟨st, s1, m, s2⟩ := hstep i (by omega)
        obtain ⟨_, -, -, -, -, -, -, -, -, -, hn, hf⟩ := iterateAugmented_facts s1
        rw [holdold1 i (by omega) (by omega), a] at hn
        rw [holdold1 i (by omega) (by omega), b] at hf
        rw [s2]; show st.solOscCount = 0 ∧ st.solOscFlag = false
        rw [hn, hf]; simp
    have hcs : ∀ i, 3 ≤ i → i ≤ k → ((((f i).selected = (f (i - 2)).selected ∧ (f i).selected ≠ (f (i - 1)).selected) ∧
        (f i).solOscCount = (f (i - 1)).solOscCount + 1) ∨
        (¬ ((f i).selected = (f (i - 2)).selected ∧ (f i).selected ≠ (f (i - 1)).selected) ∧ (f i).solOscCount = 0)) ∧
        ((f i).solOscFlag = true ↔ (f i).solOscCount > c.maxCount) := by
      intro i h1 h2
      obtain ⟨st, s1, m, s2⟩ := hstep (i - 1) (by omega)
      rw [show i - 1 + 1 = i by omega] at s2
      obtain ⟨_, -, -, -, -, -, -, -, -, -, hn, hf⟩ := iterateAugmented_facts s1
      have ho1 := hne (i - 2) (by omega) (by omega)
      have e := holdold (i - 1) (by omega) (by omega)
      rw [show i - 1 - 1 = i - 2 by omega] at e
      rw [hold (i - 1) (by omega) (by omega), e] at hn hf
      rw [if_pos ho1] at hn
      rw [(hr.going (i - 1) (by omega)).2.2.2.2.1, Bool.false_or] at hf
      rw [s2]
      show ((((st.selected = _ ∧ st.selected ≠ _) ∧ st.solOscCount = _) ∨ _) ∧ (st.solOscFlag = true ↔ st.solOscCount > _))
      have hiff : (st.selected = (f (i - 2)).selected ∧ (f (i - 2)).selected ≠ (f (i - 1)).selected) ↔
          (st.selected = (f (i - 2)).selected ∧ st.selected ≠ (f (i - 1)).selected) :=
        and_congr_right fun h => by rw [h]
      by_cases he : st.selected = (f (i - 2)).selected ∧ (f (i - 2)).selected ≠ (f (i - 1)).selected
      · rw [if_pos he] at hn
        refine ⟨Or.inl ⟨hiff.mp he, hn⟩, ?_⟩
        rw [hf, decide_eq_true_iff, hn]
        exact ⟨fun h => h.2.2, fun h => ⟨ho1, he, h⟩⟩
      · rw [if_neg he] at hn
        refine ⟨Or.inr ⟨fun h => he (hiff.mpr h), hn⟩, ?_⟩
        rw [hf, decide_eq_true_iff, hn]
        exact ⟨fun h => absurd h.2.1 he, fun h => absurd h (by omega)⟩
    have := counter_iff (cnt := fun i => (f i).solOscCount) (P := fun i => (f i).selected = (f (i - 2)).selected ∧
      (f i).selected ≠ (f (i - 1)).selected) (i0 := 3) (k := k)
      (by omega) (fun i h1 h2 => (hc0 i h1 h2).1) (fun i h1 h2 => (hcs i h1 h2).1) c.maxCount
    rw [← this]
    by_cases hk : 3 ≤ k
    · exact (hcs k hk le_rfl).2
    · obtain ⟨a, b⟩ := hc0 k (by omega) le_rfl
      rw [a, b]; simp
  · -- no loops
    have hcs : ∀ i ≤ k, (i < k ∨ (f i).an.tourFlag = false) → ((Acyclic (f i).selected ∧ (f i).an.noConsCount = (if i = 0 then 0 else (f (i - 1)).an.noConsCount) + 1) ∨
        (¬ Acyclic (f i).selected ∧ (f i).an.noConsCount = 0)) ∧
        ((f i).an.noConsFlag = true ↔ (f i).an.noConsCount > c.maxCount) := by
      intro i h1 h2
      by_cases hi : i = 0
      · subst hi
        rw [if_pos rfl, Nat.zero_add]; exact ⟨h0.cons, h0.consFlag⟩
      · rw [if_neg hi]
        obtain ⟨st, s1, m, s2⟩ := hstep (i - 1) (by omega)
        rw [show i - 1 + 1 = i by omega] at s2
        obtain ⟨_, -, -, -, ha, -⟩ := iterateAugmented_facts s1
        have hgo := hr.going (i - 1) (by omega)
        have htf : (f i).an.tourFlag = false := by
          rcases h2 with h2 | h2
          · exact (hr.going i h2).1
          · exact h2
        rw [s2] at htf ⊢
        have htf : st.an.tourFlag = false := htf
        show ((Acyclic st.selected ∧ st.an.noConsCount = _) ∨ _) ∧ (st.an.noConsFlag = true ↔ st.an.noConsCount > _)
        rcases analyse_flags (ho _ _) ha with ⟨a1, a2, a3, -⟩ | ⟨a1, a2, ⟨a3, -⟩ | ⟨a3, -⟩⟩
        · refine ⟨Or.inl ⟨a1, a2⟩, ?_⟩
          rw [a3, hgo.2.2.1, a2]; simp
        · rw [a3] at htf; exact absurd htf (by simp)
        · refine ⟨Or.inr ⟨a1, a3⟩, ?_⟩
          rw [a2, a3, hgo.2.2.1]; simp
    by_cases htf : (f k).an.tourFlag = false ∨ k = 0
    · have hlast : ∀ i ≤ k, ((Acyclic (f i).selected ∧ (f i).an.noConsCount = (if i = 0 then 0 else (f (i - 1)).an.noConsCount) + 1) ∨
          (¬ Acyclic (f i).selected ∧ (f i).an.noConsCount = 0)) ∧
          ((f i).an.noConsFlag = true ↔ (f i).an.noConsCount > c.maxCount) := by
        intro i hi
        by_cases hk : i < k
        · exact hcs i hi (Or.inl hk)
        · obtain rfl : i = k := by omega
          rcases htf with h | h
          · exact hcs i hi (Or.inr h)
          · subst h; rw [if_pos rfl, Nat.zero_add]; exact ⟨h0.cons, h0.consFlag⟩
      have := counter_iff (cnt := fun i => if i = 0 then 0 else (f (i - 1)).an.noConsCount) (P := fun i => Acyclic (f (i - 1)).selected)
        (i0 := 1) (k := k + 1) (by omega) (fun i h1 h2 => by simp [show i = 0 by omega]) (fun i h1 h2 => by
          have := (hlast (i - 1) (by omega)).1
          simp only [if_neg (show i ≠ 0 by omega)]
          exact this) c.maxCount
      simp only [Nat.add_one_ne_zero, if_false, Nat.add_sub_cancel] at this
      rw [(hlast k le_rfl).2, this]
      constructor
      · rintro ⟨a, b⟩
        refine ⟨by omega, fun j hj => ?_⟩
        have := b j hj
        rwa [show k + 1 - j - 1 = k - j by omega] at this
      · rintro ⟨a, b⟩
        refine ⟨by omega, fun j hj => ?_⟩
        rw [show k + 1 - j - 1 = k - j by omega]; exact b j hj
    · rw [not_or, Bool.not_eq_false] at htf
      obtain ⟨st, s1, m, s2⟩ := hstep (k - 1) (by omega)
      rw [show k - 1 + 1 = k by omega] at s2
      obtain ⟨_, -, -, -, ha, -⟩ := iterateAugmented_facts s1
      have hgo := hr.going (k - 1) (by omega)
      have e1 : (f k).an = st.an := by rw [s2]
      have e2 : (f k).selected = st.selected := by rw [s2]
      rw [e1] at htf
      rcases analyse_flags (ho _ _) ha with ⟨a1, a2, a3, a4, -⟩ | ⟨a1, a2, -⟩
      · rw [a4, hgo.1] at htf; exact absurd htf.1 (by simp)
      · rw [e1, a2, hgo.2.2.1]
        refine ⟨fun h => by simp at h, fun h => ?_⟩
        have := h.2 0 (by omega)
        rw [Nat.sub_zero, e2] at this
        exact absurd this a1

theorem hardDecision_mem {E : ℕ} {thr total : Num} {intr cost : Arr Num} {edges sel : List (ℕ × ℕ)}
    (h : hardDecision E thr intr edges cost = some (sel, total)) : ∀ c ∈ sel, c ∈ edges := by
  unfold hardDecision at h
  simp only [Option.bind_eq_bind, Option.bind_eq_some_iff] at h
  obtain ⟨hd, -, s, h1, t, -, h3⟩ := h
  simp only [Option.some.injEq, Prod.mk.injEq] at h3
  obtain ⟨rfl, -⟩ := h3
  obtain ⟨f, f0, fn, fs⟩ := loopUp_steps h1
  have key : ∀ i ≤ E, ∀ c ∈ f i, c ∈ edges := by
    intro i
    induction i with
    | zero => intro _; rw [f0]; simp
    | succ i ih =>
      intro hi c hc
      have hs := fs i (by omega)
      rw [Option.bind_eq_some_iff] at hs
      obtain ⟨v, -, hs⟩ := hs
      by_cases hv : v = 1
      · rw [if_pos hv, Option.bind_eq_some_iff] at hs
        obtain ⟨d, hd, hs⟩ := hs
        simp only [Option.some.injEq] at hs
        rw [← hs, List.mem_append] at hc
        rcases hc with hc | hc
        · exact ih (by omega) c hc
        · simp only [List.mem_cons, List.not_mem_nil, or_false] at hc
          rw [hc]; exact List.mem_of_getElem? hd
      · rw [if_neg hv] at hs
        simp only [Option.some.injEq] at hs
        rw [← hs] at hc
        exact ih (by omega) c hc
  rw [← fn]; exact key E le_rfl

theorem augRun_limit {c : TspSetup} {f : ℕ → TspState} {k : ℕ} (hr : AugRun c f k) (hnum : ∀ i ≤ k, (f i).numAugm = i)
    (hm : 1 ≤ c.maxAugm) : (k : ℤ) ≤ c.maxAugm := by
  by_contra hlt
  obtain ⟨M, hM⟩ := Int.eq_ofNat_of_zero_le (show 0 ≤ c.maxAugm by omega)
  have hM1 : 1 ≤ M := by omega
  have hMk : M < k := by omega
  obtain ⟨st, s1, s2⟩ := hr.round (M - 1) (by omega)
  obtain ⟨_, -, -, -, -, hn, -⟩ := iterateAugmented_facts s1
  rw [hnum (M - 1) (by omega)] at hn
  rcases s2 with ⟨a, -⟩ | ⟨a, -⟩
  · omega
  · apply a; rw [hn, hM]; push_cast; omega

/-- The first analysis. -/
theorem fresh_of_relaxed {c : TspSetup} (ho : ∀ k sel, StartOrder sel (c.order k sel)) {st st1 : TspState} (hs : NewState st)
    (h : iterateRelaxed c st = some st1) (hsat : st1.an.satisfied = false) (m : TspMsgs) : FreshState c { st1 with msgs := m } := by
  obtain ⟨m0, e0, i0, rfl⟩ := hs
  obtain ⟨m1, ext, intr, sel, total, an, -, -, h3, rfl⟩ := iterateRelaxed_facts h
  refine ⟨rfl, rfl, rfl, rfl, rfl, rfl, rfl, ?_, ?_⟩
  · rcases analyse_flags (ho _ _) h3 with ⟨a1, a2, -⟩ | ⟨a1, -, ⟨-, a2, -⟩ | ⟨a2, -⟩⟩
    · exact Or.inl ⟨a1, a2⟩
    · rw [show an.satisfied = false from hsat] at a2; simp at a2
    · exact Or.inr ⟨a1, a2⟩
  · show an.noConsFlag = true ↔ an.noConsCount > c.maxCount
    rcases analyse_flags (ho _ _) h3 with ⟨a1, a2, a3, -⟩ | ⟨a1, a3, ⟨-, a2, -⟩ | ⟨a2, -⟩⟩
    · rw [a3, a2]; simp
    · rw [show an.satisfied = false from hsat] at a2; simp at a2
    · rw [a3, a2]; simp

/-- If all costs are positive, only the empty selection costs nothing. -/
theorem hardDecision_zero {E : ℕ} {thr total : Num} {intr cost : Arr Num} {edges sel : List (ℕ × ℕ)} {w : ℕ → ℚ} (hc : cost.Is E w)
    (hw : ∀ e < E, 0 < w e) (h : hardDecision E thr intr edges cost = some (sel, total)) (h0 : total = 0) : sel = [] := by
  unfold hardDecision at h
  generalize hcp : (⟨intr.size, fun e => if gt (intr.data e) thr then 0 else 1⟩ : Arr ℕ).copyTo (Arr.fill E 2147483647) = hd' at h
  cases hd' with
  | none => simp at h
  | some hd =>
    have hsize : hd.size = E := by
      unfold Arr.copyTo at hcp
      split at hcp
      · simp only [Option.some.injEq] at hcp; rw [← hcp]; rfl
      · simp at hcp
    simp only [Option.bind_eq_bind, Option.bind_some] at h
    rw [Option.bind_eq_some_iff] at h
    obtain ⟨sel', h1, h⟩ := h
    rw [Option.bind_eq_some_iff] at h
    obtain ⟨tot, h2, h⟩ := h
    simp only [Option.some.injEq, Prod.mk.injEq] at h
    obtain ⟨rfl, rfl⟩ := h
    obtain ⟨f, f0, fn, fs⟩ := loopUp_steps h1
    obtain ⟨g, g0, gn, gs⟩ := loopUp_steps h2
    have key : ∀ i ≤ E, ∃ q : ℚ, g i = fin q ∧ 0 ≤ q ∧ (f i ≠ [] → 0 < q) := by
      intro i
      induction i with
      | zero => intro _; exact ⟨0, by rw [g0]; rfl, le_rfl, by rw [f0]; simp⟩
      | succ i ih =>
        intro hi
        obtain ⟨q, a1, a2, a3⟩ := ih (by omega)
        have hf := fs i (by omega)
        have hg := gs i (by omega)
        rw [Arr.rd_of_lt (by omega)] at hf hg
        simp only [Option.bind_some] at hf hg
        by_cases h1 : hd.data i = 1
        · rw [if_pos h1, hc.rd (by omega), a1] at hg
          simp only [Option.bind_some, Option.some.injEq] at hg
          have := hw i (by omega)
          exact ⟨q + w i, by rw [← hg]; rfl, by linarith, fun _ => by linarith⟩
        · rw [if_neg h1] at hf hg
          simp only [Option.some.injEq] at hf hg
          exact ⟨q, by rw [← hg, a1], a2, by rw [← hf]; exact a3⟩
    obtain ⟨q, a1, -, a3⟩ := key E le_rfl
    rw [hsize] at gn
    rw [gn, h0] at a1
    have hq : q = 0 := by
      have : (fin 0 : Num) = fin q := a1
      simpa using this.symm
    rw [fn] at a3
    by_contra hne
    have := a3 hne
    linarith

end Verif.Proofs
