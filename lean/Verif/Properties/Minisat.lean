import Verif.Proofs.Minisat
import Verif.Properties.Cnf
import Verif.Properties.KsatGen

/-! # C95: reading CNF files and checking the reference solver -/

namespace Verif.Properties
open Verif Spec Model

/-- C95 in full: every file in the DIMACS format, with clauses of equal length, is read as the formula it contains. -/
def C95_claim : Prop :=
  ∀ (text : List Char) (n k : ℕ) (F : List (List (ℕ × ℤ))), 1 ≤ k → F ≠ [] →
    (∀ cl ∈ F, cl.length = k ∧ (cl.map Prod.fst).Nodup ∧ ∀ l ∈ cl, l.1 < n ∧ (l.2 = 1 ∨ l.2 = -1)) →
    readCnf text = some ((n : ℤ), (F.length : ℤ), F.map (fun cl => cl.map (fun l => l.2 * ((l.1 : ℤ) + 1)))) →
    ∃ f, readCnfFile text = some f ∧ f.state.clauses = F

/-- C95 is false: a satisfiable file whose clauses end on their own lines is read as two contradicting clauses of one literal. -/
theorem C95_claim_false : ¬ C95_claim := by
  intro h
  obtain ⟨f, h1, h2⟩ := h "p cnf 2 2\n1 2\n0\n-1 2\n0\n".toList 2 2 [[(0, 1), (1, 1)], [(0, -1), (1, 1)]] (by decide) (by decide) (by decide)
    (by decide +kernel)
  have h3 : (readCnfFile "p cnf 2 2\n1 2\n0\n-1 2\n0\n".toList).map (fun f => f.state.clauses) = some [[(0, 1)], [(0, -1)]] := by decide +kernel
  rw [h1, Option.map_some, h2] at h3
  exact absurd h3 (by decide)

section
variable {n k m : ℕ} (hk : 1 ≤ k) {F : List (List (ℕ × ℤ))}
  (hF : ∀ cl ∈ F, cl.length = k ∧ (cl.map Prod.fst).Nodup ∧ ∀ l ∈ cl, l.1 < n ∧ (l.2 = 1 ∨ l.2 = -1))
  {pre post : List (List Char)} (hpre : ∀ l ∈ pre, LineFrom ['c'] l) (hpost : ∀ l ∈ post, LineFrom ['c', 'p', '%', '\n', '0'] l)
include hk hF hpre hpost

/-- C95 for files with the clauses on the lines after the header, as the export writes them, comments before the header and lines after the clauses that
start with `c`, `p`, `%`, `0` or are empty: the reader returns the numbers of the header, the clauses, what the solver has to solve, and well-formed tables
for the solvers of this library.  A file without clauses is an error. -/
theorem C95_read_partial :
    (F = [] → readCnfFile (pre.flatten ++ cnfText n m F ++ post.flatten) = none) ∧
    (F ≠ [] → ∃ f conns, readCnfFile (pre.flatten ++ cnfText n m F ++ post.flatten) = some f ∧ f.n = n ∧ f.m = m ∧ f.k = k ∧ f.state.clauses = F ∧
      f.state.added = F.map (fun cl => cl.map (fun l => l.2 * ((l.1 : ℤ) + 1))) ∧
      f.state.conns = conns.map (List.map (fun p => ((p.1 : ℤ), p.2))) ∧ KFormula n k F f.state.used conns ∧
      f.state.used.Nodup ∧ ∀ v, v ∈ f.state.used ↔ ∃ cl ∈ F, v ∈ cl.map Prod.fst) := by
  have ht : ∀ l ∈ fileLines [] post.flatten, skippedLine l = true := by
    have e := Proofs.fileLines_lines (fun l hl => (hpost l hl).2) []
    rw [List.append_nil] at e
    rw [e]
    intro l hl
    rcases List.mem_append.mp hl with h | h
    · obtain ⟨⟨c, hc, h0⟩, -⟩ := hpost l h
      cases l with
      | nil => simp at h0
      | cons d l =>
        obtain rfl : d = c := by simpa using h0
        simp only [List.mem_cons, List.not_mem_nil, or_false] at hc
        simp only [skippedLine, Bool.or_eq_true, beq_iff_eq]
        tauto
    · simp [fileLines] at h
  have hr := Proofs.readCnfFile_text (m := m) hk (fun cl h => ⟨(hF cl h).1, (hF cl h).2.2⟩)
    (fun l hl => ⟨by obtain ⟨⟨c, hc, h0⟩, -⟩ := hpre l hl; rw [h0, List.mem_singleton.mp hc], (hpre l hl).2⟩) ht
  rw [hr]
  refine ⟨fun h => if_pos h, fun h => ?_⟩
  rw [if_neg h]
  refine ⟨_, Proofs.connTable n F, rfl, rfl, rfl, rfl, rfl, ?_, rfl, Proofs.connTable_formula hF, List.nodup_dedup _, fun v => by simp⟩
  refine List.map_congr_left fun cl hcl => List.map_congr_left fun l hl => ?_
  rcases ((hF cl hcl).2.2 l hl).2 with h | h
  · rw [Proofs.litInt, h, if_neg (by decide)]; ring
  · rw [Proofs.litInt, h, if_pos rfl]; ring

omit hk hpre hpost in
/-- C95, the evaluation: for a formula read with the right number of clauses and one sign per variable, the clauses reported as not satisfied are exactly
those without a literal in the list, and the flag says that there is none. -/
theorem C95_evaluation {f : CnfFile} {used : List ℕ} {conns : List (List (ℕ × ℤ))} (hm : f.m = F.length)
    (hc : f.state.conns = conns.map (List.map (fun p => ((p.1 : ℤ), p.2)))) (ht : FormulaTables n F used conns) {lits : List ℤ} (hs : SignedList lits) :
    (∀ c, c ∈ (evalModel f lits).unsatisfied ↔ c < F.length ∧ ∀ l ∈ F.getD c [], l.2 * ((l.1 : ℤ) + 1) ∉ lits) ∧
    ((evalModel f lits).flag = true ↔ ∀ cl ∈ F, ∃ l ∈ cl, l.2 * ((l.1 : ℤ) + 1) ∈ lits) ∧
    (∀ v, v ∈ (evalModel f lits).active ↔ (v : ℤ) + 1 ∈ lits) ∧ (∀ v, v ∈ (evalModel f lits).inactive ↔ -((v : ℤ) + 1) ∈ lits) := by
  have hpos : ∀ v, v ∈ (evalModel f lits).active ↔ (v : ℤ) + 1 ∈ lits := by
    intro v
    have := Proofs.signed_mem hs (l := (v, 1)) (Or.inl rfl)
    rw [Proofs.litInt, if_neg (show ¬ (1 : ℤ) = -1 by decide)] at this
    rw [this]
    refine (Proofs.mem_zipIdx_map (q := fun b => b)).trans (exists_congr fun x => and_congr_right fun _ => ?_)
    simp
  have hneg : ∀ v, v ∈ (evalModel f lits).inactive ↔ -((v : ℤ) + 1) ∈ lits := by
    intro v
    have := Proofs.signed_mem hs (l := (v, -1)) (Or.inr rfl)
    rw [Proofs.litInt, if_pos rfl] at this
    rw [this]
    refine (Proofs.mem_zipIdx_map (q := fun b => !b)).trans (exists_congr fun x => and_congr_right fun _ => ?_)
    simp
  have hsat : ∀ c : ℕ, (c : ℤ) ∈ (evalModel f lits).satisfied ↔ ∃ l ∈ F.getD c [], l.2 * ((l.1 : ℤ) + 1) ∈ lits := by
    intro c
    have e : (evalModel f lits).satisfied = (connsWith f.state.conns 1 (evalModel f lits).active ++
      connsWith f.state.conns (-1) (evalModel f lits).inactive).dedup := rfl
    have hc' : f.state.conns = Proofs.castConns conns := hc
    rw [e, List.mem_dedup, List.mem_append, hc', Proofs.mem_connsWith, Proofs.mem_connsWith]
    simp only [ht.mem, hpos, hneg]
    constructor
    · rintro (⟨v, h1, h2⟩ | ⟨v, h1, h2⟩)
      · exact ⟨_, h2, by simpa using h1⟩
      · exact ⟨_, h2, by simpa using h1⟩
    · rintro ⟨⟨v, s⟩, h1, h2⟩
      have hcl : c < F.length := by
        by_contra hcl
        rw [List.getD_eq_default _ _ (by omega)] at h1
        simp at h1
      have h1' := h1
      rw [List.getD_eq_getElem?_getD, List.getElem?_eq_getElem hcl, Option.getD_some] at h1'
      rcases ((hF _ (List.getElem_mem hcl)).2.2 _ h1').2 with h | h <;> simp only at h <;> subst h
      · exact Or.inl ⟨v, by simpa using h2, h1⟩
      · exact Or.inr ⟨v, by simpa using h2, h1⟩
  have hun : ∀ c, c ∈ (evalModel f lits).unsatisfied ↔ c < F.length ∧ ∀ l ∈ F.getD c [], l.2 * ((l.1 : ℤ) + 1) ∉ lits := by
    intro c
    have e : (evalModel f lits).unsatisfied = (List.range f.m).filter (fun c : ℕ => !(evalModel f lits).satisfied.contains (c : ℤ)) := rfl
    rw [e, List.mem_filter, List.mem_range, hm, Bool.not_eq_true', ← Bool.not_eq_true, List.contains_iff_mem, hsat]
    push Not
    rfl
  refine ⟨hun, ?_, hpos, hneg⟩
  have e : (evalModel f lits).flag = (evalModel f lits).unsatisfied.isEmpty := rfl
  rw [e, List.isEmpty_iff, List.eq_nil_iff_forall_not_mem]
  simp only [hun]
  constructor
  · intro h cl hcl
    obtain ⟨c, hc, rfl⟩ := List.getElem_of_mem hcl
    have := h c
    rw [List.getD_eq_getElem?_getD, List.getElem?_eq_getElem hc, Option.getD_some] at this
    push Not at this
    exact this hc
  · rintro h c ⟨hc, h'⟩
    rw [List.getD_eq_getElem?_getD, List.getElem?_eq_getElem hc, Option.getD_some] at h'
    obtain ⟨l, hl, h2⟩ := h _ (List.getElem_mem hc)
    exact h' l hl h2

/-- C95, the whole run on such a file with a correct solver and the right number of clauses in the header: the run ends with an error exactly if no
assignment satisfies the formula; otherwise the formula is reported as satisfied, and the reported variables are a satisfying assignment. -/
theorem C95_solver (hm : m = F.length) (hne : F ≠ []) {solve : List (List ℤ) → Option (List ℤ)} (hs : CorrectSolver solve) :
    (runMinisat solve (pre.flatten ++ cnfText n m F ++ post.flatten) = none ↔ ∀ σ, violated F σ ≠ []) ∧
    ∀ f r, runMinisat solve (pre.flatten ++ cnfText n m F ++ post.flatten) = some (f, r) →
      r.flag = true ∧ r.unsatisfied = [] ∧ f.state.clauses = F ∧ (∀ v ∈ r.active, v ∉ r.inactive) ∧
      violated F (fun v => decide (v ∈ r.active)) = [] := by
  obtain ⟨f, conns, h1, h2, h3, h4, h5, h6, h7, h8, h9, h10⟩ := (C95_read_partial (m := m) hk hF hpre hpost).2 hne
  have hviol : ∀ σ, violated F σ = [] ↔ ∀ cl ∈ F, ∃ l ∈ cl, LitTrue σ l := by
    intro σ
    simp only [violated, List.filter_eq_nil_iff, List.mem_range, decide_eq_true_eq]
    constructor
    · intro h cl hcl
      obtain ⟨c, hc, rfl⟩ := List.getElem_of_mem hcl
      have := h c hc
      push Not at this
      rwa [List.getD_eq_getElem?_getD, List.getElem?_eq_getElem hc, Option.getD_some] at this
    · intro h c hc
      push Not
      rw [List.getD_eq_getElem?_getD, List.getElem?_eq_getElem hc, Option.getD_some]
      exact h _ (List.getElem_mem hc)
  have hlit : ∀ cl ∈ F, ∀ l ∈ cl, l.2 * ((l.1 : ℤ) + 1) = Proofs.litInt l := by
    intro cl hcl l hl
    rcases ((hF cl hcl).2.2 l hl).2 with h | h
    · rw [Proofs.litInt, h, if_neg (by decide)]; ring
    · rw [Proofs.litInt, h, if_pos rfl]; ring
  have key : ∀ lits, solve f.state.added = some lits → (evalModel f lits).flag = true ∧ (evalModel f lits).unsatisfied = [] ∧
      (∀ v ∈ (evalModel f lits).active, v ∉ (evalModel f lits).inactive) ∧
      violated F (fun v => decide (v ∈ (evalModel f lits).active)) = [] := by
    intro lits hl
    obtain ⟨g1, g2⟩ := (hs f.state.added).1 lits hl
    obtain ⟨e1, e2, e3, e4⟩ := C95_evaluation hF (f := f) (by rw [h3, hm]) h7 h8.tables g1
    have hall : ∀ cl ∈ F, ∃ l ∈ cl, l.2 * ((l.1 : ℤ) + 1) ∈ lits := by
      intro cl hcl
      obtain ⟨x, hx, hx'⟩ := g2 (cl.map (fun l => l.2 * ((l.1 : ℤ) + 1))) (by rw [h6]; exact List.mem_map.mpr ⟨cl, hcl, rfl⟩)
      obtain ⟨l, hl, rfl⟩ := List.mem_map.mp hx
      exact ⟨l, hl, hx'⟩
    have hexcl : ∀ v : ℕ, (v : ℤ) + 1 ∈ lits → -((v : ℤ) + 1) ∈ lits → False := by
      intro v a b
      obtain ⟨i, hi⟩ := List.mem_iff_getElem?.mp a
      obtain ⟨j, hj⟩ := List.mem_iff_getElem?.mp b
      have a1 := g1 i _ hi
      have b1 := g1 j _ hj
      obtain rfl : i = j := by omega
      rw [hi] at hj
      have := Option.some.inj hj
      omega
    refine ⟨e2.mpr hall, ?_, fun v hv hv' => ?_, (hviol _).mpr fun cl hcl => ?_⟩
    · rw [List.eq_nil_iff_forall_not_mem]
      intro c hc
      obtain ⟨hc1, hc2⟩ := (e1 c).mp hc
      rw [List.getD_eq_getElem?_getD, List.getElem?_eq_getElem hc1, Option.getD_some] at hc2
      obtain ⟨l, hl, h⟩ := hall _ (List.getElem_mem hc1)
      exact hc2 l hl h
    · exact hexcl v ((e3 v).mp hv) ((e4 v).mp hv')
    · obtain ⟨l, hl, h⟩ := hall cl hcl
      refine ⟨l, hl, ?_⟩
      unfold LitTrue
      rcases ((hF cl hcl).2.2 l hl).2 with e | e
      · refine Or.inl ⟨e, decide_eq_true ?_⟩
        rw [e3]
        rw [e, one_mul] at h
        exact h
      · refine Or.inr ⟨e, decide_eq_false ?_⟩
        rw [e3]
        rw [e] at h
        intro a
        exact hexcl l.1 a (by simpa using h)
  have hrun : runMinisat solve (pre.flatten ++ cnfText n m F ++ post.flatten) = (solve f.state.added).map (fun lits => (f, evalModel f lits)) := by
    unfold runMinisat
    simp only [h1, Option.bind_eq_bind, Option.bind_some]
    cases solve f.state.added <;> rfl
  rw [hrun]
  refine ⟨?_, fun g r hg => ?_⟩
  · rw [Option.map_eq_none_iff]
    constructor
    · intro hnone σ hv
      obtain ⟨cl', hcl', h⟩ := (hs f.state.added).2 hnone (fun i => σ (i - 1))
      rw [h6] at hcl'
      obtain ⟨cl, hcl, rfl⟩ := List.mem_map.mp hcl'
      obtain ⟨l, hl, ht⟩ := (hviol σ).mp hv cl hcl
      refine h _ (List.mem_map.mpr ⟨l, hl, rfl⟩) ?_
      rw [hlit cl hcl l hl]
      exact (Proofs.intTrue_lit ((hF cl hcl).2.2 l hl).2).mpr ht
    · intro h
      cases hl : solve f.state.added with
      | none => rfl
      | some lits => exact absurd (key lits hl).2.2.2 (h _)
  · obtain ⟨lits, hl, e⟩ := Option.map_eq_some_iff.mp hg
    obtain ⟨rfl, rfl⟩ := Prod.mk.inj e
    obtain ⟨k1, k2, k3, k4⟩ := key lits hl
    exact ⟨k1, k2, h5, k3, k4⟩

end

/-- C95, generated formulas: for every outcome of every draw, the exported file of a generated formula is read as the generated formula, with the same
clauses for every variable, and a correct solver finds it satisfiable. -/
theorem C95_generated {n m k : ℕ} {order : List ℕ → List ℕ} {sol : List Bool} {first : ℕ → ℕ} {pick : ℕ → ℕ → ℕ} {sign : ℕ → ℕ → Bool} (hm : m ≠ 0)
    (hk : 1 ≤ k) (hsol : sol.length = n) (hf : ∀ c < m, first c < n) (hp : ∀ c < m, ∀ j < k - 1, pick c j < n - 1 - j)
    (ho : ∀ l, (order l).Perm l) {solve : List (List ℤ) → Option (List ℤ)} (hs : CorrectSolver solve) :
    ∃ t f r conns, generate n m k order sol first pick sign = some t ∧
      runMinisat solve (cnfText n t.clauses.length t.clauses) = some (f, r) ∧ r.flag = true ∧ f.n = n ∧ f.m = t.clauses.length ∧ f.k = k ∧
      f.state.clauses = t.clauses ∧ f.state.used.Perm t.used ∧ f.state.conns = conns.map (List.map (fun p => ((p.1 : ℤ), p.2))) ∧
      List.Forall₂ List.Perm conns t.conns := by
  obtain ⟨t, g0, g1, g2, -, g4, g5, g6, g7, g8, -, g10⟩ := C29_generated (sign := sign) hk hsol hf hp ho
  have hF : ∀ cl ∈ t.clauses, cl.length = k ∧ (cl.map Prod.fst).Nodup ∧ ∀ l ∈ cl, l.1 < n ∧ (l.2 = 1 ∨ l.2 = -1) := g2
  have hne := g10 hm
  obtain ⟨f, conns, h1, h2, h3, h4, h5, h6, h7, h8, h9, h10⟩ :=
    (C95_read_partial (m := t.clauses.length) hk hF (pre := []) (post := []) (by simp) (by simp)).2 hne
  obtain ⟨s1, s2⟩ := C95_solver hk hF (pre := []) (post := []) (by simp) (by simp) rfl hne hs
  simp only [List.flatten_nil, List.nil_append, List.append_nil] at h1 s1 s2
  cases hr : runMinisat solve (cnfText n t.clauses.length t.clauses) with
  | none => exact absurd g1 (s1.mp hr _)
  | some p =>
    obtain ⟨f', r⟩ := p
    have e : f' = f := by
      unfold runMinisat at hr
      simp only [h1, Option.bind_eq_bind, Option.bind_some] at hr
      obtain ⟨lits, -, e⟩ := Option.bind_eq_some_iff.mp hr
      exact (Prod.mk.inj (Option.some.inj e)).1.symm
    subst e
    refine ⟨t, f', r, conns, g0, hr, (s2 _ _ hr).1, h2, h3, h4, h5, ?_, h7, ?_⟩
    · rw [List.perm_ext_iff_of_nodup h9 g7]
      intro v
      rw [h10, g8]
    · rw [List.forall₂_iff_get]
      refine ⟨by rw [h8.length, g5], fun v hv hv' => ?_⟩
      have e1 : conns.getD v [] = conns.get ⟨v, hv⟩ := by
        rw [List.getD_eq_getElem?_getD, List.getElem?_eq_getElem hv]; rfl
      have e2 : t.conns.getD v [] = t.conns.get ⟨v, hv'⟩ := by
        rw [List.getD_eq_getElem?_getD, List.getElem?_eq_getElem hv']; rfl
      rw [← e1, ← e2, List.perm_ext_iff_of_nodup (List.Nodup.of_map _ (h8.nodup v)) (List.Nodup.of_map _ (g6 v))]
      rintro ⟨c, s⟩
      rw [h8.tables.mem, g4.mem]

/-- There is a correct solver (the one that knows a satisfying assignment whenever there is one). -/
example : ∃ solve, CorrectSolver solve := by
  classical
  refine ⟨fun G => if h : ∃ lits, SignedList lits ∧ ∀ cl ∈ G, ∃ x ∈ cl, x ∈ lits then some h.choose else none, fun G => ⟨fun lits hl => ?_, fun hn σ => ?_⟩⟩
  · simp only at hl
    split_ifs at hl with h
    rw [← Option.some.inj hl]
    exact h.choose_spec
  · simp only at hn
    split_ifs at hn with h
    by_contra hno
    push Not at hno
    refine h ⟨(List.range (G.flatten.map Int.natAbs).sum).map (fun i => if σ (i + 1) then (i : ℤ) + 1 else -((i : ℤ) + 1)), fun i x hi => ?_, fun cl hcl => ?_⟩
    · simp only [List.getElem?_map, Option.map_eq_some_iff, List.getElem?_eq_some_iff] at hi
      obtain ⟨j, ⟨hj, e⟩, rfl⟩ := hi
      rw [List.getElem_range] at e
      subst e
      split_ifs <;> omega
    · obtain ⟨x, hx, ht⟩ := hno cl hcl
      refine ⟨x, hx, List.mem_map.mpr ⟨x.natAbs - 1, List.mem_range.mpr ?_, ?_⟩⟩
      · have : x.natAbs ≤ (G.flatten.map Int.natAbs).sum :=
          List.single_le_sum (fun _ _ => Nat.zero_le _) _ (List.mem_map.mpr ⟨x, List.mem_flatten.mpr ⟨cl, hcl, hx⟩, rfl⟩)
        unfold IntTrue at ht
        omega
      · unfold IntTrue at ht
        have hx0 : x.natAbs - 1 + 1 = x.natAbs := by omega
        rw [hx0]
        rcases ht with ⟨h1, h2⟩ | ⟨h1, h2⟩ <;> rw [h2]
        · simp only [if_true]; omega
        · simp only [Bool.false_eq_true, if_false]; omega

set_option synthInstance.maxSize 1000 in
/-- Non-vacuity of C95: a file with a comment, two clauses and the ending used by the uf benchmarks is read; with the list of a solver that misses the
second clause this is noticed; a comment after the header, a file without clauses and a clause without its zero are not read as they should. -/
example :
    let text := "c made by hand\np cnf 12 2\n1 -10 0\n-12 4 0\n%\n0\n\n".toList
    text = ["c made by hand\n".toList].flatten ++ cnfText 12 2 [[(0, 1), (9, -1)], [(11, -1), (3, 1)]] ++ ["%\n".toList, "0\n".toList, "\n".toList].flatten ∧
    (readCnfFile text).map (fun f => (f.n, f.m, f.k, f.state.clauses, f.state.added, f.state.used)) =
      some (12, 2, 2, [[(0, 1), (9, -1)], [(11, -1), (3, 1)]], [[1, -10], [-12, 4]], [0, 9, 11, 3]) ∧
    (readCnfFile text).map (fun f => (f.state.conns.getD 0 [], f.state.conns.getD 11 [])) = some ([(0, 1)], [(1, -1)]) ∧
    (runMinisat (fun _ => some [-1, 2, 3, -4, 5, 6, 7, 8, 9, -10, 11, 12]) text).map (fun p => (p.2.unsatisfied, p.2.flag)) = some ([1], false) ∧
    (runMinisat (fun _ => some [-1, 2, 3, -4, 5, 6, 7, 8, 9, -10, 11, -12]) text).map (fun p => (p.2.unsatisfied, p.2.flag)) = some ([], true) ∧
    readCnfFile "p cnf 2 1\nc x\n1 2 0\n".toList = none ∧ readCnfFile "p cnf 2 0\n".toList = none ∧
    (readCnfFile "p cnf 2 1\n1 2\n".toList).map (fun f => f.state.clauses) = some [[(0, 1)]] := by
  decide +kernel

end Verif.Properties
