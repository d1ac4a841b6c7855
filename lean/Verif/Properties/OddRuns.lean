import Verif.Proofs.OddRuns
import Verif.Properties.Unmixed

/-! # C112: odd and even numbers of iterations on formulas without mixed variables -/

namespace Verif.Properties
open Verif Num Spec Model

section
variable {n k : ℕ} {t : KsatTables} (hf : KFormula n k t.clauses t.used t.conns) (hk : 2 ≤ k) {g : ℕ → ℤ} (hg : Unmixed t.clauses g) (w : ℕ → ℚ)
  {flag : Bool} {alpha : ℚ} (hu : flag = false ∨ alpha = 0)
include hf hk hg hu

/-- C112, beliefs.  After an odd number of iterations without damping every clause has a literal that its belief does not speak against: the belief of the variable,
read as cost of making the literal true, is at most zero. -/
theorem C112_odd_beliefs {N : ℕ} (hN : ¬ Even N) : ∃ b : ℕ → ℚ,
    ksatBeliefs N flag alpha (ksatObject n k t (listOf n (fun v => fin (w v)))) = some (listOf n (fun v => fin (b v))) ∧
    ∀ c < t.clauses.length, ∃ v ∈ varsOf t.clauses c, b v * g v ≤ 0 := by
  obtain ⟨x, r, h, hb⟩ := Proofs.call_trace hf hk w flag alpha
  obtain ⟨K, rfl⟩ : ∃ K, N = K + 1 := ⟨N - 1, by rcases Nat.eq_zero_or_pos N with e | e; · exact absurd (by rw [e]; decide) hN
                                                 · omega⟩
  refine ⟨_, hb K, fun c hc => ?_⟩
  obtain ⟨v, hv, hle⟩ := Proofs.unmixed_odd hf hk hg h hu (by rw [Nat.even_add_one, not_not] at hN; exact hN) hc
  rw [Proofs.clauseVars_eq hf hc] at hv
  refine ⟨v, hv, ?_⟩
  simp only [if_pos (Proofs.vars_used hf hc hv)]
  rw [add_comm]
  exact hle

variable {order order' : List ℕ → List ℕ} (ho : ∀ l, (order l).Perm l) (ho' : ∀ l, (order' l).Perm l) (post : Bool) (pp : ℕ)
  {sol : List Bool} (hs : sol = [] ∨ sol.length = n)
include ho ho' hs

/-- C112.  After an odd number of iterations the decisions satisfy the formula: if no belief of a variable that occurs negated is exactly zero, the call with
threshold zero reports that all clauses are satisfied, with post-processing (which is then not used) or without. -/
theorem C112_odd {N : ℕ} (hN : ¬ Even N) {b : ℕ → ℚ}
    (hb : ksatBeliefs N flag alpha (ksatObject n k t (listOf n (fun v => fin (w v)))) = some (listOf n (fun v => fin (b v))))
    (hne : ∀ v ∈ t.used, g v = -1 → b v ≠ 0) : ∃ res,
    ksatCall n k N flag alpha (fin 0) order order' post pp sol t (listOf n (fun v => fin (w v))) = some res ∧
    res.post.flag = true ∧ res.post.sum.unsat = [] ∧ res.requiredPP = false ∧ ∀ v, v ∈ res.post.sum.active ↔ v ∈ t.used ∧ b v ≤ 0 := by
  obtain ⟨b', hb', hodd⟩ := C112_odd_beliefs hf hk hg w hu hN
  have hbb : ∀ v ∈ t.used, b' v = b v := by
    intro v hv
    rw [hb] at hb'
    have hvn := hf.tables.used_lt v hv
    have := congrArg (fun l => l[v]?) (Option.some.inj hb').symm
    simpa [listOf, hvn] using this
  have hsat : violated t.clauses (fun v => decide (b v ≤ 0)) = [] := by
    refine Proofs.unmixed_satisfied hf hg fun c hc => ?_
    obtain ⟨v, hv, hle⟩ := hodd c hc
    have hvu := Proofs.vars_used hf hc hv
    refine ⟨v, hv, ?_⟩
    rw [hbb v hvu] at hle
    rcases Proofs.unmixed_one hf hg hc (by rw [Proofs.clauseVars_eq hf hc]; exact hv) with e | e
    · rw [e] at hle
      push_cast at hle
      exact Or.inl ⟨e, decide_eq_true (by linarith)⟩
    · rw [e] at hle
      push_cast at hle
      have : 0 < b v := lt_of_le_of_ne (by linarith) (Ne.symm (hne v hvu e))
      exact Or.inr ⟨e, decide_eq_false (by linarith)⟩
  obtain ⟨K, rfl⟩ : ∃ K, N = K + 1 := ⟨N - 1, by rcases Nat.eq_zero_or_pos N with e | e; · exact absurd (by rw [e]; decide) hN
                                                 · omega⟩
  obtain ⟨res, h1, -, h2, h3, h4, h5⟩ := Proofs.call_report hf hk ho ho' (post := post) (pp := pp) hs (thr := 0) hb (Or.inr hsat)
  exact ⟨res, h1, h3.mpr hsat, by rw [h4, hsat], h2, h5⟩

/-- C112, plain literals.  If no variable is negated (vertex covers, hitting sets), every odd number of iterations and every threshold from zero on gives a satisfying
assignment. -/
theorem C112_odd_plain (hp : ∀ v ∈ t.used, g v = 1) {thr : ℚ} (hthr : 0 ≤ thr) {N : ℕ} (hN : ¬ Even N) : ∃ res,
    ksatCall n k N flag alpha (fin thr) order order' post pp sol t (listOf n (fun v => fin (w v))) = some res ∧
    res.post.flag = true ∧ res.post.sum.unsat = [] ∧ res.requiredPP = false := by
  obtain ⟨b, hb, hodd⟩ := C112_odd_beliefs hf hk hg w hu hN
  have hsat : violated t.clauses (fun v => decide (b v ≤ thr)) = [] := by
    refine Proofs.unmixed_satisfied hf hg fun c hc => ?_
    obtain ⟨v, hv, hle⟩ := hodd c hc
    have e := hp v (Proofs.vars_used hf hc hv)
    rw [e] at hle
    push_cast at hle
    exact ⟨v, hv, Or.inl ⟨e, decide_eq_true (by linarith)⟩⟩
  obtain ⟨K, rfl⟩ : ∃ K, N = K + 1 := ⟨N - 1, by rcases Nat.eq_zero_or_pos N with e | e; · exact absurd (by rw [e]; decide) hN
                                                 · omega⟩
  obtain ⟨res, h1, -, h2, h3, h4, -⟩ := Proofs.call_report hf hk ho ho' (post := post) (pp := pp) hs (thr := thr) hb (Or.inr hsat)
  exact ⟨res, h1, h3.mpr hsat, by rw [h4, hsat], h2⟩

/-- C112, crowded formulas.  If every literal costs something, and no more than satisfying all but any one of its clauses with other literals, whichever one chooses,
then the run never settles: after every odd number of iterations all literals are made true, after every even number all are made false, the beliefs are the costs again, and (without
post-processing) every clause is reported as violated. -/
theorem C112_alternates (hpos : ∀ v ∈ t.used, 0 < w v * g v)
    (hcrowd : ∀ c < t.clauses.length, ∀ v ∈ varsOf t.clauses c, ∀ o : ℕ → ℕ, (∀ c' < t.clauses.length, v ∈ varsOf t.clauses c' → o c' ∈ varsOf t.clauses c' ∧ o c' ≠ v) →
      w v * g v ≤ ∑ c' ∈ ((Finset.range t.clauses.length).filter (fun c' => v ∈ varsOf t.clauses c')).erase c, w (o c') * g (o c')) {N : ℕ} (hN : 1 ≤ N) :
    ∃ (res : KsatResult) (b : ℕ → ℚ), ksatCall n k N flag alpha (fin 0) order order' false pp sol t (listOf n (fun v => fin (w v))) = some res ∧
      res.beliefs = listOf n (fun v => fin (b v)) ∧
      (¬ Even N → (∀ c < t.clauses.length, ∀ v ∈ varsOf t.clauses c, b v * g v < 0) ∧ res.post.sum.unsat = []) ∧
      (Even N → (∀ v ∈ t.used, b v = w v) ∧ res.post.sum.unsat = List.range t.clauses.length) := by
  obtain ⟨x, r, h, hb⟩ := Proofs.call_trace hf hk w flag alpha
  obtain ⟨K, rfl⟩ : ∃ K, N = K + 1 := ⟨N - 1, by omega⟩
  obtain ⟨res, h1, h2, -, -, h4, -⟩ := Proofs.call_report hf hk ho ho' (post := false) (pp := pp) hs (thr := 0) (hb K) (Or.inl rfl)
  refine ⟨res, _, h1, h2, fun hN => ?_, fun hN => ?_⟩
  · obtain ⟨m, rfl⟩ : ∃ m, K = 2 * m := by
      rw [Nat.even_add_one, not_not] at hN
      obtain ⟨m, e⟩ := hN
      exact ⟨m, by omega⟩
    have hneg : ∀ c < t.clauses.length, ∀ v ∈ varsOf t.clauses c, ((∑ c ∈ occurrences t.clauses.length k ⟨t.clauses.length, k, Proofs.litVar t⟩ v, damped flag alpha (fun i => r i c v) (2 * m)) +
        if v ∈ t.used then w v else 0) * g v < 0 := by
      intro c hc v hvc
      have hv := Proofs.vars_used hf hc hvc
      rw [← Proofs.clauseVars_eq hf hc] at hvc
      obtain ⟨a1, a2⟩ := Proofs.crowded_step hf hk hg h hu hpos hcrowd (Proofs.crowded_run hf hk hg h hu hpos hcrowd m).1 hc hvc
      have := Proofs.unmixed_split h hu (2 * m) (g := g) hc hvc
      rw [if_pos hv, add_comm, this]
      linarith
    refine ⟨hneg, ?_⟩
    rw [h4]
    refine Proofs.unmixed_satisfied hf hg fun c hc => ?_
    have hv0 : Proofs.litVar t c 0 ∈ clauseVars k (Proofs.litVar t c) := Finset.mem_image.mpr ⟨0, Finset.mem_range.mpr (by omega), rfl⟩
    have hv1 := hv0
    rw [Proofs.clauseVars_eq hf hc] at hv1
    have hlt := hneg c hc _ hv1
    refine ⟨_, hv1, ?_⟩
    rcases Proofs.unmixed_one hf hg hc hv0 with e | e
    · rw [e] at hlt
      push_cast at hlt
      exact Or.inl ⟨e, decide_eq_true (by linarith)⟩
    · rw [e] at hlt
      push_cast at hlt
      exact Or.inr ⟨e, decide_eq_false (by linarith)⟩
  · obtain ⟨m, rfl⟩ : ∃ m, K = 2 * m + 1 := by
      rw [Nat.even_add_one, Nat.not_even_iff_odd] at hN
      obtain ⟨m, e⟩ := hN
      exact ⟨m, by omega⟩
    have hz := (Proofs.crowded_run hf hk hg h hu hpos hcrowd m).2
    have hbw : ∀ v ∈ t.used, ((∑ c ∈ occurrences t.clauses.length k ⟨t.clauses.length, k, Proofs.litVar t⟩ v, damped flag alpha (fun i => r i c v) (2 * m + 1)) +
        if v ∈ t.used then w v else 0) = w v := by
      intro v hv
      rw [if_pos hv, Finset.sum_eq_zero, zero_add]
      intro c hc
      obtain ⟨a1, a2⟩ := Proofs.occ_vars hc
      rw [Proofs.undamped_eq hu]
      exact hz c a1 v a2
    refine ⟨hbw, ?_⟩
    rw [h4]
    refine Proofs.unmixed_violated hf hg fun v hv => ?_
    have hp := hpos v hv
    rintro (⟨e, hd⟩ | ⟨e, hd⟩)
    · have hd := of_decide_eq_true hd
      rw [hbw v hv] at hd
      rw [e] at hp
      push_cast at hp
      linarith
    · have hd := of_decide_eq_false hd
      rw [hbw v hv] at hd
      rw [e] at hp
      push_cast at hp
      exact hd (by linarith)

/-- C112, many occurrences: the condition holds if every used variable is in at least `d` clauses and the costs of the literals differ at most by the factor `d - 1`;
for instance all costs equal and every variable twice, or every clause listed three times and costs within the factor two. -/
theorem C112_often {d : ℕ} (hocc : ∀ v ∈ t.used, d + 1 ≤ ((Finset.range t.clauses.length).filter (fun c => v ∈ varsOf t.clauses c)).card)
    (hpos : ∀ v ∈ t.used, 0 < w v * g v) (hcost : ∀ u ∈ t.used, ∀ v ∈ t.used, w v * g v ≤ d * (w u * g u)) {N : ℕ} (hN : 1 ≤ N) :
    ∃ (res : KsatResult) (b : ℕ → ℚ), ksatCall n k N flag alpha (fin 0) order order' false pp sol t (listOf n (fun v => fin (w v))) = some res ∧
      res.beliefs = listOf n (fun v => fin (b v)) ∧
      (¬ Even N → (∀ c < t.clauses.length, ∀ v ∈ varsOf t.clauses c, b v * g v < 0) ∧ res.post.sum.unsat = []) ∧
      (Even N → (∀ v ∈ t.used, b v = w v) ∧ res.post.sum.unsat = List.range t.clauses.length) := by
  refine C112_alternates hf hk hg w hu ho ho' pp hs hpos (fun c hc v hv o hov => ?_) hN
  have hvu := Proofs.vars_used hf hc hv
  have hm : c ∈ (Finset.range t.clauses.length).filter (fun c' => v ∈ varsOf t.clauses c') := Finset.mem_filter.mpr ⟨Finset.mem_range.mpr hc, hv⟩
  have hcard := hocc v hvu
  have hu0 : ∀ c' ∈ ((Finset.range t.clauses.length).filter (fun c' => v ∈ varsOf t.clauses c')).erase c, o c' ∈ t.used := by
    intro c' hc'
    obtain ⟨h1, h2⟩ := Finset.mem_filter.mp (Finset.mem_of_mem_erase hc')
    have h1 := Finset.mem_range.mp h1
    exact Proofs.vars_used hf h1 (hov c' h1 h2).1
  have hd : (0 : ℚ) < d := by
    rcases Nat.eq_zero_or_pos d with e | e
    · have h1 := hcost v hvu v hvu
      have h2 := hpos v hvu
      rw [e] at h1
      push_cast at h1
      linarith
    · exact_mod_cast e
  have hle : ∑ _c' ∈ ((Finset.range t.clauses.length).filter (fun c' => v ∈ varsOf t.clauses c')).erase c, w v * g v / d ≤
      ∑ c' ∈ ((Finset.range t.clauses.length).filter (fun c' => v ∈ varsOf t.clauses c')).erase c, w (o c') * g (o c') := by
    refine Finset.sum_le_sum fun c' hc' => ?_
    rw [div_le_iff₀ hd]
    linarith [hcost _ (hu0 c' hc') v hvu]
  rw [Finset.sum_const, Finset.card_erase_of_mem hm, nsmul_eq_mul] at hle
  refine le_trans ?_ hle
  have h1 : (d : ℚ) ≤ ((((Finset.range t.clauses.length).filter (fun c' => v ∈ varsOf t.clauses c')).card - 1 : ℕ) : ℚ) := by
    exact_mod_cast (by omega : d ≤ ((Finset.range t.clauses.length).filter (fun c' => v ∈ varsOf t.clauses c')).card - 1)
  have h2 : w v * g v = d * (w v * g v / d) := by field_simp
  calc w v * g v = d * (w v * g v / d) := h2
    _ ≤ _ := mul_le_mul_of_nonneg_right h1 (div_nonneg (hpos v hvu).le hd.le)

end

/-! ## A complete graph with four nodes -/

/-- Vertex covers of the complete graph with four nodes. -/
def c112Graph : KsatTables where
  used := [0, 1, 2, 3]
  clauses := [[(0, 1), (1, 1)], [(0, 1), (2, 1)], [(0, 1), (3, 1)], [(1, 1), (2, 1)], [(1, 1), (3, 1)], [(2, 1), (3, 1)]]
  conns := [[(0, 1), (1, 1), (2, 1)], [(0, 1), (3, 1), (4, 1)], [(1, 1), (3, 1), (5, 1)], [(2, 1), (4, 1), (5, 1)]]

theorem c112Graph_ok : KFormula 4 2 c112Graph.clauses c112Graph.used c112Graph.conns :=
  Proofs.kformula_of_checks (by decide) rfl (by decide) (by decide) (by decide) (by decide) (by decide)

theorem c112Graph_unmixed : Unmixed c112Graph.clauses (fun _ => 1) := by
  unfold Unmixed
  decide

/-- The nodes cost 4, 5, 6 and 7, so that there is only one cheapest cover. -/
def c112Costs (v : ℕ) : ℚ := 4 + v

theorem c112_run {N : ℕ} (hN : 1 ≤ N) : ∃ (res : KsatResult) (b : ℕ → ℚ),
    ksatCall 4 2 N false 0 (fin 0) id id false 0 [] c112Graph (listOf 4 (fun v => fin (c112Costs v))) = some res ∧
      res.beliefs = listOf 4 (fun v => fin (b v)) ∧
      (¬ Even N → (∀ c < 6, ∀ v ∈ varsOf c112Graph.clauses c, b v * ((1 : ℤ) : ℚ) < 0) ∧ res.post.sum.unsat = []) ∧
      (Even N → (∀ v ∈ [0, 1, 2, 3], b v = c112Costs v) ∧ res.post.sum.unsat = List.range 6) :=
  C112_often c112Graph_ok le_rfl c112Graph_unmixed c112Costs (Or.inl rfl) (fun l => List.Perm.refl l) (fun l => List.Perm.refl l) 0 (Or.inl rfl)
    (d := 2) (by decide) (by decide +kernel) (by decide +kernel) hN

/-- The claim: on formulas in which no variable occurs with both signs, all sufficiently long runs end in a satisfying assignment. -/
def C112_claim : Prop := ∀ (n k : ℕ) (t : KsatTables) (g : ℕ → ℤ) (w : ℕ → ℚ), KFormula n k t.clauses t.used t.conns → 2 ≤ k → Unmixed t.clauses g →
  (∀ v ∈ t.used, 0 < w v * g v) → (∀ u ∈ t.used, ∀ v ∈ t.used, u ≠ v → w u ≠ w v) → ∃ J, ∀ N ≥ J, ∀ res,
    ksatCall n k N false 0 (fin 0) id id false 0 [] t (listOf n (fun v => fin (w v))) = some res → res.post.sum.unsat = []

/-- C112, the claim fails, also with different costs: on the complete graph with four nodes every even number of iterations leaves all edges uncovered. -/
theorem C112_claim_false : ¬ C112_claim := by
  intro h
  obtain ⟨J, hJ⟩ := h 4 2 c112Graph (fun _ => 1) c112Costs c112Graph_ok le_rfl c112Graph_unmixed (by decide +kernel) (by decide +kernel)
  obtain ⟨res, b, h1, -, -, h2⟩ := c112_run (N := 2 * (J + 1)) (by omega)
  have h3 := hJ _ (by omega) res h1
  rw [(h2 ⟨J + 1, by ring⟩).2] at h3
  exact absurd h3 (by decide)

/-- C112, odd numbers: what holds of the claim for formulas without negations. -/
theorem C112_claim_partial (n k : ℕ) (t : KsatTables) (w : ℕ → ℚ) (hf : KFormula n k t.clauses t.used t.conns) (hk : 2 ≤ k) (hg : Unmixed t.clauses (fun _ => 1))
    (N : ℕ) (hN : ¬ Even N) (res : KsatResult) (hr : ksatCall n k N false 0 (fin 0) id id false 0 [] t (listOf n (fun v => fin (w v))) = some res) :
    res.post.sum.unsat = [] := by
  obtain ⟨res', h1, -, h2, -⟩ := C112_odd_plain hf hk hg w (flag := false) (alpha := 0) (Or.inl rfl) (order := id) (order' := id) (fun l => List.Perm.refl l) (fun l => List.Perm.refl l) false 0 (sol := []) (Or.inl rfl)
    (fun _ _ => rfl) le_rfl hN
  rw [h1] at hr
  rw [← Option.some.inj hr]
  exact h2

/-- The run itself: three iterations choose all nodes, four choose none. -/
example : ksatBeliefs 3 false 0 (ksatObject 4 2 c112Graph (listOf 4 (fun v => fin (c112Costs v)))) = some [fin (-14), fin (-12), fin (-10), fin (-8)] ∧
    ksatBeliefs 4 false 0 (ksatObject 4 2 c112Graph (listOf 4 (fun v => fin (c112Costs v)))) = some [fin 4, fin 5, fin 6, fin 7] := by
  decide +kernel

/-- With one cheap node nothing alternates in the end, and odd numbers of iterations are satisfying from the first on. -/
example : ∃ res, ksatCall 4 2 1001 false 0 (fin 0) id id true 5 [] c112Graph (listOf 4 (fun v => fin (if v = 0 then 1 else 9))) = some res ∧
    res.post.flag = true ∧ res.post.sum.unsat = [] ∧ res.requiredPP = false :=
  C112_odd_plain c112Graph_ok le_rfl c112Graph_unmixed (fun v => if v = 0 then 1 else 9) (Or.inl rfl) (fun l => List.Perm.refl l) (fun l => List.Perm.refl l) true 5 (Or.inl rfl)
    (fun _ _ => rfl) le_rfl (by decide)

/-- One clause listed three times, with a negated variable: `¬a ∨ b`. -/
def c112Copies : KsatTables where
  used := [0, 1]
  clauses := [[(0, -1), (1, 1)], [(0, -1), (1, 1)], [(0, -1), (1, 1)]]
  conns := [[(0, -1), (1, -1), (2, -1)], [(0, 1), (1, 1), (2, 1)]]

theorem c112Copies_ok : KFormula 2 2 c112Copies.clauses c112Copies.used c112Copies.conns :=
  Proofs.kformula_of_checks (by decide) rfl (by decide) (by decide) (by decide) (by decide) (by decide)

def c112Sign (v : ℕ) : ℤ := if v = 0 then -1 else 1

theorem c112Copies_unmixed : Unmixed c112Copies.clauses c112Sign := by
  unfold Unmixed
  decide

def c112CopyCosts (v : ℕ) : ℚ := if v = 0 then -2 else 3

/-- Listing a clause three times matters: no even number of iterations satisfies it, although one copy is satisfied from the second iteration on. -/
example (N : ℕ) (hN : 1 ≤ N) (he : Even N) : ∃ res,
    ksatCall 2 2 N false 0 (fin 0) id id false 0 [] c112Copies (listOf 2 (fun v => fin (c112CopyCosts v))) = some res ∧ res.post.sum.unsat = [0, 1, 2] := by
  obtain ⟨res, b, h1, -, -, h2⟩ := C112_often c112Copies_ok le_rfl c112Copies_unmixed c112CopyCosts (flag := false) (alpha := 0) (Or.inl rfl)
    (order := id) (order' := id) (fun l => List.Perm.refl l) (fun l => List.Perm.refl l) 0 (sol := []) (Or.inl rfl) (d := 2) (by decide) (by decide +kernel) (by decide +kernel) hN
  exact ⟨res, h1, (h2 he).2⟩

/-- The condition of `C112_odd` holds there for odd numbers, for instance three. -/
example : ∃ res, ksatCall 2 2 3 false 0 (fin 0) id id true 7 [] c112Copies (listOf 2 (fun v => fin (c112CopyCosts v))) = some res ∧
    res.post.flag = true ∧ res.post.sum.unsat = [] ∧ res.requiredPP = false ∧ ∀ v, v ∈ res.post.sum.active ↔ v ∈ [0, 1] ∧ (if v = 0 then (7 : ℚ) else -3) ≤ 0 :=
  C112_odd c112Copies_ok le_rfl c112Copies_unmixed c112CopyCosts (Or.inl rfl) (fun l => List.Perm.refl l) (fun l => List.Perm.refl l) true 7 (Or.inl rfl)
    (by decide) (b := fun v => if v = 0 then 7 else -3) (by decide +kernel) (by decide +kernel)

/-- One clause of two negated variables. -/
def c112Tie : KsatTables := ⟨[0, 1], [[(0, -1), (1, -1)]], [[(0, -1)], [(0, -1)]]⟩

/-- C112, the condition on zero beliefs is needed: with equal costs both beliefs are zero after one iteration, both variables are set to true and the clause is violated. -/
theorem C112_tie : KFormula 2 2 c112Tie.clauses c112Tie.used c112Tie.conns ∧ Unmixed c112Tie.clauses (fun _ => -1) ∧
    ksatBeliefs 1 false 0 (ksatObject 2 2 c112Tie [fin (-1), fin (-1)]) = some [fin 0, fin 0] ∧
    (ksatCall 2 2 1 false 0 (fin 0) id id false 0 [] c112Tie [fin (-1), fin (-1)]).map (fun r => r.post.sum.unsat) = some [0] := by
  refine ⟨Proofs.kformula_of_checks (by decide) rfl (by decide) (by decide) (by decide) (by decide) (by decide), ?_, ?_⟩
  · unfold Unmixed
    decide
  · decide +kernel

end Verif.Properties
