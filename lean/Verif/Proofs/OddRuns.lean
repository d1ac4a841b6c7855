import Verif.Proofs.Unmixed
import Verif.Proofs.KsatLocalCall

/-! Formulas without mixed variables: odd numbers of iterations satisfy every clause, even ones need not. -/

namespace Verif.Proofs
open Verif Num Spec Model Properties

section
variable {n k : ℕ} {t : KsatTables} (hf : KFormula n k t.clauses t.used t.conns) (hk : 2 ≤ k) {g : ℕ → ℤ} (hg : Unmixed t.clauses g) {w : ℕ → ℚ}
  {flag : Bool} {alpha : ℚ} {x r : ℕ → ℕ → ℕ → ℚ}
  (h : IsKsatTrace t.clauses.length k n ⟨t.clauses.length, k, litVar t⟩ ⟨t.clauses.length, k, litSign t⟩ w flag alpha
        (fun c v => if ∃ s < k, litVar t c s = v then w v else 0) x r) (hu : flag = false ∨ alpha = 0)

include hf hk hg h hu in
/-- From an even iteration to the next one, messages to clauses do not grow. -/
theorem unmixed_drop {K : ℕ} (hK : Even K) {c v : ℕ} (hc : c < t.clauses.length) (hv : v ∈ clauseVars k (litVar t c)) :
    x (K + 1) c v * g v ≤ x K c v * g v := by
  cases K with
  | zero =>
    rw [unmixed_init hf h hc hv, unmixed_var h 0 hc hv]
    have : ∑ c' ∈ (occurrences t.clauses.length k ⟨t.clauses.length, k, litVar t⟩ v).erase c, damped flag alpha (fun i => r i c' v * g v) 0 ≤ 0 := by
      refine Finset.sum_nonpos fun c' hc' => ?_
      obtain ⟨h1, h2⟩ := occ_vars (Finset.mem_of_mem_erase hc')
      rw [undamped_eq hu]
      exact unmixed_nonpos hf hk hg h 0 h1 h2
    linarith
  | succ K =>
    rw [unmixed_var h (K + 1) hc hv, unmixed_var h K hc hv]
    refine add_le_add le_rfl (Finset.sum_le_sum fun c' hc' => ?_)
    obtain ⟨h1, h2⟩ := occ_vars (Finset.mem_of_mem_erase hc')
    rw [undamped_eq hu, undamped_eq hu]
    exact (unmixed_bracket hf hk hg h hu K (K + 1) (by omega) c' h1 v h2).2 (Nat.even_add_one.mp hK)

include h hu in
/-- The belief is the message to a clause plus the answer. -/
theorem unmixed_split (K : ℕ) {c v : ℕ} (hc : c < t.clauses.length) (hv : v ∈ clauseVars k (litVar t c)) :
    (w v + ∑ c' ∈ occurrences t.clauses.length k ⟨t.clauses.length, k, litVar t⟩ v, damped flag alpha (fun i => r i c' v) K) * g v =
      x (K + 1) c v * g v + r K c v * g v := by
  have hm : c ∈ occurrences t.clauses.length k ⟨t.clauses.length, k, litVar t⟩ v := Finset.mem_filter.mpr ⟨Finset.mem_range.mpr hc, hv⟩
  rw [h.var K c hc v hv, ← Finset.sum_erase_add _ _ hm, undamped_eq hu (fun i => r i c v)]
  ring

include hf hk hg h hu in
/-- After an odd number of iterations every clause has a literal whose belief is on its side. -/
theorem unmixed_odd {K : ℕ} (hK : Even K) {c : ℕ} (hc : c < t.clauses.length) : ∃ v ∈ clauseVars k (litVar t c),
    (w v + ∑ c' ∈ occurrences t.clauses.length k ⟨t.clauses.length, k, litVar t⟩ v, damped flag alpha (fun i => r i c' v) K) * g v ≤ 0 := by
  have hne : (clauseVars k (litVar t c)).Nonempty := ⟨litVar t c 0, Finset.mem_image.mpr ⟨0, Finset.mem_range.mpr (by omega), rfl⟩⟩
  obtain ⟨v, hv, hmin⟩ := Finset.exists_min_image _ (fun u => x K c u * (g u : ℚ)) hne
  refine ⟨v, hv, ?_⟩
  rw [unmixed_split h hu K hc hv]
  have h1 := unmixed_drop hf hk hg h hu hK hc hv
  obtain ⟨u, hu', -, -, e⟩ := unmixed_closed hf hk hg h K hc hv
  have h2 := hmin u hu'
  have h3 : r K c v * g v ≤ -(x K c u * g u) := by rw [e]; exact min_le_left _ _
  linarith

variable (hpos : ∀ v ∈ t.used, 0 < w v * g v)
  (hcrowd : ∀ c < t.clauses.length, ∀ v ∈ varsOf t.clauses c, ∀ o : ℕ → ℕ, (∀ c' < t.clauses.length, v ∈ varsOf t.clauses c' → o c' ∈ varsOf t.clauses c' ∧ o c' ≠ v) →
    w v * g v ≤ ∑ c' ∈ ((Finset.range t.clauses.length).filter (fun c' => v ∈ varsOf t.clauses c')).erase c, w (o c') * g (o c'))

include hf in
theorem occ_eq (v : ℕ) : occurrences t.clauses.length k ⟨t.clauses.length, k, litVar t⟩ v =
    (Finset.range t.clauses.length).filter (fun c => v ∈ varsOf t.clauses c) :=
  Finset.filter_congr fun c hc => by rw [← clauseVars_eq hf (Finset.mem_range.mp hc)]

include hf hk hg h hu hpos hcrowd in
theorem crowded_step {K : ℕ} (hx : ∀ c < t.clauses.length, ∀ v ∈ clauseVars k (litVar t c), x K c v = w v) {c v : ℕ} (hc : c < t.clauses.length)
    (hv : v ∈ clauseVars k (litVar t c)) : x (K + 1) c v * g v ≤ 0 ∧ r K c v * g v < 0 := by
  have hcl : ∀ c' < t.clauses.length, v ∈ varsOf t.clauses c' → ∃ u, (u ∈ varsOf t.clauses c' ∧ u ≠ v) ∧ r K c' v * g v = -(w u * g u) ∧ 0 < w u * g u := by
    intro c' hc' hv'
    rw [← clauseVars_eq hf hc'] at hv'
    obtain ⟨u, hu1, hu2, -, e⟩ := unmixed_closed hf hk hg h K hc' hv'
    have hp := hpos u (vars_used hf hc' (by rw [← clauseVars_eq hf hc']; exact hu1))
    refine ⟨u, ⟨by rw [← clauseVars_eq hf hc']; exact hu1, hu2⟩, ?_, hp⟩
    rw [e, hx c' hc' u hu1]
    exact min_eq_left (by linarith)
  choose! o ho1 ho2 ho3 using hcl
  have hv2 : v ∈ varsOf t.clauses c := by rw [← clauseVars_eq hf hc]; exact hv
  constructor
  · have h1 := hcrowd c hc v hv2 o ho1
    rw [unmixed_var h K hc hv, occ_eq hf]
    have h2 : ∑ c' ∈ ((Finset.range t.clauses.length).filter (fun c => v ∈ varsOf t.clauses c)).erase c, damped flag alpha (fun i => r i c' v * g v) K =
        -∑ c' ∈ ((Finset.range t.clauses.length).filter (fun c => v ∈ varsOf t.clauses c)).erase c, w (o c') * g (o c') := by
      rw [← Finset.sum_neg_distrib]
      refine Finset.sum_congr rfl fun c' hc' => ?_
      obtain ⟨h1, h2⟩ := Finset.mem_filter.mp (Finset.mem_of_mem_erase hc')
      rw [undamped_eq hu]
      exact ho2 c' (Finset.mem_range.mp h1) h2
    rw [h2]
    linarith
  · have h1 := ho2 c hc hv2
    have h2 := ho3 c hc hv2
    linarith

include hf hk hg h in
theorem crowded_back {K : ℕ} (hx : ∀ c < t.clauses.length, ∀ v ∈ clauseVars k (litVar t c), x K c v * g v ≤ 0) {c v : ℕ} (hc : c < t.clauses.length)
    (hv : v ∈ clauseVars k (litVar t c)) : r K c v = 0 := by
  obtain ⟨u, hu1, -, -, e⟩ := unmixed_closed hf hk hg h K hc hv
  have := hx c hc u hu1
  rw [min_eq_right (by linarith)] at e
  rcases unmixed_one hf hg hc hv with e' | e' <;> rw [e'] at e <;> push_cast at e <;> linarith

include hf hk hg h hu hpos hcrowd in
/-- Messages of a crowded formula alternate. -/
theorem crowded_run (m : ℕ) : (∀ c < t.clauses.length, ∀ v ∈ clauseVars k (litVar t c), x (2 * m) c v = w v) ∧
    (∀ c < t.clauses.length, ∀ v ∈ clauseVars k (litVar t c), r (2 * m + 1) c v = 0) := by
  have hodd : ∀ m, (∀ c < t.clauses.length, ∀ v ∈ clauseVars k (litVar t c), x (2 * m) c v = w v) →
      ∀ c < t.clauses.length, ∀ v ∈ clauseVars k (litVar t c), r (2 * m + 1) c v = 0 := fun m hx c hc v hv =>
    crowded_back hf hk hg h (fun c hc v hv => (crowded_step hf hk hg h hu hpos hcrowd hx hc hv).1) hc hv
  induction m with
  | zero =>
    have h0 : ∀ c < t.clauses.length, ∀ v ∈ clauseVars k (litVar t c), x (2 * 0) c v = w v := fun c hc v hv => unmixed_init hf h hc hv
    exact ⟨h0, hodd 0 h0⟩
  | succ m ih =>
    have h0 : ∀ c < t.clauses.length, ∀ v ∈ clauseVars k (litVar t c), x (2 * (m + 1)) c v = w v := by
      intro c hc v hv
      rw [show 2 * (m + 1) = 2 * m + 1 + 1 by ring, h.var (2 * m + 1) c hc v hv, Finset.sum_eq_zero, add_zero]
      intro c' hc'
      obtain ⟨h1, h2⟩ := occ_vars (Finset.mem_of_mem_erase hc')
      rw [undamped_eq hu]
      exact ih.2 c' h1 v h2
    exact ⟨h0, hodd _ h0⟩

end

section
variable {n k : ℕ} {t : KsatTables} (hf : KFormula n k t.clauses t.used t.conns)
include hf

/-- What a call reports, from the beliefs, when post-processing is off or not needed. -/
theorem call_report (hk : 2 ≤ k) {K : ℕ} {flag : Bool} {alpha thr : ℚ} {order order' : List ℕ → List ℕ} (ho : ∀ l, (order l).Perm l) (ho' : ∀ l, (order' l).Perm l)
    {post : Bool} {pp : ℕ} {sol : List Bool} (hs : sol = [] ∨ sol.length = n) {w b : ℕ → ℚ}
    (hb : ksatBeliefs (K + 1) flag alpha (ksatObject n k t (listOf n (fun v => fin (w v)))) = some (listOf n (fun v => fin (b v))))
    (hp : post = false ∨ violated t.clauses (fun v => decide (b v ≤ thr)) = []) :
    ∃ res, ksatCall n k (K + 1) flag alpha (fin thr) order order' post pp sol t (listOf n (fun v => fin (w v))) = some res ∧
      res.beliefs = listOf n (fun v => fin (b v)) ∧ res.requiredPP = false ∧
      (res.post.flag = true ↔ violated t.clauses (fun v => decide (b v ≤ thr)) = []) ∧
      res.post.sum.unsat = violated t.clauses (fun v => decide (b v ≤ thr)) ∧ ∀ v, v ∈ res.post.sum.active ↔ v ∈ t.used ∧ b v ≤ thr := by
  obtain ⟨res, b', c1, c2, -, -, d1, d2, c3, c4, c5, c6, -⟩ := C53_call hf hk w flag alpha thr ho ho' post pp hs K
  have e : res.beliefs = listOf n (fun v => fin (b v)) := by
    unfold ksatCall at c1
    rw [hb] at c1
    simp only [Option.bind_eq_bind, Option.bind_some] at c1
    obtain ⟨first, -, c1⟩ := Option.bind_eq_some_iff.mp c1
    obtain ⟨st, -, c1⟩ := Option.bind_eq_some_iff.mp c1
    obtain ⟨sim, -, c1⟩ := Option.bind_eq_some_iff.mp c1
    rw [← Option.some.inj c1]
  have hbb : ∀ v ∈ t.used, b' v = b v := by
    intro v hv
    rw [c2] at e
    have hvn := hf.tables.used_lt v hv
    have := congrArg (fun l => l[v]?) e
    simpa [listOf, hvn] using this
  have hviol : violated t.clauses (fun v => decide (b' v ≤ thr)) = violated t.clauses (fun v => decide (b v ≤ thr)) :=
    violated_congr hf fun v hv => by rw [hbb v hv]
  have hpp : res.requiredPP = false := by
    rcases h : res.requiredPP with _ | _
    · rfl
    · obtain ⟨h1, h2⟩ := c5.mp h
      rw [hviol] at h2
      rcases hp with h3 | h3
      · rw [h3] at h1; cases h1
      · exact absurd h3 h2
  have hval : violated t.clauses (asgn res.post.hard) = violated t.clauses (fun v => decide (b v ≤ thr)) :=
    violated_congr hf fun v hv => by rw [c6 hpp v hv, hbb v hv]
  refine ⟨res, c1, e, hpp, by rw [d1, hval], by rw [d2, hval], fun v => ?_⟩
  rw [c3]
  refine and_congr_right fun hv => ?_
  rw [c6 hpp v hv, hbb v hv, decide_eq_true_eq]

theorem unmixed_mem {g : ℕ → ℤ} (hg : Unmixed t.clauses g) {c v : ℕ} (hc : c < t.clauses.length) (hv : v ∈ varsOf t.clauses c) :
    (v, g v) ∈ t.clauses.getD c [] := by
  obtain ⟨l, hl, rfl⟩ := List.mem_map.mp (List.mem_toFinset.mp hv)
  rw [← hg _ (getD_mem hf hc) l hl]
  exact hl

/-- A literal on the right side of the threshold in every clause. -/
theorem unmixed_satisfied {g : ℕ → ℤ} (hg : Unmixed t.clauses g) {σ : ℕ → Bool}
    (h : ∀ c < t.clauses.length, ∃ v ∈ varsOf t.clauses c, (g v = 1 ∧ σ v = true) ∨ (g v = -1 ∧ σ v = false)) : violated t.clauses σ = [] := by
  unfold violated
  rw [List.filter_eq_nil_iff]
  intro c hc
  have hc := List.mem_range.mp hc
  obtain ⟨v, hv, h1⟩ := h c hc
  rw [decide_eq_true_eq]
  exact fun h2 => h2 _ (unmixed_mem hf hg hc hv) h1

/-- All literals false: all clauses are violated. -/
theorem unmixed_violated {g : ℕ → ℤ} (hg : Unmixed t.clauses g) {σ : ℕ → Bool}
    (h : ∀ v ∈ t.used, ¬ ((g v = 1 ∧ σ v = true) ∨ (g v = -1 ∧ σ v = false))) : violated t.clauses σ = List.range t.clauses.length := by
  unfold violated
  rw [List.filter_eq_self]
  intro c hc
  have hc := List.mem_range.mp hc
  rw [decide_eq_true_eq]
  intro l hl h1
  have hv : l.1 ∈ varsOf t.clauses c := List.mem_toFinset.mpr (List.mem_map_of_mem hl)
  refine h l.1 (vars_used hf hc hv) ?_
  unfold LitTrue at h1
  rw [hg _ (getD_mem hf hc) l hl] at h1
  exact h1

end

section
variable {n k : ℕ} {t : KsatTables} (hf : KFormula n k t.clauses t.used t.conns) (hk : 2 ≤ k) {g : ℕ → ℤ} (hg : Unmixed t.clauses g) {w : ℕ → ℚ}
  {flag : Bool} {alpha : ℚ} (hu : flag = false ∨ alpha = 0)
include hf hk hg hu

/-- Beliefs without damping, read as costs of making the literal true, never exceed the own cost. -/
theorem even_own_cost {N : ℕ} (hN : 1 ≤ N) {b : ℕ → ℚ}
    (hb : ksatBeliefs N flag alpha (ksatObject n k t (listOf n (fun v => fin (w v)))) = some (listOf n (fun v => fin (b v)))) {v : ℕ} (hv : v ∈ t.used) :
    b v * g v ≤ w v * g v := by
  obtain ⟨x, r, h, hb'⟩ := call_trace hf hk w flag alpha
  obtain ⟨K, rfl⟩ : ∃ K, N = K + 1 := ⟨N - 1, by omega⟩
  have e := hb' K
  rw [hb] at e
  have e := congrArg (fun l => l[v]?) (Option.some.inj e)
  simp only [listOf, List.getElem?_map, List.getElem?_range (hf.tables.used_lt v hv), Option.map_some, Option.some.injEq, Num.fin.injEq, if_pos hv] at e
  rw [e, add_mul, Finset.sum_mul]
  have : ∑ c ∈ occurrences t.clauses.length k ⟨t.clauses.length, k, litVar t⟩ v, damped flag alpha (fun i => r i c v) K * g v ≤ 0 := by
    refine Finset.sum_nonpos fun c hc => ?_
    obtain ⟨h1, h2⟩ := occ_vars hc
    rw [undamped_eq hu]
    exact unmixed_nonpos hf hk hg h K h1 h2
  linarith

omit hk hu in
theorem even_literal {S : Finset ℕ} (hsat : Satisfies t.clauses S) {c : ℕ} (hc : c < t.clauses.length) : ∃ v ∈ varsOf t.clauses c,
    (g v = 1 ∧ decide (v ∈ S) = true) ∨ (g v = -1 ∧ decide (v ∈ S) = false) := by
  unfold Satisfies violated at hsat
  rw [List.filter_eq_nil_iff] at hsat
  have h1 := hsat c (List.mem_range.mpr hc)
  rw [decide_eq_true_eq] at h1
  push Not at h1
  obtain ⟨l, hl, h2⟩ := h1
  unfold LitTrue at h2
  rw [hg _ (getD_mem hf hc) l hl] at h2
  exact ⟨l.1, List.mem_toFinset.mpr (List.mem_map_of_mem hl), h2⟩

end

end Verif.Proofs
