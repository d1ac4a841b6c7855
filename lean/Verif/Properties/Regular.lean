import Verif.Proofs.Regular
import Verif.Properties.OddRuns

/-! # C113: damping and formulas in which all variables look alike -/

namespace Verif.Properties
open Verif Num Spec Model

section
variable {n k : ℕ} {t : KsatTables} (hf : KFormula n k t.clauses t.used t.conns) (hk : 2 ≤ k) {g : ℕ → ℤ} (hg : Unmixed t.clauses g) {w : ℕ → ℚ}
  {a : ℚ} (hw : ∀ v ∈ t.used, w v * g v = a) {d : ℕ}
  (hd : ∀ c < t.clauses.length, ∀ v ∈ varsOf t.clauses c, ((Finset.range t.clauses.length).filter (fun c => v ∈ varsOf t.clauses c)).card = d)
include hf hk hg hw hd

/-- C113.  If no variable occurs with both signs, all variables of the formula occur equally often and all literals cost the same, then all beliefs, read as costs of
making the literal true, are equal, with and without damping, after every number of iterations. -/
theorem C113_equal (flag : Bool) (alpha : ℚ) : ∃ β : ℕ → ℚ, ∀ N ≥ 1, ∃ b : ℕ → ℚ,
    ksatBeliefs N flag alpha (ksatObject n k t (listOf n (fun v => fin (w v)))) = some (listOf n (fun v => fin (b v))) ∧
    ∀ c < t.clauses.length, ∀ v ∈ varsOf t.clauses c, b v * g v = β N := by
  obtain ⟨x, r, h, hb⟩ := Proofs.call_trace hf hk w flag alpha
  obtain ⟨X, R, -, -, -, hall⟩ := Proofs.regular_run hf hk hg h hw hd
  refine ⟨fun N => a + d * damped flag alpha R (N - 1), fun N hN => ?_⟩
  obtain ⟨K, rfl⟩ : ∃ K, N = K + 1 := ⟨N - 1, by omega⟩
  refine ⟨_, hb K, fun c hc v hv => ?_⟩
  have hvu := Proofs.vars_used hf hc hv
  exact Proofs.regular_belief hf (fun j c hc v hv => (hall j c hc v hv).2) K hvu (hw v hvu) (hd c hc v hv)

/-- C113, the value: with damping factor `alpha` and `d` occurrences of each variable, where `(1 - alpha) * (d - 1)` is at most one, the common belief after `N`
iterations is the cost times the `N`-th power of `1 - d * (1 - alpha)`. -/
theorem C113_value (ha : 0 ≤ a) {alpha : ℚ} (h0 : 0 ≤ alpha) (h1 : alpha ≤ 1) (hda : (1 - alpha) * ((d : ℚ) - 1) ≤ 1) {N : ℕ} (hN : 1 ≤ N) : ∃ b : ℕ → ℚ,
    ksatBeliefs N true alpha (ksatObject n k t (listOf n (fun v => fin (w v)))) = some (listOf n (fun v => fin (b v))) ∧
    ∀ c < t.clauses.length, ∀ v ∈ varsOf t.clauses c, b v * g v = a * (1 - d * (1 - alpha)) ^ N := by
  obtain ⟨x, r, h, hb⟩ := Proofs.call_trace hf hk w true alpha
  obtain ⟨X, R, hX0, hR, hX, hall⟩ := Proofs.regular_run hf hk hg h hw hd
  obtain ⟨K, rfl⟩ : ∃ K, N = K + 1 := ⟨N - 1, by omega⟩
  refine ⟨_, hb K, fun c hc v hv => ?_⟩
  have hvu := Proofs.vars_used hf hc hv
  have hd1 : (1 : ℚ) ≤ d := by
    have : 1 ≤ d := by
      rw [← hd c hc v hv]
      exact Finset.card_pos.mpr ⟨c, Finset.mem_filter.mpr ⟨Finset.mem_range.mpr hc, hv⟩⟩
    exact_mod_cast this
  rw [← Proofs.regular_closed ha h0 h1 hd1 hda hX0 hR hX K]
  exact Proofs.regular_belief hf (fun j c hc v hv => (hall j c hc v hv).2) K hvu (hw v hvu) (hd c hc v hv)

variable {order order' : List ℕ → List ℕ} (ho : ∀ l, (order l).Perm l) (ho' : ∀ l, (order' l).Perm l) (pp : ℕ)
  {sol : List Bool} (hs : sol = [] ∨ sol.length = n)
include ho ho' hs

/-- C113, decisions: if moreover all literals are plain, or all are negated, then the call without post-processing satisfies all clauses or violates all of them, for every threshold, damping
factor and number of iterations. -/
theorem C113_all_or_none (hsame : (∀ v ∈ t.used, g v = 1) ∨ ∀ v ∈ t.used, g v = -1) (flag : Bool) (alpha thr : ℚ) {N : ℕ} (hN : 1 ≤ N) : ∃ res,
    ksatCall n k N flag alpha (fin thr) order order' false pp sol t (listOf n (fun v => fin (w v))) = some res ∧
    (res.post.sum.unsat = [] ∨ res.post.sum.unsat = List.range t.clauses.length) := by
  obtain ⟨β, hβ⟩ := C113_equal hf hk hg hw hd flag alpha
  obtain ⟨b, hb, he⟩ := hβ N hN
  obtain ⟨K, rfl⟩ : ∃ K, N = K + 1 := ⟨N - 1, by omega⟩
  obtain ⟨res, h1, -, -, -, h4, -⟩ := Proofs.call_report hf hk ho ho' (post := false) (pp := pp) hs (thr := thr) hb (Or.inl rfl)
  refine ⟨res, h1, ?_⟩
  rw [h4]
  have hne : ∀ c < t.clauses.length, ∃ v, v ∈ varsOf t.clauses c := fun c hc => ⟨Proofs.litVar t c 0, by
    rw [← Proofs.clauseVars_eq hf hc]; exact Finset.mem_image.mpr ⟨0, Finset.mem_range.mpr (by omega), rfl⟩⟩
  have hall : ∀ σ : ℕ → Bool, (∀ c < t.clauses.length, ∀ v ∈ varsOf t.clauses c, ¬ ((g v = 1 ∧ σ v = true) ∨ (g v = -1 ∧ σ v = false))) →
      violated t.clauses σ = List.range t.clauses.length := by
    intro σ h
    unfold violated
    rw [List.filter_eq_self]
    intro c hc
    have hc := List.mem_range.mp hc
    rw [decide_eq_true_eq]
    intro l hl h2
    refine h c hc l.1 (List.mem_toFinset.mpr (List.mem_map_of_mem hl)) ?_
    unfold LitTrue at h2
    rw [hg _ (Proofs.getD_mem hf hc) l hl] at h2
    exact h2
  rcases hsame with hp | hm
  · have hb' : ∀ c < t.clauses.length, ∀ v ∈ varsOf t.clauses c, g v = 1 ∧ b v = β (K + 1) := fun c hc v hv => by
      have e := hp v (Proofs.vars_used hf hc hv)
      have := he c hc v hv
      rw [e] at this
      push_cast at this
      exact ⟨e, by linarith⟩
    by_cases hle : β (K + 1) ≤ thr
    · refine Or.inl (Proofs.unmixed_satisfied hf hg fun c hc => ?_)
      obtain ⟨v, hv⟩ := hne c hc
      exact ⟨v, hv, Or.inl ⟨(hb' c hc v hv).1, decide_eq_true (by rw [(hb' c hc v hv).2]; exact hle)⟩⟩
    · refine Or.inr (hall _ fun c hc v hv => ?_)
      rw [(hb' c hc v hv).1, (hb' c hc v hv).2, decide_eq_false hle]
      decide
  · have hb' : ∀ c < t.clauses.length, ∀ v ∈ varsOf t.clauses c, g v = -1 ∧ b v = -β (K + 1) := fun c hc v hv => by
      have e := hm v (Proofs.vars_used hf hc hv)
      have := he c hc v hv
      rw [e] at this
      push_cast at this
      exact ⟨e, by linarith⟩
    by_cases hle : -β (K + 1) ≤ thr
    · refine Or.inr (hall _ fun c hc v hv => ?_)
      rw [(hb' c hc v hv).1, (hb' c hc v hv).2, decide_eq_true hle]
      decide
    · refine Or.inl (Proofs.unmixed_satisfied hf hg fun c hc => ?_)
      obtain ⟨v, hv⟩ := hne c hc
      exact ⟨v, hv, Or.inr ⟨(hb' c hc v hv).1, decide_eq_false (by rw [(hb' c hc v hv).2]; exact hle)⟩⟩

/-- C113, damping does not help: if literals cost something, then with heavy damping (`d * (1 - alpha)` below one) after every number of iterations, and with any other
damping factor within the bound after every even number, all clauses are violated.  (If `d * (1 - alpha)` is one, the beliefs are zero and negated literals are still made false.) -/
theorem C113_violated (ha : 0 < a) {alpha : ℚ} (h0 : 0 ≤ alpha) (h1 : alpha ≤ 1) (hda : (1 - alpha) * ((d : ℚ) - 1) ≤ 1) {N : ℕ} (hN : 1 ≤ N)
    (hside : d * (1 - alpha) < 1 ∨ Even N ∧ (d * (1 - alpha) ≠ 1 ∨ ∀ v ∈ t.used, g v = -1)) : ∃ res,
    ksatCall n k N true alpha (fin 0) order order' false pp sol t (listOf n (fun v => fin (w v))) = some res ∧
    res.post.sum.unsat = List.range t.clauses.length := by
  obtain ⟨b, hb, he⟩ := C113_value hf hk hg hw hd ha.le h0 h1 hda hN
  obtain ⟨K, rfl⟩ : ∃ K, N = K + 1 := ⟨N - 1, by omega⟩
  obtain ⟨res, r1, -, -, -, r4, -⟩ := Proofs.call_report hf hk ho ho' (post := false) (pp := pp) hs (thr := 0) hb (Or.inl rfl)
  refine ⟨res, r1, ?_⟩
  rw [r4]
  unfold violated
  rw [List.filter_eq_self]
  intro c hc
  have hc := List.mem_range.mp hc
  rw [decide_eq_true_eq]
  intro l hl h2
  have hv : l.1 ∈ varsOf t.clauses c := List.mem_toFinset.mpr (List.mem_map_of_mem hl)
  have hvu := Proofs.vars_used hf hc hv
  unfold LitTrue at h2
  rw [hg _ (Proofs.getD_mem hf hc) l hl] at h2
  have hbv := he c hc l.1 hv
  have hpow : 0 ≤ (1 - (d : ℚ) * (1 - alpha)) ^ (K + 1) := by
    rcases hside with h | h
    · exact pow_nonneg (by linarith) _
    · exact h.1.pow_nonneg _
  rcases h2 with ⟨e, hσ⟩ | ⟨e, hσ⟩
  · have hσ := of_decide_eq_true hσ
    have hne : 1 - (d : ℚ) * (1 - alpha) ≠ 0 := by
      rcases hside with h | ⟨-, h | h⟩
      · intro h'; linarith
      · intro h'; exact h (by linarith)
      · rw [h l.1 hvu] at e
        exact absurd e (by decide)
    have hlt : 0 < (1 - (d : ℚ) * (1 - alpha)) ^ (K + 1) := lt_of_le_of_ne hpow (Ne.symm (pow_ne_zero _ hne))
    rw [e] at hbv
    push_cast at hbv
    have := mul_pos ha hlt
    linarith
  · have hσ := of_decide_eq_false hσ
    rw [e] at hbv
    push_cast at hbv
    have := mul_nonneg ha.le hpow
    exact hσ (by linarith)

end

/-! ## A triangle of negated variables -/

/-- At most one of three variables: `(¬a ∨ ¬b) ∧ (¬b ∨ ¬c) ∧ (¬a ∨ ¬c)`. -/
def c113Triangle : KsatTables where
  used := [0, 1, 2]
  clauses := [[(0, -1), (1, -1)], [(1, -1), (2, -1)], [(0, -1), (2, -1)]]
  conns := [[(0, -1), (2, -1)], [(0, -1), (1, -1)], [(1, -1), (2, -1)]]

theorem c113Triangle_ok : KFormula 3 2 c113Triangle.clauses c113Triangle.used c113Triangle.conns :=
  Proofs.kformula_of_checks (by decide) rfl (by decide) (by decide) (by decide) (by decide) (by decide)

theorem c113Triangle_unmixed : Unmixed c113Triangle.clauses (fun _ => -1) := by
  unfold Unmixed
  decide

/-- The claim: there is a damping factor with which all sufficiently long runs on formulas in which no variable occurs with both signs satisfy the formula. -/
def C113_claim : Prop := ∃ alpha : ℚ, 0 ≤ alpha ∧ alpha ≤ 1 ∧ ∀ (n k : ℕ) (t : KsatTables) (g : ℕ → ℤ) (w : ℕ → ℚ), KFormula n k t.clauses t.used t.conns → 2 ≤ k →
  Unmixed t.clauses g → (∀ v ∈ t.used, 0 < w v * g v) → ∃ J, ∀ N ≥ J, ∀ res,
    ksatCall n k N true alpha (fin 0) id id false 0 [] t (listOf n (fun v => fin (w v))) = some res → res.post.sum.unsat = []

/-- C113, the claim fails for all damping factors: on the triangle no even number of iterations satisfies any clause. -/
theorem C113_claim_false : ¬ C113_claim := by
  rintro ⟨alpha, h0, h1, h⟩
  obtain ⟨J, hJ⟩ := h 3 2 c113Triangle (fun _ => -1) (fun _ => -1) c113Triangle_ok le_rfl c113Triangle_unmixed (fun _ _ => by norm_num)
  obtain ⟨res, r1, r2⟩ := C113_violated c113Triangle_ok le_rfl c113Triangle_unmixed (w := fun _ => -1) (a := 1) (fun _ _ => by norm_num) (d := 2) (by decide)
    (order := id) (order' := id) (fun l => List.Perm.refl l) (fun l => List.Perm.refl l) 0 (sol := []) (Or.inl rfl) one_pos h0 h1 (by push_cast; linarith)
    (N := 2 * (J + 1)) (by omega) (Or.inr ⟨⟨J + 1, by ring⟩, Or.inr fun _ _ => rfl⟩)
  have := hJ _ (by omega) res r1
  rw [r2] at this
  exact absurd this (by decide)

/-- Damping three quarters on the triangle: the beliefs halve and no iteration satisfies a clause. -/
example (N : ℕ) (hN : 1 ≤ N) : ∃ res, ksatCall 3 2 N true (3 / 4) (fin 0) id id false 0 [] c113Triangle (listOf 3 (fun _ => fin (-1))) = some res ∧
    res.post.sum.unsat = [0, 1, 2] :=
  C113_violated c113Triangle_ok le_rfl c113Triangle_unmixed (w := fun _ => -1) (a := 1) (fun _ _ => by norm_num) (d := 2) (by decide)
    (fun l => List.Perm.refl l) (fun l => List.Perm.refl l) 0 (Or.inl rfl) one_pos (by norm_num) (by norm_num) (by norm_num) hN (Or.inl (by norm_num))

example : ksatBeliefs 3 true (3 / 4) (ksatObject 3 2 c113Triangle (listOf 3 (fun _ => fin (-1)))) = some (listOf 3 (fun _ => fin (-1 / 8))) := by decide +kernel

/-- The complete graph with four nodes (three occurrences each), equal costs and damping one half: the beliefs are powers of minus one half. -/
example (N : ℕ) (hN : 1 ≤ N) : ∃ b : ℕ → ℚ,
    ksatBeliefs N true (1 / 2) (ksatObject 4 2 c112Graph (listOf 4 (fun _ => fin 6))) = some (listOf 4 (fun v => fin (b v))) ∧ b 0 = 6 * (-1 / 2) ^ N := by
  obtain ⟨b, h1, h2⟩ := C113_value c112Graph_ok le_rfl c112Graph_unmixed (w := fun _ => 6) (a := 6) (fun _ _ => by norm_num) (d := 3) (by decide) (by norm_num)
    (alpha := 1 / 2) (by norm_num) (by norm_num) (by norm_num) hN
  refine ⟨b, h1, ?_⟩
  have := h2 0 (by decide) 0 (by decide)
  norm_num at this
  norm_num
  exact this

/-- All or none on the complete graph with four nodes. -/
example (alpha : ℚ) (N : ℕ) (hN : 1 ≤ N) : ∃ res, ksatCall 4 2 N true alpha (fin 1) id id false 0 [] c112Graph (listOf 4 (fun _ => fin 6)) = some res ∧
    (res.post.sum.unsat = [] ∨ res.post.sum.unsat = [0, 1, 2, 3, 4, 5]) :=
  C113_all_or_none c112Graph_ok le_rfl c112Graph_unmixed (w := fun _ => 6) (a := 6) (fun _ _ => by norm_num) (d := 3) (by decide)
    (fun l => List.Perm.refl l) (fun l => List.Perm.refl l) 0 (Or.inl rfl) (Or.inl fun _ _ => rfl) true alpha 1 hN

end Verif.Properties
