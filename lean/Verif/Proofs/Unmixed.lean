import Verif.Proofs.KsatStable
import Verif.Spec.Unmixed

/-! Formulas without mixed variables: messages, read as costs of satisfying the literal, bracket all later ones. -/

namespace Verif.Proofs
open Verif Num Spec Model Properties

section
variable {n k : ℕ} {t : KsatTables} (hf : KFormula n k t.clauses t.used t.conns) (hk : 2 ≤ k) {g : ℕ → ℤ} (hg : Unmixed t.clauses g) {w : ℕ → ℚ}
  {flag : Bool} {alpha : ℚ} {x r : ℕ → ℕ → ℕ → ℚ}
  (h : IsKsatTrace t.clauses.length k n ⟨t.clauses.length, k, litVar t⟩ ⟨t.clauses.length, k, litSign t⟩ w flag alpha
        (fun c v => if ∃ s < k, litVar t c s = v then w v else 0) x r)

include hf hg in
theorem unmixed_sign {c s : ℕ} (hc : c < t.clauses.length) (hs : s < k) : litSign t c s = g (litVar t c s) := hg _ (getD_mem hf hc) _ (lit_mem hf hc hs)

include hf hg in
theorem unmixed_one {c v : ℕ} (hc : c < t.clauses.length) (hv : v ∈ clauseVars k (litVar t c)) : g v = 1 ∨ g v = -1 := by
  obtain ⟨s, hs, rfl⟩ := Finset.mem_image.mp hv
  rw [← unmixed_sign hf hg hc (Finset.mem_range.mp hs)]
  exact lit_sign hf hc (Finset.mem_range.mp hs)

include hf hk hg h in
theorem unmixed_closed (j : ℕ) {c v : ℕ} (hc : c < t.clauses.length) (hv : v ∈ clauseVars k (litVar t c)) :
    ∃ u ∈ clauseVars k (litVar t c), u ≠ v ∧ (∀ u' ∈ clauseVars k (litVar t c), u' ≠ v → x j c u * g u ≤ x j c u' * g u') ∧
      r j c v * g v = min (-(x j c u * g u)) 0 := by
  have hm := h.clause j c hc v hv
  obtain ⟨s, hs, rfl⟩ := Finset.mem_image.mp hv
  have hs := Finset.mem_range.mp hs
  obtain ⟨i, hi, his, hmin, hq⟩ := clause_closed (lit_inj hf hc) (fun _ hs => lit_sign hf hc hs) hk hs hm
  refine ⟨litVar t c i, Finset.mem_image.mpr ⟨i, Finset.mem_range.mpr hi, rfl⟩, fun e => his (lit_inj hf hc i hi s hs e), ?_, ?_⟩
  · intro u' hu' hne
    obtain ⟨s', hs', rfl⟩ := Finset.mem_image.mp hu'
    have hs' := Finset.mem_range.mp hs'
    have := hmin s' hs' (fun e => hne (by rw [e]))
    rw [unmixed_sign hf hg hc hi, unmixed_sign hf hg hc hs'] at this
    exact this
  · rw [unmixed_sign hf hg hc hi, unmixed_sign hf hg hc hs] at hq
    rw [hq]
    rcases unmixed_one hf hg hc hv with e | e <;> rw [e] <;> simp

include hf hk hg h in
theorem unmixed_nonpos (j : ℕ) {c v : ℕ} (hc : c < t.clauses.length) (hv : v ∈ clauseVars k (litVar t c)) : r j c v * g v ≤ 0 := by
  obtain ⟨u, _, _, _, e⟩ := unmixed_closed hf hk hg h j hc hv
  rw [e]
  exact min_le_right _ _

include hf hk hg h in
/-- A clause asks less of a variable when the others cost less. -/
theorem unmixed_antitone {i j : ℕ} {c v : ℕ} (hc : c < t.clauses.length) (hv : v ∈ clauseVars k (litVar t c))
    (hx : ∀ u ∈ clauseVars k (litVar t c), x i c u * g u ≤ x j c u * g u) : r j c v * g v ≤ r i c v * g v := by
  obtain ⟨u, hu, hne, hmin, e⟩ := unmixed_closed hf hk hg h i hc hv
  obtain ⟨u', hu', hne', _, e'⟩ := unmixed_closed hf hk hg h j hc hv
  rw [e, e']
  have h1 := hmin u' hu' hne'
  have h2 := hx u' hu'
  exact min_le_min_right _ (by linarith)

theorem damped_scale (flag : Bool) (alpha : ℚ) (r : ℕ → ℚ) (a : ℚ) (k : ℕ) : damped flag alpha r k * a = damped flag alpha (fun i => r i * a) k := by
  have := damped_smul flag alpha a r k
  rw [mul_comm, ← this]
  congr 1
  funext i
  ring

include h in
theorem unmixed_var (j : ℕ) {c v : ℕ} (hc : c < t.clauses.length) (hv : v ∈ clauseVars k (litVar t c)) :
    x (j + 1) c v * g v = w v * g v + ∑ c' ∈ (occurrences t.clauses.length k ⟨t.clauses.length, k, litVar t⟩ v).erase c,
      damped flag alpha (fun i => r i c' v * g v) j := by
  rw [h.var j c hc v hv, add_mul, Finset.sum_mul]
  simp only [damped_scale]

include hf h in
theorem unmixed_init {c v : ℕ} (hc : c < t.clauses.length) (hv : v ∈ clauseVars k (litVar t c)) : x 0 c v = w v := by
  have hu : v ∈ t.used := vars_used hf hc (by rw [← clauseVars_eq hf hc]; exact hv)
  rw [h.init c hc v (hf.tables.used_lt v hu), if_pos (by simpa [clauseVars] using hv)]

theorem occ_vars {c v : ℕ} (hc : c ∈ occurrences t.clauses.length k ⟨t.clauses.length, k, litVar t⟩ v) : c < t.clauses.length ∧ v ∈ clauseVars k (litVar t c) := by
  obtain ⟨h1, h2⟩ := Finset.mem_filter.mp hc
  exact ⟨Finset.mem_range.mp h1, h2⟩

include hf hk hg h in
/-- Messages to clauses never exceed the own cost. -/
theorem unmixed_le (ha : flag = true → 0 ≤ alpha ∧ alpha ≤ 1) (j : ℕ) {c v : ℕ} (hc : c < t.clauses.length) (hv : v ∈ clauseVars k (litVar t c)) :
    x j c v * g v ≤ w v * g v := by
  cases j with
  | zero => rw [unmixed_init hf h hc hv]
  | succ j =>
    rw [unmixed_var h j hc hv]
    have : ∑ c' ∈ (occurrences t.clauses.length k ⟨t.clauses.length, k, litVar t⟩ v).erase c, damped flag alpha (fun i => r i c' v * g v) j ≤ 0 := by
      refine Finset.sum_nonpos fun c' hc' => ?_
      obtain ⟨h1, h2⟩ := occ_vars (Finset.mem_of_mem_erase hc')
      exact damped_nonpos ha (fun i => unmixed_nonpos hf hk hg h i h1 h2) j
    linarith

include hf hk hg h in
/-- Messages of the first iteration are the lowest. -/
theorem unmixed_low (ha : flag = true → 0 ≤ alpha ∧ alpha ≤ 1) (j : ℕ) {c v : ℕ} (hc : c < t.clauses.length) (hv : v ∈ clauseVars k (litVar t c)) :
    r 0 c v * g v ≤ r j c v * g v := by
  refine unmixed_antitone hf hk hg h hc hv fun u hu => ?_
  rw [unmixed_init hf h hc hu]
  exact unmixed_le hf hk hg h ha j hc hu

theorem undamped_eq {flag : Bool} {alpha : ℚ} (hu : flag = false ∨ alpha = 0) (r : ℕ → ℚ) (k : ℕ) : damped flag alpha r k = r k := by
  unfold damped
  rw [if_neg]
  rintro ⟨h1, h2⟩
  rcases hu with e | e
  · rw [e] at h1; simp at h1
  · exact h2 e

include hf hk hg h in
/-- Without damping the messages of the iterations 0, 2, 4, … are below and those of 1, 3, 5, … above all later ones. -/
theorem unmixed_bracket (hu : flag = false ∨ alpha = 0) (i : ℕ) : ∀ j, i ≤ j → ∀ c < t.clauses.length, ∀ v ∈ clauseVars k (litVar t c),
    (Even i → r i c v * g v ≤ r j c v * g v) ∧ (¬ Even i → r j c v * g v ≤ r i c v * g v) := by
  induction i with
  | zero =>
    intro j _ c hc v hv
    refine ⟨fun _ => ?_, fun h => absurd (by decide) h⟩
    refine unmixed_antitone hf hk hg h hc hv fun u hu' => ?_
    rw [unmixed_init hf h hc hu']
    cases j with
    | zero => rw [unmixed_init hf h hc hu']
    | succ j =>
      rw [unmixed_var h j hc hu']
      have : ∑ c' ∈ (occurrences t.clauses.length k ⟨t.clauses.length, k, litVar t⟩ u).erase c, damped flag alpha (fun i => r i c' u * g u) j ≤ 0 := by
        refine Finset.sum_nonpos fun c' hc' => ?_
        obtain ⟨h1, h2⟩ := occ_vars (Finset.mem_of_mem_erase hc')
        rw [undamped_eq hu]
        exact unmixed_nonpos hf hk hg h j h1 h2
      linarith
  | succ i ih =>
    intro j hij c hc v hv
    obtain ⟨j, rfl⟩ : ∃ j', j = j' + 1 := ⟨j - 1, by omega⟩
    have step : ∀ a b, (∀ c < t.clauses.length, ∀ v ∈ clauseVars k (litVar t c), r a c v * g v ≤ r b c v * g v) → r (b + 1) c v * g v ≤ r (a + 1) c v * g v := by
      intro a b hab
      refine unmixed_antitone hf hk hg h hc hv fun u hu' => ?_
      rw [unmixed_var h a hc hu', unmixed_var h b hc hu']
      have : ∑ c' ∈ (occurrences t.clauses.length k ⟨t.clauses.length, k, litVar t⟩ u).erase c, damped flag alpha (fun i => r i c' u * g u) a ≤
          ∑ c' ∈ (occurrences t.clauses.length k ⟨t.clauses.length, k, litVar t⟩ u).erase c, damped flag alpha (fun i => r i c' u * g u) b := by
        refine Finset.sum_le_sum fun c' hc' => ?_
        obtain ⟨h1, h2⟩ := occ_vars (Finset.mem_of_mem_erase hc')
        rw [undamped_eq hu, undamped_eq hu]
        exact hab c' h1 u h2
      linarith
    constructor
    · intro he
      have : ¬ Even i := by
        intro h'
        exact (Nat.even_add_one.mp he) h'
      exact step j i fun c hc v hv => (ih j (by omega) c hc v hv).2 this
    · intro he
      have : Even i := by
        by_contra h'
        exact he (Nat.even_add_one.mpr h')
      exact step i j fun c hc v hv => (ih j (by omega) c hc v hv).1 this

include hf hk hg h in
/-- Multiples of a unit stay multiples. -/
theorem unmixed_unit (hu : flag = false ∨ alpha = 0) {e : ℚ} (hw : ∀ v ∈ t.used, ∃ z : ℤ, w v = z * e) (j : ℕ) : ∀ c < t.clauses.length,
    ∀ v ∈ clauseVars k (litVar t c), (∃ z : ℤ, x j c v = z * e) ∧ ∃ z : ℤ, r j c v * g v = z * e := by
  have hused : ∀ c < t.clauses.length, ∀ v ∈ clauseVars k (litVar t c), v ∈ t.used := fun c hc v hv =>
    vars_used hf hc (by rw [← clauseVars_eq hf hc]; exact hv)
  have hstep : (∀ c < t.clauses.length, ∀ v ∈ clauseVars k (litVar t c), ∃ z : ℤ, x j c v = z * e) → ∀ c < t.clauses.length,
      ∀ v ∈ clauseVars k (litVar t c), (∃ z : ℤ, x j c v = z * e) ∧ ∃ z : ℤ, r j c v * g v = z * e := by
    intro hx c hc v hv
    refine ⟨hx c hc v hv, ?_⟩
    obtain ⟨u, hu', _, _, e'⟩ := unmixed_closed hf hk hg h j hc hv
    rw [e']
    obtain ⟨z, hz⟩ := hx c hc u hu'
    rcases min_choice (-(x j c u * g u)) 0 with e1 | e1
    · exact ⟨-(z * g u), by rw [e1, hz]; push_cast; ring⟩
    · exact ⟨0, by rw [e1]; simp⟩
  induction j with
  | zero =>
    apply hstep
    intro c hc v hv
    rw [unmixed_init hf h hc hv]
    exact hw v (hused c hc v hv)
  | succ j ih =>
    apply hstep
    intro c hc v hv
    have ih := ih (fun hx c hc v hv => ⟨hx c hc v hv, by
      obtain ⟨u, hu', _, _, e'⟩ := unmixed_closed hf hk hg h j hc hv
      rw [e']
      obtain ⟨z, hz⟩ := hx c hc u hu'
      rcases min_choice (-(x j c u * g u)) 0 with e1 | e1
      · exact ⟨-(z * g u), by rw [e1, hz]; push_cast; ring⟩
      · exact ⟨0, by rw [e1]; simp⟩⟩)
    have hr : ∀ c < t.clauses.length, ∀ v ∈ clauseVars k (litVar t c), ∃ z : ℤ, r j c v = z * e := by
      intro c hc v hv
      obtain ⟨z, hz⟩ := (ih c hc v hv).2
      rcases unmixed_one hf hg hc hv with e1 | e1
      · exact ⟨z, by rw [e1] at hz; simpa using hz⟩
      · exact ⟨-z, by rw [e1] at hz; push_cast at hz ⊢; linarith⟩
    rw [h.var j c hc v hv]
    obtain ⟨z0, hz0⟩ := hw v (hused c hc v hv)
    have : ∃ z : ℤ, ∑ c' ∈ (occurrences t.clauses.length k ⟨t.clauses.length, k, litVar t⟩ v).erase c, damped flag alpha (fun i => r i c' v) j = z * e := by
      apply Finset.sum_induction _ (fun q => ∃ z : ℤ, q = z * e)
      · rintro a b ⟨z, hz⟩ ⟨z', hz'⟩
        exact ⟨z + z', by rw [hz, hz']; push_cast; ring⟩
      · exact ⟨0, by simp⟩
      · intro c' hc'
        obtain ⟨h1, h2⟩ := occ_vars (Finset.mem_of_mem_erase hc')
        rw [undamped_eq hu]
        exact hr c' h1 v h2
    obtain ⟨z1, hz1⟩ := this
    exact ⟨z0 + z1, by rw [hz0, hz1]; push_cast; ring⟩

/-- The sum of all messages of an iteration. -/
def messageSum (t : KsatTables) (k : ℕ) (g : ℕ → ℤ) (r : ℕ → ℕ → ℕ → ℚ) (j : ℕ) : ℚ :=
  ∑ c ∈ Finset.range t.clauses.length, ∑ v ∈ clauseVars k (litVar t c), r j c v * g v

include hf hk hg h in
theorem unmixed_repeats (hu : flag = false ∨ alpha = 0) {e : ℚ} (he : 0 < e) (hw : ∀ v ∈ t.used, ∃ z : ℤ, w v = z * e) {Q : ℕ}
    (hQ : ∀ v ∈ t.used, w v * g v ≤ Q * e) : ∃ m ≤ t.clauses.length * k * Q, ∀ c < t.clauses.length, ∀ v ∈ clauseVars k (litVar t c),
      r (2 * m + 1) c v = r (2 * m + 3) c v := by
  by_contra hcon
  push Not at hcon
  have hodd : ∀ m, ¬ Even (2 * m + 1) := fun m hm => by
    obtain ⟨a, ha⟩ := hm
    omega
  -- each step lowers the sum by one unit
  have hdec : ∀ m ≤ t.clauses.length * k * Q, messageSum t k g r (2 * m + 3) + e ≤ messageSum t k g r (2 * m + 1) := by
    intro m hm
    obtain ⟨c, hc, v, hv, hne⟩ := hcon m hm
    have hle : ∀ c < t.clauses.length, ∀ v ∈ clauseVars k (litVar t c), r (2 * m + 3) c v * g v ≤ r (2 * m + 1) c v * g v :=
      fun c hc v hv => (unmixed_bracket hf hk hg h hu (2 * m + 1) (2 * m + 3) (by omega) c hc v hv).2 (hodd m)
    have hlt : r (2 * m + 3) c v * g v + e ≤ r (2 * m + 1) c v * g v := by
      obtain ⟨z, hz⟩ := (unmixed_unit hf hk hg h hu hw (2 * m + 1) c hc v hv).2
      obtain ⟨z', hz'⟩ := (unmixed_unit hf hk hg h hu hw (2 * m + 3) c hc v hv).2
      have h1 := hle c hc v hv
      have h2 : r (2 * m + 3) c v * g v ≠ r (2 * m + 1) c v * g v := by
        rcases unmixed_one hf hg hc hv with e1 | e1 <;> rw [e1] <;> push_cast <;> intro h2 <;> apply hne <;> linarith
      rw [hz, hz'] at h1 h2 ⊢
      have h3 : z' < z := by
        rcases lt_trichotomy z' z with h3 | h3 | h3
        · exact h3
        · exact absurd (by rw [h3]) h2
        · have : (z : ℚ) * e < z' * e := mul_lt_mul_of_pos_right (by exact_mod_cast h3) he
          linarith
      have h4 : (z' : ℚ) + 1 ≤ z := by exact_mod_cast h3
      nlinarith
    unfold messageSum
    rw [← Finset.add_sum_erase _ _ (Finset.mem_range.mpr hc), ← Finset.add_sum_erase _ (fun c => ∑ v ∈ clauseVars k (litVar t c), r (2 * m + 1) c v * g v) (Finset.mem_range.mpr hc)]
    have h1 : ∑ c' ∈ (Finset.range t.clauses.length).erase c, ∑ v ∈ clauseVars k (litVar t c'), r (2 * m + 3) c' v * g v ≤
        ∑ c' ∈ (Finset.range t.clauses.length).erase c, ∑ v ∈ clauseVars k (litVar t c'), r (2 * m + 1) c' v * g v :=
      Finset.sum_le_sum fun c' hc' => Finset.sum_le_sum fun v' hv' => hle c' (Finset.mem_range.mp (Finset.mem_of_mem_erase hc')) v' hv'
    have h2 : ∑ v' ∈ clauseVars k (litVar t c), r (2 * m + 3) c v' * g v' + e ≤ ∑ v' ∈ clauseVars k (litVar t c), r (2 * m + 1) c v' * g v' := by
      rw [← Finset.add_sum_erase _ _ hv, ← Finset.add_sum_erase _ (fun v' => r (2 * m + 1) c v' * g v') hv]
      have h3 : ∑ v' ∈ (clauseVars k (litVar t c)).erase v, r (2 * m + 3) c v' * g v' ≤ ∑ v' ∈ (clauseVars k (litVar t c)).erase v, r (2 * m + 1) c v' * g v' :=
        Finset.sum_le_sum fun v' hv' => hle c hc v' (Finset.mem_of_mem_erase hv')
      linarith
    linarith
  have hmany : ∀ m ≤ t.clauses.length * k * Q + 1, messageSum t k g r (2 * m + 1) + m * e ≤ messageSum t k g r 1 := by
    intro m
    induction m with
    | zero => intro _; simp
    | succ m ih =>
      intro hm
      have h1 := ih (by omega)
      have h2 := hdec m (by omega)
      rw [show 2 * (m + 1) + 1 = 2 * m + 3 by omega]
      push_cast
      linarith
  have htop : messageSum t k g r 1 ≤ 0 :=
    Finset.sum_nonpos fun c hc => Finset.sum_nonpos fun v hv => unmixed_nonpos hf hk hg h 1 (Finset.mem_range.mp hc) hv
  have hlow : ∀ j, -((t.clauses.length * k * Q : ℕ) : ℚ) * e ≤ messageSum t k g r j := by
    intro j
    have hone : ∀ c < t.clauses.length, ∀ v ∈ clauseVars k (litVar t c), -(Q : ℚ) * e ≤ r j c v * g v := by
      intro c hc v hv
      have h0 := (unmixed_bracket hf hk hg h hu 0 j (by omega) c hc v hv).1 (by decide)
      obtain ⟨u, hu', _, _, e'⟩ := unmixed_closed hf hk hg h 0 hc hv
      have h1 := hQ u (vars_used hf hc (by rw [← clauseVars_eq hf hc]; exact hu'))
      rw [unmixed_init hf h hc hu'] at e'
      rw [e'] at h0
      refine le_trans (le_min ?_ ?_) h0
      · linarith
      · have : (0 : ℚ) ≤ Q * e := mul_nonneg (Nat.cast_nonneg _) he.le
        linarith
    have hcard : ∀ c, ((clauseVars k (litVar t c)).card : ℚ) ≤ k := by
      intro c
      have : (clauseVars k (litVar t c)).card ≤ (Finset.range k).card := Finset.card_image_le
      rw [Finset.card_range] at this
      exact_mod_cast this
    have hQe : (0 : ℚ) ≤ Q * e := mul_nonneg (Nat.cast_nonneg _) he.le
    have hrow : ∀ c ∈ Finset.range t.clauses.length, -((k : ℚ) * (Q * e)) ≤ ∑ v ∈ clauseVars k (litVar t c), r j c v * g v := by
      intro c hc
      have := Finset.card_nsmul_le_sum (clauseVars k (litVar t c)) (fun v => r j c v * g v) (-(Q : ℚ) * e) (fun v hv => hone c (Finset.mem_range.mp hc) v hv)
      rw [nsmul_eq_mul] at this
      have h2 := mul_le_mul_of_nonneg_right (hcard c) hQe
      linarith
    have := Finset.card_nsmul_le_sum _ _ _ hrow
    rw [nsmul_eq_mul, Finset.card_range] at this
    unfold messageSum
    push_cast
    linarith
  have h1 := hmany (t.clauses.length * k * Q + 1) le_rfl
  have h2 := hlow (2 * (t.clauses.length * k * Q + 1) + 1)
  push_cast at h1 h2
  linarith

end

end Verif.Proofs
