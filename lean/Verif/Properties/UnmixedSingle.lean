import Verif.Properties.Single
import Verif.Properties.Unmixed

/-! # C107: single precision on formulas in which no variable occurs with both signs -/

namespace Verif.Properties
open Verif Num Spec Model

section
variable {n k : ℕ} {t : KsatTables} (hf : KFormula n k t.clauses t.used t.conns) (hk : 2 ≤ k) {g : ℕ → ℤ} (hg : Unmixed t.clauses g) {w : ℕ → ℚ}
  {flag : Bool} {alpha : ℚ} (hd : flag = false ∨ alpha = 0) {order order' : List ℕ → List ℕ} (ho : ∀ l, (order l).Perm l) (ho' : ∀ l, (order' l).Perm l)
  {sol : List Bool} (hs : sol = [] ∨ sol.length = n) {D : ℕ}
  (hD : ∀ v ∈ t.used, ((Finset.range t.clauses.length).filter (fun c => v ∈ varsOf t.clauses c)).card ≤ D + 1)
include hf hk hg hd ho ho' hs hD

/-- C107.  Let no variable occur with both signs, let the costs be whole multiples of `u`, at most `B` times `u`, let no variable be in more than `D + 1`
clauses, and let there be no damping.  Every arithmetic that is exact on the multiples of `u` up to `2 k (D + 1) B` and `B + (D + 2) (D + 1) B` gives
exactly the result of exact arithmetic, after any number of iterations. -/
theorem C107_exact {r : ℚ → Num} {u : ℚ} {M : ℕ} (hu : 0 < u) (hr : KeepsMultiples r u M) {B : ℕ}
    (hw : ∀ v < n, ∃ z : ℤ, |z| ≤ B ∧ w v = z * u) (hM1 : 2 * k * ((D + 1) * B) ≤ M) (hM2 : B + (D + 2) * ((D + 1) * B) ≤ M) {N : ℕ} (hN : 1 ≤ N)
    (thr : Num) (post : Bool) (pp : ℕ) :
    ∃ res, ksatCall n k N flag alpha thr order order' post pp sol t (listOf n (fun v => fin (w v))) = some res ∧
      Rounded.ksatCall r n k N flag alpha thr order order' post pp sol t (listOf n (fun v => fin (w v))) = some res := by
  obtain ⟨K, rfl⟩ : ∃ K, N = K + 1 := ⟨N - 1, by omega⟩
  obtain ⟨x, y, h, -⟩ := Proofs.call_trace hf hk w flag alpha
  have hvars : ∀ c < t.clauses.length, clauseVars k (Proofs.litVar t c) = varsOf t.clauses c := fun c hc => Proofs.clauseVars_eq hf hc
  have ht : FormulaTrace n k t w flag alpha x y := { h with
    init := fun c hc v hv => by
      rw [h.init c hc v hv, ← hvars c hc]
      simp only [clauseVars, Finset.mem_image, Finset.mem_range] }
  refine C72_messages_partial hf hk hd ho ho' hs hD hu hr hw ht (X := (D + 1) * B) (fun j _ c hc v hv => ?_) hM1 hM2 thr post pp
  rw [← hvars c hc] at hv
  have hwb : ∀ c < t.clauses.length, ∀ v ∈ clauseVars k (Proofs.litVar t c), |w v * g v| ≤ B * u ∧ |x j c v| = |x j c v * g v| := by
    intro c hc v hv
    have hv' : v ∈ t.used := Proofs.vars_used hf hc (by rw [← hvars c hc]; exact hv)
    obtain ⟨z, h1, h2⟩ := hw v (hf.tables.used_lt v hv')
    have hb : |w v| ≤ B * u := by
      rw [h2, abs_mul, abs_of_pos hu]
      exact mul_le_mul_of_nonneg_right (by exact_mod_cast h1) hu.le
    rcases Proofs.unmixed_one hf hg hc hv with e | e <;> rw [e] <;> push_cast <;> simp only [mul_one, mul_neg, abs_neg] <;> exact ⟨hb, trivial⟩
  have hlow : ∀ c < t.clauses.length, ∀ v ∈ clauseVars k (Proofs.litVar t c), ∀ i, -(B * u) ≤ y i c v * g v := by
    intro c hc v hv i
    have ha : flag = true → 0 ≤ alpha ∧ alpha ≤ 1 := by
      intro hfl
      rcases hd with e | e
      · rw [e] at hfl; cases hfl
      · rw [e]; norm_num
    refine le_trans ?_ (Proofs.unmixed_low hf hk hg h ha i hc hv)
    obtain ⟨v', hv', -, -, e⟩ := Proofs.unmixed_closed hf hk hg h 0 hc hv
    rw [e, Proofs.unmixed_init hf h hc hv']
    have := abs_le.mp (hwb c hc v' hv').1
    have hBu : 0 ≤ (B : ℚ) * u := mul_nonneg (by positivity) hu.le
    exact le_min (by linarith) (by linarith)
  have hBu : 0 ≤ (B : ℚ) * u := mul_nonneg (by positivity) hu.le
  have hown := abs_le.mp (hwb c hc v hv).1
  rw [(hwb c hc v hv).2]
  push_cast
  cases j with
  | zero =>
    rw [Proofs.unmixed_init hf h hc hv]
    refine (hwb c hc v hv).1.trans ?_
    have : (0 : ℚ) ≤ D * (B * u) := mul_nonneg (by positivity) hBu
    linarith
  | succ j =>
    rw [Proofs.unmixed_var h j hc hv]
    simp only [Proofs.undamped_eq hd]
    set S := (occurrences t.clauses.length k ⟨t.clauses.length, k, Proofs.litVar t⟩ v).erase c with hS
    have hin : ∀ c' ∈ S, c' < t.clauses.length ∧ v ∈ clauseVars k (Proofs.litVar t c') := fun c' hc' => Proofs.occ_vars (Finset.mem_of_mem_erase hc')
    have hcard : S.card ≤ D := by
      have hcm : c ∈ occurrences t.clauses.length k ⟨t.clauses.length, k, Proofs.litVar t⟩ v := Finset.mem_filter.mpr ⟨Finset.mem_range.mpr hc, hv⟩
      rw [hS, Finset.card_erase_of_mem hcm]
      have e : occurrences t.clauses.length k ⟨t.clauses.length, k, Proofs.litVar t⟩ v =
          (Finset.range t.clauses.length).filter (fun c => v ∈ varsOf t.clauses c) :=
        Finset.filter_congr fun c hc => by rw [Proofs.clauseVars_eq hf (Finset.mem_range.mp hc)]
      rw [e]
      have := hD v (Proofs.vars_used hf hc (by rw [← hvars c hc]; exact hv))
      omega
    have h1 : ∑ c' ∈ S, y j c' v * g v ≤ 0 := Finset.sum_nonpos fun c' hc' => Proofs.unmixed_nonpos hf hk hg h j (hin c' hc').1 (hin c' hc').2
    have h2 : S.card • (-((B : ℚ) * u)) ≤ ∑ c' ∈ S, y j c' v * g v :=
      Finset.card_nsmul_le_sum _ _ _ fun c' hc' => hlow c' (hin c' hc').1 v (hin c' hc').2 j
    rw [nsmul_eq_mul] at h2
    have h3 : (S.card : ℚ) * (B * u) ≤ D * (B * u) := mul_le_mul_of_nonneg_right (by exact_mod_cast hcard) hBu
    have h4 : (0 : ℚ) ≤ D * (B * u) := mul_nonneg (by positivity) hBu
    exact abs_le.mpr ⟨by linarith, by linarith⟩

/-- C107, formats with `p` bits.  If all costs are whole multiples of a power `2 ^ e` within the range of the format and the bounds are at most `2 ^ p`, then the
format gives exactly the result of exact arithmetic, after any number of iterations.  `float` has `p = 24` and `double` has `p = 53`. -/
theorem C107_ieee {p emax : ℕ} (hp : 1 ≤ p) {e : ℤ} (he : e + p ≤ emax) (he' : 2 - (emax : ℤ) - p ≤ e) {B : ℕ}
    (hw : ∀ v < n, ∃ z : ℤ, |z| ≤ B ∧ w v = z * 2 ^ e) (hM1 : 2 * k * ((D + 1) * B) ≤ 2 ^ p) (hM2 : B + (D + 2) * ((D + 1) * B) ≤ 2 ^ p) {N : ℕ} (hN : 1 ≤ N)
    (thr : Num) (post : Bool) (pp : ℕ) :
    ∃ res, ksatCall n k N flag alpha thr order order' post pp sol t (listOf n (fun v => fin (w v))) = some res ∧
      Rounded.ksatCall (ieee p emax) n k N flag alpha thr order order' post pp sol t (listOf n (fun v => fin (w v))) = some res :=
  C107_exact hf hk hg hd ho ho' hs hD (zpow_pos two_pos e) (Proofs.ieee_keeps hp he he') hw hM1 hM2 hN thr post pp

/-- C107, the end of the run in `float`: the results repeat with period two from an explicit number of iterations on. -/
theorem C107_settles {p emax : ℕ} (hp : 1 ≤ p) {e : ℤ} (he : e + p ≤ emax) (he' : 2 - (emax : ℤ) - p ≤ e) {B : ℕ}
    (hw : ∀ v < n, ∃ z : ℤ, |z| ≤ B ∧ w v = z * 2 ^ e) (hM1 : 2 * k * ((D + 1) * B) ≤ 2 ^ p) (hM2 : B + (D + 2) * ((D + 1) * B) ≤ 2 ^ p) {N : ℕ}
    (hN : 2 * (t.clauses.length * k * B) + 2 ≤ N) (thr : Num) (post : Bool) (pp : ℕ) :
    Rounded.ksatCall (ieee p emax) n k (N + 2) flag alpha thr order order' post pp sol t (listOf n (fun v => fin (w v))) =
      Rounded.ksatCall (ieee p emax) n k N flag alpha thr order order' post pp sol t (listOf n (fun v => fin (w v))) := by
  obtain ⟨res, h1, h2⟩ := C107_ieee hf hk hg hd ho ho' hs hD hp he he' hw hM1 hM2 (N := N) (by omega) thr post pp
  obtain ⟨res', h3, h4⟩ := C107_ieee hf hk hg hd ho ho' hs hD hp he he' hw hM1 hM2 (N := N + 2) (by omega) thr post pp
  let g' : ℕ → ℤ := fun v => if g v = 1 ∨ g v = -1 then g v else 1
  have hg' : Unmixed t.clauses g' := by
    intro cl hcl l hl
    have h1 := hg cl hcl l hl
    have h2 := (hf.clause cl hcl).2.2 l hl
    rw [h1] at h2
    rw [h1]
    exact (if_pos h2).symm
  have h0 := C106_settles hf hk hg' w hd (e := 2 ^ e) (zpow_pos two_pos e) (fun v hv => by
    obtain ⟨z, -, h⟩ := hw v (hf.tables.used_lt v hv)
    exact ⟨z, h⟩) (Q := B) (fun v hv => by
    obtain ⟨z, hz, h⟩ := hw v (hf.tables.used_lt v hv)
    have hz' : |(z : ℚ)| ≤ B := by exact_mod_cast hz
    have hz' := abs_le.mp hz'
    have hp2 : (0 : ℚ) < 2 ^ e := zpow_pos two_pos e
    have hone : g' v = 1 ∨ g' v = -1 := by
      simp only [g']
      split
      · assumption
      · exact Or.inl rfl
    rw [h, mul_right_comm]
    refine mul_le_mul_of_nonneg_right ?_ hp2.le
    rcases hone with e1 | e1 <;> rw [e1] <;> push_cast <;> linarith) hN thr order order' post pp sol
  rw [h2, h4, ← h3, ← h1, h0]

end

/-! ## Examples -/

/-- Covers of the cycle of C106 with costs up to 3: single precision is exact for every number of iterations. -/
example (N : ℕ) (hN : 1 ≤ N) : ∃ res, ksatCall 5 2 N false 0 (fin 0) id id false 0 [] c106Cycle (listOf 5 (fun v => fin (c106Costs v))) = some res ∧
    Rounded.ksatCall single 5 2 N false 0 (fin 0) id id false 0 [] c106Cycle (listOf 5 (fun v => fin (c106Costs v))) = some res :=
  C107_ieee c106Cycle_ok le_rfl c106Cycle_unmixed (w := c106Costs) (Or.inl rfl) (fun _ => List.Perm.refl _) (fun _ => List.Perm.refl _) (Or.inl rfl)
    (D := 1) (by decide) (p := 24) (emax := 127) (by norm_num) (e := 0) (by norm_num) (by norm_num) (B := 3)
    (by
      intro v hv
      refine ⟨[1, 3, 1, 3, 2].getD v 0, ?_, ?_⟩ <;> interval_cases v <;> simp [c106Costs]) (by norm_num) (by norm_num) hN _ _ _

/-- Equal costs one third, rounded to `float`: the results of an even number of iterations are what two iterations give. -/
example : Rounded.ksatBeliefs single 3 false 0 (ksatObject 5 2 c106Cycle (listOf 5 (fun _ => fin (11184811 / 2 ^ 25)))) =
      some (listOf 5 (fun _ => fin (-11184811 / 2 ^ 25))) ∧
    Rounded.ksatBeliefs single 4 false 0 (ksatObject 5 2 c106Cycle (listOf 5 (fun _ => fin (11184811 / 2 ^ 25)))) =
      some (listOf 5 (fun _ => fin (11184811 / 2 ^ 25))) := by decide +kernel

/-- C107, the bounds are needed: with costs of 24 bits the beliefs in `float` differ from the exact ones, here at the first variable. -/
theorem C107_wide : (Rounded.ksatBeliefs single 1 false 0 (ksatObject 5 2 c106Cycle [fin 2, fin (2 ^ 24 - 1), fin 1, fin 1, fin (2 ^ 24 - 2)])).map (·.head?) =
      some (some (fin (6 - 2 ^ 25))) ∧
    (ksatBeliefs 1 false 0 (ksatObject 5 2 c106Cycle [fin 2, fin (2 ^ 24 - 1), fin 1, fin 1, fin (2 ^ 24 - 2)])).map (·.head?) =
      some (some (fin (5 - 2 ^ 25))) := by decide +kernel

end Verif.Properties
