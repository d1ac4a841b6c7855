import Verif.Proofs.ExactKsatRun
import Verif.Proofs.Ieee
import Verif.Properties.Growth
import Verif.Properties.KsatRounding
import Verif.Properties.Recurrence
import Verif.Properties.SingleRun

/-! # C72: the k-SAT solver in single precision -/

namespace Verif.Properties
open Verif Num Spec Model

/-- C72, formats.  Rounding in a binary format with `p` bits yields a number of the format that is nearest to the exact result, or an infinity if
this number needs too large an exponent. -/
theorem C72_formats {p emax : ℕ} (hp : 1 ≤ p) (q : ℚ) : ∃ x, FormatNumber p emax x ∧ (∀ y, FormatNumber p emax y → |x - q| ≤ |y - q|) ∧
    ieee p emax q = if 2 ^ (emax + 1) ≤ x then pinf else if x ≤ -2 ^ (emax + 1) then ninf else fin x :=
  Proofs.ieee_spec hp q

/-- Rounding to `float`: one tenth, one third, a tie, the largest number, overflow, the smallest subnormal number and underflow. -/
example : single (1 / 10) = fin (13421773 / 2 ^ 27) ∧ single (-1 / 3) = fin (-11184811 / 2 ^ 25) ∧ single (2 ^ 24 + 1) = fin (2 ^ 24) ∧
    single (2 ^ 24 + 3) = fin (2 ^ 24 + 4) ∧ single ((2 ^ 24 - 1) * 2 ^ 104) = fin ((2 ^ 24 - 1) * 2 ^ 104) ∧
    single ((2 ^ 25 - 1) * 2 ^ 103) = pinf ∧ single (-2 ^ 128) = ninf ∧ single (3 / 2 ^ 150) = fin (2 / 2 ^ 149) ∧ single (1 / 2 ^ 150) = fin 0 ∧
    double (1 / 10) = fin (3602879701896397 / 2 ^ 55) := by decide +kernel

section
variable {n k : ℕ} {t : KsatTables} (hf : KFormula n k t.clauses t.used t.conns) (hk : 2 ≤ k) {w : ℕ → ℚ} {flag : Bool} {alpha : ℚ}
  (hd : flag = false ∨ alpha = 0) {order order' : List ℕ → List ℕ} (ho : ∀ l, (order l).Perm l) (ho' : ∀ l, (order' l).Perm l)
  {sol : List Bool} (hs : sol = [] ∨ sol.length = n) {D : ℕ}
  (hD : ∀ v ∈ t.used, ((Finset.range t.clauses.length).filter (fun c => v ∈ varsOf t.clauses c)).card ≤ D + 1) {K : ℕ}
include hf hk hd ho ho' hs hD

/-- C72, small messages.  Let the costs be whole multiples of `u`, at most `B` times `u`, let no variable be in more than `D + 1` clauses, and let
there be no damping.  If no message from a variable to a clause exceeds `X` times `u` in the first `K + 1` iterations of the exact run, then every
arithmetic that is exact on the multiples of `u` up to `2 k X` and `B + (D + 2) X` gives exactly the result of exact arithmetic. -/
theorem C72_messages_partial {r : ℚ → Num} {u : ℚ} {M : ℕ} (hu : 0 < u) (hr : KeepsMultiples r u M) {B : ℕ}
    (hw : ∀ v < n, ∃ z : ℤ, |z| ≤ B ∧ w v = z * u) {x y : ℕ → ℕ → ℕ → ℚ} (ht : FormulaTrace n k t w flag alpha x y) {X : ℕ}
    (hX : ∀ j ≤ K, ∀ c < t.clauses.length, ∀ v ∈ varsOf t.clauses c, |x j c v| ≤ X * u) (hM1 : 2 * k * X ≤ M) (hM2 : B + (D + 2) * X ≤ M)
    (thr : Num) (post : Bool) (pp : ℕ) :
    ∃ res, ksatCall n k (K + 1) flag alpha thr order order' post pp sol t (listOf n (fun v => fin (w v))) = some res ∧
      Rounded.ksatCall r n k (K + 1) flag alpha thr order order' post pp sol t (listOf n (fun v => fin (w v))) = some res := by
  obtain ⟨_, _, _, hb⟩ := Proofs.call_trace hf hk w flag alpha
  have hb := hb K
  obtain ⟨res, h1, h2, -⟩ := Proofs.call_of_beliefs hf ho ho' (thr := thr) (post := post) (pp := pp) hs hb (by simp [listOf])
  have hvars : ∀ c < t.clauses.length, clauseVars k (Proofs.litVar t c) = varsOf t.clauses c := fun c hc => Proofs.clauseVars_eq hf hc
  have ht' : IsKsatTrace t.clauses.length k n ⟨t.clauses.length, k, Proofs.litVar t⟩ ⟨t.clauses.length, k, Proofs.litSign t⟩ w flag alpha
      (fun c v => if ∃ s < k, Proofs.litVar t c s = v then w v else 0) x y := { ht with
    init := fun c hc v hv => by
      rw [ht.init c hc v hv, ← hvars c hc]
      simp only [clauseVars, Finset.mem_image, Finset.mem_range] }
  have key := Proofs.exact_ksatBeliefs hf hk (r := r) (M := M) hr hu hd (B := B) (by positivity) (w := w) (fun v hv x hx => by
    obtain ⟨z, hz, e⟩ := hw v hv
    rw [Num.fin.injEq] at hx
    exact ⟨z, by rw [← hx]; exact e, by exact_mod_cast hz⟩) hD (K := K) (X := X) (by positivity) (by exact_mod_cast hM1) (by exact_mod_cast hM2) ht'
    (fun j hj c hc v hv => hX j hj c hc v (by rw [← hvars c hc]; exact hv)) _ hb
  refine ⟨res, h1, ?_⟩
  rw [Proofs.rounded_ksatCall h1 hb key rfl, ← h2]

/-- C72, small numbers.  Let the costs be whole multiples of `u`, at most `B` times `u`, let no variable be in more than `D + 1` clauses, and let
there be no damping.  With `S = B (1 + D + … + D ^ K)`, every arithmetic that is exact on the multiples of `u` up to `2 k S` and `B + (D + 2) S` gives
after `K + 1` iterations exactly the result of exact arithmetic. -/
theorem C72_exact_partial {r : ℚ → Num} {u : ℚ} {M : ℕ} (hu : 0 < u) (hr : KeepsMultiples r u M) {B : ℕ}
    (hw : ∀ v < n, ∃ z : ℤ, |z| ≤ B ∧ w v = z * u) (hM1 : 2 * k * (B * ∑ l ∈ Finset.range (K + 1), D ^ l) ≤ M)
    (hM2 : B + (D + 2) * (B * ∑ l ∈ Finset.range (K + 1), D ^ l) ≤ M) (thr : Num) (post : Bool) (pp : ℕ) :
    ∃ res, ksatCall n k (K + 1) flag alpha thr order order' post pp sol t (listOf n (fun v => fin (w v))) = some res ∧
      Rounded.ksatCall r n k (K + 1) flag alpha thr order order' post pp sol t (listOf n (fun v => fin (w v))) = some res := by
  obtain ⟨x, y, h, -⟩ := Proofs.call_trace hf hk w flag alpha
  have hvars : ∀ c < t.clauses.length, clauseVars k (Proofs.litVar t c) = varsOf t.clauses c := fun c hc => Proofs.clauseVars_eq hf hc
  have ht : FormulaTrace n k t w flag alpha x y := { h with
    init := fun c hc v hv => by
      rw [h.init c hc v hv, ← hvars c hc]
      simp only [clauseVars, Finset.mem_image, Finset.mem_range] }
  refine C72_messages_partial hf hk hd ho ho' hs hD hu hr hw ht (fun j hj c hc v hv => ?_) hM1 hM2 thr post pp
  have hwb : ∀ v < n, |w v| ≤ B * u := by
    intro v hv
    obtain ⟨z, h1, h2⟩ := hw v hv
    rw [h2, abs_mul, abs_of_pos hu]
    exact mul_le_mul_of_nonneg_right (by exact_mod_cast h1) hu.le
  have hBu : 0 ≤ B * u := mul_nonneg (by positivity) hu.le
  refine ((Proofs.trace_level hf hk hd h hwb hD j c hc v (by rw [hvars c hc]; exact hv)).trans (Proofs.level_mono hBu D hj)).trans (le_of_eq ?_)
  unfold Proofs.level
  push_cast
  ring

/-- C72, formats with `p` bits.  If all costs are whole multiples of a power `2 ^ e` within the range of the format and the bounds are at most
`2 ^ p`, then the format gives exactly the result of exact arithmetic.  `float` has `p = 24` and `double` has `p = 53`. -/
theorem C72_ieee_partial {p emax : ℕ} (hp : 1 ≤ p) {e : ℤ} (he : e + p ≤ emax) (he' : 2 - (emax : ℤ) - p ≤ e) {B : ℕ}
    (hw : ∀ v < n, ∃ z : ℤ, |z| ≤ B ∧ w v = z * 2 ^ e) (hM1 : 2 * k * (B * ∑ l ∈ Finset.range (K + 1), D ^ l) ≤ 2 ^ p)
    (hM2 : B + (D + 2) * (B * ∑ l ∈ Finset.range (K + 1), D ^ l) ≤ 2 ^ p) (thr : Num) (post : Bool) (pp : ℕ) :
    ∃ res, ksatCall n k (K + 1) flag alpha thr order order' post pp sol t (listOf n (fun v => fin (w v))) = some res ∧
      Rounded.ksatCall (ieee p emax) n k (K + 1) flag alpha thr order order' post pp sol t (listOf n (fun v => fin (w v))) = some res :=
  C72_exact_partial hf hk hd ho ho' hs hD (zpow_pos two_pos e) (Proofs.ieee_keeps hp he he') hw hM1 hM2 thr post pp

end

/-- The full claim of C72: with whole costs and no damping, single precision leads to the same decisions as exact arithmetic, for every number of
iterations, if all beliefs of the exact run are at least 1 away from the threshold 0. -/
def C72_claim : Prop := ∀ (n k : ℕ) (t : KsatTables) (w : ℕ → ℤ) (K : ℕ) (res : KsatResult), KFormula n k t.clauses t.used t.conns → 2 ≤ k →
  ksatCall n k (K + 1) false 0 (fin 0) id id false 0 [] t (listOf n (fun v => fin (w v))) = some res →
  (∀ x ∈ res.beliefs, ∃ q, x = fin q ∧ 1 ≤ |q|) →
  ∃ res', Rounded.ksatCall single n k (K + 1) false 0 (fin 0) id id false 0 [] t (listOf n (fun v => fin (w v))) = some res' ∧
    res'.post.hard = res.post.hard

theorem C72_claim_false : ¬ C72_claim := by
  intro h
  have h1 := c72_exact
  have h2 := c72_single
  obtain ⟨res, h3, h4⟩ := Option.map_eq_some_iff.mp h1
  simp only [Prod.mk.injEq] at h4
  obtain ⟨res', h5, h6⟩ := h 3 2 loopFormula loopCost 129 res loopFormula_ok (by norm_num) h3 (by
    intro x hx
    rw [h4.1] at hx
    simp only [List.mem_cons, List.not_mem_nil, or_false] at hx
    rcases hx with rfl | rfl | rfl
    · exact ⟨_, rfl, by rw [abs_neg, abs_of_pos] <;> norm_num⟩
    · exact ⟨_, rfl, by rw [abs_neg, abs_of_pos] <;> norm_num⟩
    · exact ⟨_, rfl, by rw [abs_neg, abs_of_pos] <;> norm_num⟩)
  rw [h5, Option.map_some, Option.some.injEq, Prod.mk.injEq, Prod.mk.injEq, h6, h4.2.1] at h2
  exact absurd h2.2.1 (by decide)

/-- Non-vacuity of `C72_ieee_partial`: no variable of `loopFormula` is in more than five clauses, so with costs up to 2 single precision is exact for
ten iterations. -/
example : ∃ res, ksatCall 3 2 10 false 0 (fin 0) id id false 0 [] loopFormula (listOf 3 (fun v => fin (loopCost v))) = some res ∧
    Rounded.ksatCall single 3 2 10 false 0 (fin 0) id id false 0 [] loopFormula (listOf 3 (fun v => fin (loopCost v))) = some res ∧
    res.beliefs = [fin (-1365), fin (-683), fin (-341)] := by
  obtain ⟨res, h1, h2⟩ := C72_ieee_partial loopFormula_ok (by norm_num) (w := fun v => (loopCost v : ℚ)) (flag := false) (alpha := 0) (Or.inl rfl) (order := id)
    (order' := id) (fun _ => List.Perm.refl _) (fun _ => List.Perm.refl _) (sol := []) (Or.inl rfl) (D := 4) (by decide) (K := 9) (p := 24) (emax := 127)
    (by norm_num) (e := 0) (by norm_num) (by norm_num) (B := 2) (fun v hv => ⟨loopCost v, by interval_cases v <;> decide, by simp⟩) (by decide +kernel)
    (by decide +kernel) (fin 0) false 0
  refine ⟨res, h1, h2, ?_⟩
  have h3 : (ksatCall 3 2 10 false 0 (fin 0) id id false 0 [] loopFormula (listOf 3 (fun v => fin (loopCost v)))).map (fun res => res.beliefs) =
    some [fin (-1365), fin (-683), fin (-341)] := by decide +kernel
  rw [h1] at h3
  exact Option.some.inj h3

end Verif.Properties
