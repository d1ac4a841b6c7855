import Mathlib.Algebra.BigOperators.Ring.Finset
import Mathlib.Algebra.Order.BigOperators.Group.Finset
import Mathlib.Algebra.Order.Field.Rat
import Mathlib.Tactic.FieldSimp
import Mathlib.Tactic.Linarith
import Mathlib.Tactic.Positivity
import Mathlib.Tactic.Ring

/-! Systems of linear inequalities: elimination of variables, and the duality of covering and packing. -/

namespace Verif.Proofs

/-- Inequalities that follow by adding and scaling: `(a, b)` stands for `∑ a i * x i ≤ b`. -/
inductive Cone (L : List ((ℕ → ℚ) × ℚ)) : (ℕ → ℚ) → ℚ → Prop
  | zero : Cone L (fun _ => 0) 0
  | mem {p : (ℕ → ℚ) × ℚ} : p ∈ L → Cone L p.1 p.2
  | add {a a' : ℕ → ℚ} {b b' : ℚ} : Cone L a b → Cone L a' b' → Cone L (fun i => a i + a' i) (b + b')
  | smul {a : ℕ → ℚ} {b : ℚ} (c : ℚ) : 0 ≤ c → Cone L a b → Cone L (fun i => c * a i) (c * b)

theorem Cone.trans {L L' : List ((ℕ → ℚ) × ℚ)} (h : ∀ p ∈ L', Cone L p.1 p.2) {a : ℕ → ℚ} {b : ℚ} (hc : Cone L' a b) : Cone L a b := by
  induction hc with
  | zero => exact .zero
  | mem hp => exact h _ hp
  | add _ _ h1 h2 => exact .add h1 h2
  | smul c hc _ h1 => exact .smul c hc h1

theorem exists_between (lo up : List ℚ) (h : ∀ l ∈ lo, ∀ u ∈ up, l ≤ u) : ∃ t, (∀ l ∈ lo, l ≤ t) ∧ ∀ u ∈ up, t ≤ u := by
  induction lo with
  | nil =>
    clear h
    induction up with
    | nil => exact ⟨0, by simp, by simp⟩
    | cons a l ih =>
      obtain ⟨t, -, h⟩ := ih
      refine ⟨min a t, by simp, fun u hu => ?_⟩
      rcases List.mem_cons.mp hu with rfl | hu
      · exact min_le_left _ _
      · exact (min_le_right _ _).trans (h u hu)
  | cons a l ih =>
    obtain ⟨t, h1, h2⟩ := ih fun l hl u hu => h l (List.mem_cons_of_mem _ hl) u hu
    refine ⟨max a t, fun l hl => ?_, fun u hu => max_le (h a (by simp) u hu) (h2 u hu)⟩
    rcases List.mem_cons.mp hl with rfl | hl
    · exact le_max_left _ _
    · exact (h1 l hl).trans (le_max_right _ _)

/-- A system has a solution or its inequalities add up to a contradiction. -/
theorem farkas (n : ℕ) : ∀ L : List ((ℕ → ℚ) × ℚ), (∀ p ∈ L, ∀ i, n ≤ i → p.1 i = 0) →
    (∃ x : ℕ → ℚ, ∀ p ∈ L, ∑ i ∈ Finset.range n, p.1 i * x i ≤ p.2) ∨ ∃ b < 0, Cone L (fun _ => 0) b := by
  induction n with
  | zero =>
    intro L hL
    by_cases h : ∀ p ∈ L, 0 ≤ p.2
    · exact .inl ⟨fun _ => 0, fun p hp => by simpa using h p hp⟩
    · push Not at h
      obtain ⟨p, hp, hb⟩ := h
      refine .inr ⟨p.2, hb, ?_⟩
      have e : p.1 = fun _ => 0 := funext fun i => hL p hp i (by omega)
      rw [← e]
      exact .mem hp
  | succ n ih =>
    intro L hL
    let P := L.filter (fun p => 0 < p.1 n)
    let Q := L.filter (fun p => p.1 n < 0)
    let Z := L.filter (fun p => p.1 n = 0)
    let comb : ((ℕ → ℚ) × ℚ) → ((ℕ → ℚ) × ℚ) → ((ℕ → ℚ) × ℚ) := fun p q =>
      (fun i => (-q.1 n) * p.1 i + p.1 n * q.1 i, (-q.1 n) * p.2 + p.1 n * q.2)
    let L' := Z ++ P.flatMap (fun p => Q.map (comb p))
    have hP : ∀ p, p ∈ P ↔ p ∈ L ∧ 0 < p.1 n := fun p => by simp [P]
    have hQ : ∀ p, p ∈ Q ↔ p ∈ L ∧ p.1 n < 0 := fun p => by simp [Q]
    have hZ : ∀ p, p ∈ Z ↔ p ∈ L ∧ p.1 n = 0 := fun p => by simp [Z]
    have hL' : ∀ p, p ∈ L' ↔ p ∈ Z ∨ ∃ a ∈ P, ∃ b ∈ Q, comb a b = p := fun p => by simp [L']
    rcases ih L' (by
      intro p hp i hi
      rcases (hL' p).mp hp with h | ⟨a, ha, b, hb, rfl⟩
      · obtain ⟨h1, h2⟩ := (hZ p).mp h
        rcases eq_or_lt_of_le hi with rfl | hi
        · exact h2
        · exact hL p h1 i (by omega)
      · obtain ⟨h1, h2⟩ := (hP a).mp ha
        obtain ⟨h3, h4⟩ := (hQ b).mp hb
        simp only [comb]
        rcases eq_or_lt_of_le hi with rfl | hi
        · ring
        · rw [hL a h1 i (by omega), hL b h3 i (by omega)]; ring) with ⟨x, hx⟩ | ⟨b, hb, hc⟩
    · left
      let s : ((ℕ → ℚ) × ℚ) → ℚ := fun p => ∑ i ∈ Finset.range n, p.1 i * x i
      obtain ⟨t, ht1, ht2⟩ := exists_between (Q.map (fun q => (q.2 - s q) / q.1 n)) (P.map (fun p => (p.2 - s p) / p.1 n)) (by
        intro l hl u hu
        obtain ⟨q, hq, rfl⟩ := List.mem_map.mp hl
        obtain ⟨p, hp, rfl⟩ := List.mem_map.mp hu
        have hq' := ((hQ q).mp hq).2
        have hp' := ((hP p).mp hp).2
        have := hx (comb p q) ((hL' _).mpr (.inr ⟨p, hp, q, hq, rfl⟩))
        have e : ∑ i ∈ Finset.range n, (comb p q).1 i * x i = (-q.1 n) * s p + p.1 n * s q := by
          simp only [comb, s, Finset.mul_sum, ← Finset.sum_add_distrib]
          exact Finset.sum_congr rfl fun i _ => by ring
        rw [e] at this
        simp only [comb] at this
        rw [div_le_iff_of_neg hq', div_mul_eq_mul_div, div_le_iff₀ hp']
        nlinarith)
      refine ⟨fun i => if i = n then t else x i, fun p hp => ?_⟩
      have e : ∑ i ∈ Finset.range (n + 1), p.1 i * (if i = n then t else x i) = s p + p.1 n * t := by
        rw [Finset.sum_range_succ, if_pos rfl]
        congr 1
        refine Finset.sum_congr rfl fun i hi => ?_
        rw [if_neg (by have := Finset.mem_range.mp hi; omega)]
      rw [e]
      rcases lt_trichotomy (p.1 n) 0 with h | h | h
      · have := ht1 _ (List.mem_map.mpr ⟨p, (hQ p).mpr ⟨hp, h⟩, rfl⟩)
        rw [div_le_iff_of_neg h] at this
        linarith
      · have := hx p ((hL' p).mpr (.inl ((hZ p).mpr ⟨hp, h⟩)))
        rw [h]
        simpa [s] using this
      · have := ht2 _ (List.mem_map.mpr ⟨p, (hP p).mpr ⟨hp, h⟩, rfl⟩)
        rw [le_div_iff₀ h] at this
        linarith
    · right
      refine ⟨b, hb, hc.trans fun p hp => ?_⟩
      rcases (hL' p).mp hp with h | ⟨a, ha, q, hq, rfl⟩
      · exact .mem ((hZ p).mp h).1
      · obtain ⟨h1, h2⟩ := (hP a).mp ha
        obtain ⟨h3, h4⟩ := (hQ q).mp hq
        exact .add (.smul _ (by linarith) (.mem h1)) (.smul _ h2.le (.mem h3))

/-- Covering and packing: for costs that are not negative there are a fractional cover and a fractional packing of the same value. -/
theorem cover_dual {n m : ℕ} {V : ℕ → Finset ℕ} (hV : ∀ c < m, (V c).Nonempty ∧ V c ⊆ Finset.range n) {W : ℕ → ℚ} (hW : ∀ v < n, 0 ≤ W v) :
    ∃ x y : ℕ → ℚ, (∀ v < n, 0 ≤ x v) ∧ (∀ c < m, 1 ≤ ∑ v ∈ V c, x v) ∧ (∀ c < m, 0 ≤ y c) ∧
      (∀ v < n, ∑ c ∈ (Finset.range m).filter (fun c => v ∈ V c), y c ≤ W v) ∧ ∑ v ∈ Finset.range n, W v * x v ≤ ∑ c ∈ Finset.range m, y c := by
  let L : List ((ℕ → ℚ) × ℚ) :=
    (List.range m).map (fun c => (fun i => if i ∈ V c then -1 else 0, -1)) ++
    (List.range n).map (fun v => (fun i => if i = v then -1 else 0, 0)) ++
    (List.range n).map (fun v => (fun i => if n ≤ i ∧ i < n + m ∧ v ∈ V (i - n) then 1 else 0, W v)) ++
    (List.range m).map (fun c => (fun i => if i = n + c then -1 else 0, 0)) ++
    [(fun i => if i < n then W i else if i < n + m then -1 else 0, 0)]
  have hmem : ∀ p, p ∈ L ↔ (∃ c < m, p = (fun i => if i ∈ V c then -1 else 0, -1)) ∨ (∃ v < n, p = (fun i => if i = v then -1 else 0, 0)) ∨
      (∃ v < n, p = (fun i => if n ≤ i ∧ i < n + m ∧ v ∈ V (i - n) then 1 else 0, W v)) ∨ (∃ c < m, p = (fun i => if i = n + c then -1 else 0, 0)) ∨
      p = (fun i => if i < n then W i else if i < n + m then -1 else 0, 0) := by
    intro p
    simp only [L, List.mem_append, List.mem_map, List.mem_range, List.mem_singleton, or_assoc, eq_comm (b := p)]
  have hlt : ∀ c < m, ∀ v ∈ V c, v < n := fun c hc v hv => Finset.mem_range.mp ((hV c hc).2 hv)
  rcases farkas (n + m) L (by
    intro p hp i hi
    rcases (hmem p).mp hp with ⟨c, hc, rfl⟩ | ⟨v, hv, rfl⟩ | ⟨v, hv, rfl⟩ | ⟨c, hc, rfl⟩ | rfl
    · exact if_neg fun h => by have := hlt c hc i h; omega
    · exact if_neg (by omega)
    · exact if_neg (by omega)
    · exact if_neg (by omega)
    · simp only
      rw [if_neg (by omega), if_neg (by omega)]) with ⟨z, hz⟩ | ⟨b, hb, hc⟩
  · have split : ∀ a : ℕ → ℚ, ∑ i ∈ Finset.range (n + m), a i = ∑ i ∈ Finset.range n, a i + ∑ c ∈ Finset.range m, a (n + c) := fun a =>
      Finset.sum_range_add _ _ _
    refine ⟨z, fun c => z (n + c), ?_, ?_, ?_, ?_, ?_⟩
    · intro v hv
      have := hz _ ((hmem _).mpr (.inr (.inl ⟨v, hv, rfl⟩)))
      simp only [ite_mul, zero_mul, Finset.sum_ite_eq', Finset.mem_range] at this
      rw [if_pos (by omega)] at this
      linarith
    · intro c hc
      have := hz _ ((hmem _).mpr (.inl ⟨c, hc, rfl⟩))
      simp only [ite_mul, zero_mul, ← Finset.sum_filter] at this
      have e : (Finset.range (n + m)).filter (fun i => i ∈ V c) = V c := by
        ext i
        simp only [Finset.mem_filter, Finset.mem_range]
        exact ⟨fun h => h.2, fun h => ⟨by have := hlt c hc i h; omega, h⟩⟩
      rw [e, ← Finset.mul_sum] at this
      linarith
    · intro c hc
      have := hz _ ((hmem _).mpr (.inr (.inr (.inr (.inl ⟨c, hc, rfl⟩)))))
      simp only [ite_mul, zero_mul, Finset.sum_ite_eq', Finset.mem_range] at this
      rw [if_pos (by omega)] at this
      linarith
    · intro v hv
      have := hz _ ((hmem _).mpr (.inr (.inr (.inl ⟨v, hv, rfl⟩))))
      rw [split] at this
      simp only at this
      rw [Finset.sum_eq_zero (fun i hi => by rw [if_neg (by have := Finset.mem_range.mp hi; omega), zero_mul]), zero_add] at this
      rw [Finset.sum_filter]
      refine le_trans (le_of_eq (Finset.sum_congr rfl fun c hc => ?_)) this
      have hc := Finset.mem_range.mp hc
      simp only [Nat.add_sub_cancel_left, Nat.le_add_right, true_and, add_lt_add_iff_left, hc]
      split <;> simp
    · have := hz _ ((hmem _).mpr (.inr (.inr (.inr (.inr rfl)))))
      rw [split] at this
      simp only at this
      rw [Finset.sum_congr rfl (fun i hi => by rw [if_pos (Finset.mem_range.mp hi)]),
        Finset.sum_congr (s₁ := Finset.range m) rfl (g := fun c => -z (n + c)) (fun c hc => by
          have hc := Finset.mem_range.mp hc
          rw [if_neg (by omega), if_pos (by omega)]; ring), Finset.sum_neg_distrib] at this
      linarith
  · exfalso
    have key : ∀ (a : ℕ → ℚ) (b : ℚ), Cone L a b → ∃ (p r : ℕ → ℚ) (t : ℚ), (∀ c < m, 0 ≤ p c) ∧ (∀ v < n, 0 ≤ r v) ∧ 0 ≤ t ∧
        (∀ v < n, a v ≤ t * W v - ∑ c ∈ (Finset.range m).filter (fun c => v ∈ V c), p c) ∧
        (∀ c < m, a (n + c) ≤ ∑ v ∈ V c, r v - t) ∧ ∑ v ∈ Finset.range n, r v * W v - ∑ c ∈ Finset.range m, p c ≤ b := by
      intro a b h
      induction h with
      | zero => exact ⟨fun _ => 0, fun _ => 0, 0, by simp, by simp, le_rfl, by simp, by simp, by simp⟩
      | add _ _ h1 h2 =>
        obtain ⟨p, r, t, a1, a2, a3, a4, a5, a6⟩ := h1
        obtain ⟨p', r', t', b1, b2, b3, b4, b5, b6⟩ := h2
        refine ⟨fun c => p c + p' c, fun v => r v + r' v, t + t', fun c hc => add_nonneg (a1 c hc) (b1 c hc), fun v hv => add_nonneg (a2 v hv) (b2 v hv),
          add_nonneg a3 b3, fun v hv => ?_, fun c hc => ?_, ?_⟩
        · rw [Finset.sum_add_distrib]
          have := a4 v hv
          have := b4 v hv
          linarith
        · rw [Finset.sum_add_distrib]
          have := a5 c hc
          have := b5 c hc
          linarith
        · simp only [add_mul, Finset.sum_add_distrib]
          linarith
      | smul q hq _ h1 =>
        obtain ⟨p, r, t, a1, a2, a3, a4, a5, a6⟩ := h1
        refine ⟨fun c => q * p c, fun v => q * r v, q * t, fun c hc => mul_nonneg hq (a1 c hc), fun v hv => mul_nonneg hq (a2 v hv),
          mul_nonneg hq a3, fun v hv => ?_, fun c hc => ?_, ?_⟩
        · rw [← Finset.mul_sum]
          have := mul_le_mul_of_nonneg_left (a4 v hv) hq
          linarith
        · rw [← Finset.mul_sum]
          have := mul_le_mul_of_nonneg_left (a5 c hc) hq
          linarith
        · simp only [mul_assoc, ← Finset.mul_sum]
          have := mul_le_mul_of_nonneg_left a6 hq
          linarith
      | mem hp =>
        rcases (hmem _).mp hp with ⟨c, hc, rfl⟩ | ⟨v, hv, rfl⟩ | ⟨v, hv, rfl⟩ | ⟨c, hc, rfl⟩ | rfl
        · refine ⟨fun c' => if c' = c then 1 else 0, fun _ => 0, 0, fun c' _ => by beta_reduce; split <;> simp, by simp, le_rfl, fun v hv => ?_, fun c' hc' => ?_, ?_⟩
          · simp only [Finset.sum_ite_eq', Finset.mem_filter, Finset.mem_range, hc, true_and]
            split <;> simp
          · simp only
            rw [if_neg fun h => by have := hlt c hc _ h; omega]
            simp
          · simp [hc]
        · refine ⟨fun _ => 0, fun _ => 0, 0, by simp, by simp, le_rfl, fun v' hv' => ?_, fun c' hc' => ?_, by simp⟩ <;> simp only <;> split <;> simp
        · refine ⟨fun _ => 0, fun v' => if v' = v then 1 else 0, 0, by simp, fun v' _ => by beta_reduce; split <;> simp, le_rfl, fun v' hv' => ?_, fun c' hc' => ?_, ?_⟩
          · simp only
            rw [if_neg (by omega)]
            simp
          · simp only [Finset.sum_ite_eq', Nat.add_sub_cancel_left, Nat.le_add_right, true_and, add_lt_add_iff_left, hc']
            simp
          · simp [hv]
        · refine ⟨fun _ => 0, fun _ => 0, 0, by simp, by simp, le_rfl, fun v' hv' => ?_, fun c' hc' => ?_, by simp⟩ <;> simp only <;> split <;> simp
        · refine ⟨fun _ => 0, fun _ => 0, 1, by simp, by simp, zero_le_one, fun v' hv' => ?_, fun c' hc' => ?_, by simp⟩
          · simp [hv']
          · simp [hc']
    obtain ⟨p, r, t, a1, a2, a3, a4, a5, a6⟩ := key _ _ hc
    have hswap : ∀ f g : ℕ → ℚ, ∑ c ∈ Finset.range m, f c * ∑ v ∈ V c, g v =
        ∑ v ∈ Finset.range n, g v * ∑ c ∈ (Finset.range m).filter (fun c => v ∈ V c), f c := by
      intro f g
      simp only [Finset.mul_sum]
      rw [Finset.sum_comm' (t' := Finset.range n) (s' := fun v => (Finset.range m).filter (fun c => v ∈ V c))]
      · exact Finset.sum_congr rfl fun v _ => Finset.sum_congr rfl fun c _ => by ring
      · intro c v
        simp only [Finset.mem_range, Finset.mem_filter]
        exact ⟨fun ⟨h1, h2⟩ => ⟨⟨h1, h2⟩, hlt c h1 v h2⟩, fun ⟨⟨h1, h2⟩, _⟩ => ⟨h1, h2⟩⟩
    rcases eq_or_lt_of_le a3 with ht | ht
    · have hp0 : ∑ c ∈ Finset.range m, p c ≤ 0 := by
        refine Finset.sum_nonpos fun c hc => ?_
        have hc := Finset.mem_range.mp hc
        obtain ⟨v, hv⟩ := (hV c hc).1
        have h1 := a4 v (hlt c hc v hv)
        rw [← ht, zero_mul] at h1
        have h2 : p c ≤ ∑ c ∈ (Finset.range m).filter (fun c => v ∈ V c), p c :=
          Finset.single_le_sum (f := p) (fun c hc => a1 c (Finset.mem_range.mp (Finset.mem_filter.mp hc).1)) (Finset.mem_filter.mpr ⟨Finset.mem_range.mpr hc, hv⟩)
        linarith
      have hr0 : 0 ≤ ∑ v ∈ Finset.range n, r v * W v :=
        Finset.sum_nonneg fun v hv => mul_nonneg (a2 v (Finset.mem_range.mp hv)) (hW v (Finset.mem_range.mp hv))
      linarith
    · have h1 : t * ∑ c ∈ Finset.range m, p c ≤ ∑ c ∈ Finset.range m, p c * ∑ v ∈ V c, r v := by
        rw [Finset.mul_sum]
        refine Finset.sum_le_sum fun c hc => ?_
        have := a5 c (Finset.mem_range.mp hc)
        rw [mul_comm]
        exact mul_le_mul_of_nonneg_left (by linarith) (a1 c (Finset.mem_range.mp hc))
      have h2 : ∑ v ∈ Finset.range n, r v * ∑ c ∈ (Finset.range m).filter (fun c => v ∈ V c), p c ≤ t * ∑ v ∈ Finset.range n, r v * W v := by
        rw [Finset.mul_sum]
        refine Finset.sum_le_sum fun v hv => ?_
        have := a4 v (Finset.mem_range.mp hv)
        have := mul_le_mul_of_nonneg_left (show ∑ c ∈ (Finset.range m).filter (fun c => v ∈ V c), p c ≤ t * W v by linarith) (a2 v (Finset.mem_range.mp hv))
        linarith
      rw [hswap] at h1
      have h3 := le_of_mul_le_mul_left (h1.trans h2) ht
      linarith

end Verif.Proofs
