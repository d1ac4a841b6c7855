import Verif.Proofs.Growth
import Mathlib.Tactic.Positivity

/-! How messages grow in augmented rounds of the TSP solver. -/

namespace Verif.Proofs
open Verif Num Spec Model

/-- Bound of the messages before iteration `j` if no edge is in more than `C` cuts. -/
def cutLevel (B : ℚ) (C j : ℕ) : ℚ := B * (((C : ℚ) ^ 2 + C + 1) ^ j + (C + 1) * ∑ l ∈ Finset.range j, ((C : ℚ) ^ 2 + C + 1) ^ l)

theorem cutLevel_zero (B : ℚ) (C : ℕ) : cutLevel B C 0 = B := by simp [cutLevel]

theorem cutLevel_succ (B : ℚ) (C j : ℕ) : cutLevel B C (j + 1) = (C ^ 2 + C + 1) * cutLevel B C j + (C + 1) * B := by
  unfold cutLevel
  have h : ∑ l ∈ Finset.range (j + 1), ((C : ℚ) ^ 2 + C + 1) ^ l = 1 + ((C : ℚ) ^ 2 + C + 1) * ∑ l ∈ Finset.range j, ((C : ℚ) ^ 2 + C + 1) ^ l := by
    rw [Finset.sum_range_succ', Finset.mul_sum, pow_zero, add_comm]
    congr 1
    exact Finset.sum_congr rfl fun l _ => by rw [pow_succ]; ring
  rw [h, pow_succ]
  ring

theorem cutLevel_nonneg {B : ℚ} (h : 0 ≤ B) (C j : ℕ) : 0 ≤ cutLevel B C j := by
  unfold cutLevel
  have : (0 : ℚ) ≤ ∑ l ∈ Finset.range j, ((C : ℚ) ^ 2 + C + 1) ^ l := Finset.sum_nonneg fun _ _ => by positivity
  positivity

theorem cutLevel_le {B : ℚ} (h : 0 ≤ B) (C : ℕ) {i j : ℕ} (hij : i ≤ j) : cutLevel B C i ≤ cutLevel B C j := by
  induction j, hij using Nat.le_induction with
  | base => exact le_rfl
  | succ j _ ih =>
    rw [cutLevel_succ]
    have h1 := cutLevel_nonneg h C j
    have h2 : 0 ≤ ((C : ℚ) ^ 2 + C) * cutLevel B C j := by positivity
    have h3 : 0 ≤ ((C : ℚ) + 1) * B := by positivity
    nlinarith

section
variable {n : ℕ} {edges : List (ℕ × ℕ)} {deltas : List (List ℕ)} {w : ℕ → ℚ} {c x0 s0 : ℕ → ℕ → ℚ} {flag : Bool} {alpha B : ℚ}
  {x r y q : ℕ → ℕ → ℕ → ℚ}

/-- A degree message is no larger than the messages it was computed from. -/
theorem degree_le (hok : EdgesOk n edges) (ht : IsTspTrace n edges deltas w c flag alpha x0 s0 x r y q) {i : ℕ} {M : ℚ}
    (hx : ∀ e < edges.length, ∀ v, v = src edges e ∨ v = dst edges e → |x i e v| ≤ M) :
    ∀ e < edges.length, ∀ v, v = src edges e ∨ v = dst edges e → |r i e v| ≤ M := by
  have hcl : ∀ {S : Finset ℕ} {f : ℕ → ℚ} {e : ℕ} {m M : ℚ}, e ∈ S → (∀ a ∈ S, |f a| ≤ M) → IsMessage S ExactlyOne f e (fin m) → |m| ≤ M := by
    intro S f e m M he hf h
    obtain ⟨a, ha, -, e1⟩ := (exactlyOne_fin he h).1
    have := hf a ha
    rw [e1, abs_neg] at this
    exact this
  rintro e he v (rfl | rfl)
  · have hm : e ∈ outEdges edges (src edges e) := mem_out.mpr ⟨he, rfl⟩
    exact hcl hm (fun a ha => hx a (mem_out.mp ha).1 _ (Or.inl (mem_out.mp ha).2.symm)) (ht.out i _ (src_lt hok he) e hm)
  · have hm : e ∈ inEdges edges (dst edges e) := mem_in.mpr ⟨he, rfl⟩
    exact hcl hm (fun a ha => hx a (mem_in.mp ha).1 _ (Or.inr (mem_in.mp ha).2.symm)) (ht.inn i _ (dst_lt hok he) e hm)

theorem abs_sum_card_le {ι : Type} {S : Finset ι} {f : ι → ℚ} {M : ℚ} {C : ℕ} (hM : 0 ≤ M) (hC : S.card ≤ C) (hf : ∀ i ∈ S, |f i| ≤ M) :
    |∑ i ∈ S, f i| ≤ C * M := by
  refine (Finset.abs_sum_le_sum_abs f S).trans ((Finset.sum_le_card_nsmul S _ M hf).trans ?_)
  rw [nsmul_eq_mul]
  exact mul_le_mul_of_nonneg_right (by exact_mod_cast hC) hM

/-- Messages of augmented rounds grow at most exponentially. -/
theorem cuts_bound (hok : EdgesOk n edges) (hd : CutsOk edges.length deltas) (ha : flag = true → 0 ≤ alpha ∧ alpha ≤ 1) (hB : 0 ≤ B)
    (hw : ∀ e < edges.length, |w e| ≤ B) (hc : ∀ e < edges.length, ∀ v, v = src edges e ∨ v = dst edges e → |c e v| ≤ B)
    (hx : ∀ e < edges.length, ∀ v, v = src edges e ∨ v = dst edges e → |x0 e v| ≤ B)
    (hs : ∀ k < deltas.length, ∀ e ∈ deltas.getD k [], |s0 k e| ≤ B) {C : ℕ} (hC : ∀ e < edges.length, (cuts deltas e).card ≤ C)
    (ht : IsTspTrace n edges deltas w c flag alpha x0 s0 x r y q) (j : ℕ) :
    (∀ i ≤ j, ∀ e < edges.length, ∀ v, v = src edges e ∨ v = dst edges e → |x i e v| ≤ cutLevel B C j ∧ |r i e v| ≤ cutLevel B C j) ∧
    ∀ i ≤ j, ∀ k < deltas.length, ∀ e ∈ deltas.getD k [], |q i k e| ≤ (C + 1) * cutLevel B C j + B := by
  have hEd : ∀ {k e}, k < deltas.length → e ∈ deltas.getD k [] → e < edges.length := by
    intro k e hk he
    rw [List.getD_eq_getElem _ _ hk] at he
    exact (hd _ (List.getElem_mem hk)).2.2 e he
  -- damped degree messages
  have hdeg : ∀ j, (∀ i ≤ j, ∀ e < edges.length, ∀ v, v = src edges e ∨ v = dst edges e → |r i e v| ≤ cutLevel B C j) →
      ∀ e < edges.length, ∀ v, v = src edges e ∨ v = dst edges e → |damped flag alpha (fun i => r i e v) j| ≤ cutLevel B C j := by
    intro j h e he v hv
    have h0 := cutLevel_nonneg hB C j
    exact abs_le.mpr (damped_le ha (by linarith) h0 fun i hi => abs_le.mp (h i hi e he v hv))
  -- one cut message
  have hq : ∀ j, (∀ i ≤ j, ∀ e < edges.length, ∀ v, v = src edges e ∨ v = dst edges e → |r i e v| ≤ cutLevel B C j) →
      (∀ k < deltas.length, ∀ e ∈ deltas.getD k [], |prev flag alpha (s0 k e) (fun i => q i k e) j| ≤ cutLevel B C j) →
      ∀ k < deltas.length, ∀ e ∈ deltas.getD k [], |q j k e| ≤ (C + 1) * cutLevel B C j + B := by
    intro j hr hp k hk
    have h0 := cutLevel_nonneg hB C j
    have hy : ∀ e ∈ deltas.getD k [], |y j k e| ≤ (C + 1) * cutLevel B C j + B := by
      intro e he
      have hE := hEd hk he
      have hkm : k ∈ cuts deltas e := mem_cuts.mpr ⟨hk, he⟩
      have hcard : ((cuts deltas e).erase k).card ≤ C - 1 := by
        rw [Finset.card_erase_of_mem hkm]; exact Nat.sub_le_sub_right (hC e hE) 1
      have hC1 : 1 ≤ C := (Finset.card_pos.mpr ⟨k, hkm⟩).trans_le (hC e hE)
      have k1 := abs_sum_card_le (f := fun k' => prev flag alpha (s0 k' e) (fun i => q i k' e) j) h0 hcard
        (fun k' hk' => hp k' (mem_cuts.mp (Finset.mem_of_mem_erase hk')).1 e (mem_cuts.mp (Finset.mem_of_mem_erase hk')).2)
      rw [Nat.cast_sub hC1, Nat.cast_one] at k1
      rw [ht.to_cut j k hk e he]
      have k1 := abs_le.mp k1
      have k2 := abs_le.mp (hw e hE)
      have k3 := abs_le.mp (hdeg j hr e hE _ (Or.inl rfl))
      have k4 := abs_le.mp (hdeg j hr e hE _ (Or.inr rfl))
      exact abs_le.mpr ⟨by linarith [k1.1, k2.1, k3.1, k4.1], by linarith [k1.2, k2.2, k3.2, k4.2]⟩
    intro e he
    obtain ⟨v, ⟨⟨a, haS, -, e1⟩, -⟩, e2⟩ := atLeastOne_fin (List.mem_toFinset.mpr he) (ht.cut j k hk e he)
    have k1 := abs_le.mp (hy a (List.mem_toFinset.mp haS))
    have h1 : 0 ≤ ((C : ℚ) + 1) * cutLevel B C j + B := by positivity
    rw [e2, ← e1]
    refine abs_le.mpr ⟨le_min (by linarith [k1.2]) (by linarith), (min_le_right _ _).trans h1⟩
  have hgrow : ∀ j, (C + 1) * cutLevel B C j + B ≤ cutLevel B C (j + 1) := by
    intro j
    rw [cutLevel_succ]
    have h0 := cutLevel_nonneg hB C j
    have h1 : 0 ≤ ((C : ℚ) ^ 2) * cutLevel B C j := by positivity
    have h2 : 0 ≤ (C : ℚ) * B := by positivity
    nlinarith
  -- all three kinds of messages
  have hmain : ∀ j, (∀ i ≤ j, ∀ e < edges.length, ∀ v, v = src edges e ∨ v = dst edges e →
      |x i e v| ≤ cutLevel B C j ∧ |r i e v| ≤ cutLevel B C j) ∧
      (∀ k < deltas.length, ∀ e ∈ deltas.getD k [], |prev flag alpha (s0 k e) (fun i => q i k e) j| ≤ cutLevel B C j) ∧
      ∀ i ≤ j, ∀ k < deltas.length, ∀ e ∈ deltas.getD k [], |q i k e| ≤ (C + 1) * cutLevel B C j + B := by
    intro j
    induction j with
    | zero =>
      have h0 : ∀ e < edges.length, ∀ v, v = src edges e ∨ v = dst edges e → |x 0 e v| ≤ cutLevel B C 0 := by
        rw [cutLevel_zero]
        rintro e he v (rfl | rfl)
        · rw [ht.init_src e he]; exact hx e he _ (Or.inl rfl)
        · rw [ht.init_dst e he]; exact hx e he _ (Or.inr rfl)
      have h1 := degree_le hok ht h0
      have h2 : ∀ k < deltas.length, ∀ e ∈ deltas.getD k [], |prev flag alpha (s0 k e) (fun i => q i k e) 0| ≤ cutLevel B C 0 := by
        rw [cutLevel_zero]; exact hs
      have h3 := hq 0 (fun i hi => by obtain rfl : i = 0 := by omega
                                      exact h1) h2
      refine ⟨fun i hi => ?_, h2, fun i hi => ?_⟩
      · obtain rfl : i = 0 := by omega
        exact fun e he v hv => ⟨h0 e he v hv, h1 e he v hv⟩
      · obtain rfl : i = 0 := by omega
        exact h3
    | succ j ih =>
      obtain ⟨ih1, ih2, ih3⟩ := ih
      have hl := cutLevel_nonneg hB C j
      have h0' : 0 ≤ ((C : ℚ) + 1) * cutLevel B C j + B := by positivity
      have hdq : ∀ k < deltas.length, ∀ e ∈ deltas.getD k [], |damped flag alpha (fun i => q i k e) j| ≤ (C + 1) * cutLevel B C j + B :=
        fun k hk e he => abs_le.mpr (damped_le ha (by linarith) h0' fun i hi => abs_le.mp (ih3 i hi k hk e he))
      have hdr := hdeg j (fun i hi e he v hv => (ih1 i hi e he v hv).2)
      have h1 : ∀ e < edges.length, ∀ v, v = src edges e ∨ v = dst edges e → |x (j + 1) e v| ≤ cutLevel B C (j + 1) := by
        rintro e he v hv
        have k3 := abs_le.mp (abs_sum_card_le (f := fun k => damped flag alpha (fun i => q i k e) j) h0' (hC e he)
          (fun k hk => hdq k (mem_cuts.mp hk).1 e (mem_cuts.mp hk).2))
        rw [cutLevel_succ]
        rcases hv with rfl | rfl
        · rw [ht.var_src j e he]
          have k1 := abs_le.mp (hc e he _ (Or.inl rfl))
          have k2 := abs_le.mp (hdr e he _ (Or.inr rfl))
          exact abs_le.mpr ⟨by linarith [k1.1, k2.1, k3.1], by linarith [k1.2, k2.2, k3.2]⟩
        · rw [ht.var_dst j e he]
          have k1 := abs_le.mp (hc e he _ (Or.inr rfl))
          have k2 := abs_le.mp (hdr e he _ (Or.inl rfl))
          exact abs_le.mpr ⟨by linarith [k1.1, k2.1, k3.1], by linarith [k1.2, k2.2, k3.2]⟩
      have hmono := cutLevel_le hB C (Nat.le_succ j)
      have h2 : ∀ i ≤ j + 1, ∀ e < edges.length, ∀ v, v = src edges e ∨ v = dst edges e →
          |x i e v| ≤ cutLevel B C (j + 1) ∧ |r i e v| ≤ cutLevel B C (j + 1) := by
        intro i hi e he v hv
        rcases Nat.lt_or_ge i (j + 1) with hlt | hge
        · have := ih1 i (by omega) e he v hv
          exact ⟨this.1.trans hmono, this.2.trans hmono⟩
        · obtain rfl : i = j + 1 := by omega
          exact ⟨h1 e he v hv, degree_le hok ht h1 e he v hv⟩
      have h3 : ∀ k < deltas.length, ∀ e ∈ deltas.getD k [], |prev flag alpha (s0 k e) (fun i => q i k e) (j + 1)| ≤ cutLevel B C (j + 1) :=
        fun k hk e he => (hdq k hk e he).trans (hgrow j)
      have h4 := hq (j + 1) (fun i hi e he v hv => (h2 i hi e he v hv).2) h3
      refine ⟨h2, h3, fun i hi => ?_⟩
      rcases Nat.lt_or_ge i (j + 1) with hlt | hge
      · intro k hk e he
        refine (ih3 i (by omega) k hk e he).trans ?_
        have : ((C : ℚ) + 1) * cutLevel B C j ≤ (C + 1) * cutLevel B C (j + 1) := mul_le_mul_of_nonneg_left hmono (by positivity)
        linarith
      · obtain rfl : i = j + 1 := by omega
        exact h4
  exact ⟨(hmain j).1, (hmain j).2.2⟩

/-- The messages if all costs and start messages are `p`, no cut has a message yet and every edge is in `d + 1` cuts. -/
theorem uniform_trace {p : ℚ} (hp : 0 ≤ p) {d : ℕ} (hok : EdgesOk n edges) (hoff : flag = false ∨ alpha = 0)
    (hd : CutsOk edges.length deltas) (hC : ∀ e < edges.length, (cuts deltas e).card = d + 1)
    (hw : ∀ e < edges.length, w e = p) (hc : ∀ e < edges.length, ∀ v, v = src edges e ∨ v = dst edges e → c e v = p)
    (hx : ∀ e < edges.length, ∀ v, v = src edges e ∨ v = dst edges e → x0 e v = p)
    (hs : ∀ k < deltas.length, ∀ e ∈ deltas.getD k [], s0 k e = 0)
    (ht : IsTspTrace n edges deltas w c flag alpha x0 s0 x r y q) (j : ℕ) :
    (∀ e < edges.length, ∀ v, v = src edges e ∨ v = dst edges e → 2 * r j e v + p = p * (2 * ∑ l ∈ Finset.range j, (d : ℚ) ^ l - 1)) ∧
    ∀ k < deltas.length, ∀ e ∈ deltas.getD k [], q j k e = -(p * ∑ l ∈ Finset.range j, (d : ℚ) ^ l) := by
  have hEd : ∀ {k e}, k < deltas.length → e ∈ deltas.getD k [] → e < edges.length := by
    intro k e hk he
    rw [List.getD_eq_getElem _ _ hk] at he
    exact (hd _ (List.getElem_mem hk)).2.2 e he
  have hsum : ∀ j, ∑ l ∈ Finset.range (j + 1), (d : ℚ) ^ l = 1 + d * ∑ l ∈ Finset.range j, (d : ℚ) ^ l := by
    intro j
    rw [Finset.sum_range_succ', Finset.mul_sum, pow_zero, add_comm]
    congr 1
    exact Finset.sum_congr rfl fun l _ => by rw [pow_succ]; ring
  -- degree messages mirror equal inputs
  have hr : ∀ j M, (∀ e < edges.length, ∀ v, v = src edges e ∨ v = dst edges e → x j e v = M) →
      ∀ e < edges.length, ∀ v, v = src edges e ∨ v = dst edges e → r j e v = -M := by
    rintro j M hx e he v (rfl | rfl)
    · have hm : e ∈ outEdges edges (src edges e) := mem_out.mpr ⟨he, rfl⟩
      obtain ⟨a, haS, -, e1⟩ := (exactlyOne_fin hm (ht.out j _ (src_lt hok he) e hm)).1
      have := hx a (mem_out.mp haS).1 _ (Or.inl (mem_out.mp haS).2.symm)
      linarith
    · have hm : e ∈ inEdges edges (dst edges e) := mem_in.mpr ⟨he, rfl⟩
      obtain ⟨a, haS, -, e1⟩ := (exactlyOne_fin hm (ht.inn j _ (dst_lt hok he) e hm)).1
      have := hx a (mem_in.mp haS).1 _ (Or.inr (mem_in.mp haS).2.symm)
      linarith
  have hq : ∀ j D S, (∀ e < edges.length, ∀ v, v = src edges e ∨ v = dst edges e → r j e v = D) →
      (∀ k < deltas.length, ∀ e ∈ deltas.getD k [], prev flag alpha (s0 k e) (fun i => q i k e) j = S) →
      ∀ k < deltas.length, ∀ e ∈ deltas.getD k [], q j k e = min (-(p + 2 * D + d * S)) 0 := by
    intro j D S hr hp k hk e he
    have hy : ∀ e ∈ deltas.getD k [], y j k e = p + 2 * D + d * S := by
      intro e he
      have hE := hEd hk he
      rw [ht.to_cut j k hk e he, undamped hoff, undamped hoff, hr e hE _ (Or.inl rfl), hr e hE _ (Or.inr rfl), hw e hE,
        Finset.sum_congr rfl fun k' hk' => hp k' (mem_cuts.mp (Finset.mem_of_mem_erase hk')).1 e (mem_cuts.mp (Finset.mem_of_mem_erase hk')).2,
        Finset.sum_const, Finset.card_erase_of_mem (mem_cuts.mpr ⟨hk, he⟩), hC e hE, nsmul_eq_mul]
      simp only [Nat.add_sub_cancel]
      ring
    obtain ⟨v, ⟨⟨a, haS, -, e1⟩, -⟩, e2⟩ := atLeastOne_fin (List.mem_toFinset.mpr he) (ht.cut j k hk e he)
    rw [e2, ← e1, hy a (List.mem_toFinset.mp haS)]
  have h0 : ∀ e < edges.length, ∀ v, v = src edges e ∨ v = dst edges e → x 0 e v = p := by
    rintro e he v (rfl | rfl)
    · rw [ht.init_src e he]; exact hx e he _ (Or.inl rfl)
    · rw [ht.init_dst e he]; exact hx e he _ (Or.inr rfl)
  induction j with
  | zero =>
    have h1 := hr 0 p h0
    refine ⟨fun e he v hv => by rw [h1 e he v hv]; simp; ring, fun k hk e he => ?_⟩
    rw [hq 0 (-p) 0 h1 hs k hk e he, min_eq_right (by linarith)]
    simp
  | succ j ih =>
    obtain ⟨ih1, ih2⟩ := ih
    have hD : ∀ e < edges.length, ∀ v, v = src edges e ∨ v = dst edges e → r j e v = p * (∑ l ∈ Finset.range j, (d : ℚ) ^ l - 1) :=
      fun e he v hv => by linarith [ih1 e he v hv]
    have hS : ∀ e < edges.length, ∑ k ∈ cuts deltas e, damped flag alpha (fun i => q i k e) j =
        -((d + 1) * (p * ∑ l ∈ Finset.range j, (d : ℚ) ^ l)) := by
      intro e he
      rw [Finset.sum_congr rfl fun k hk => (undamped hoff _ j).trans (ih2 k (mem_cuts.mp hk).1 e (mem_cuts.mp hk).2), Finset.sum_const, hC e he,
        nsmul_eq_mul]
      push_cast; ring
    have h1 : ∀ e < edges.length, ∀ v, v = src edges e ∨ v = dst edges e → x (j + 1) e v = -(d * (p * ∑ l ∈ Finset.range j, (d : ℚ) ^ l)) := by
      rintro e he v (rfl | rfl)
      · rw [ht.var_src j e he, hc e he _ (Or.inl rfl), undamped hoff, hD e he _ (Or.inr rfl), hS e he]; ring
      · rw [ht.var_dst j e he, hc e he _ (Or.inr rfl), undamped hoff, hD e he _ (Or.inl rfl), hS e he]; ring
    have h2 := hr (j + 1) _ h1
    refine ⟨fun e he v hv => by rw [h2 e he v hv, hsum]; ring, fun k hk e he => ?_⟩
    have hg : 0 ≤ ∑ l ∈ Finset.range j, (d : ℚ) ^ l := Finset.sum_nonneg fun _ _ => by positivity
    rw [hq (j + 1) _ _ h2 (fun k hk e he => (undamped hoff _ j).trans (ih2 k hk e he)) k hk e he, hsum, min_eq_left]
    · ring
    · have : 0 ≤ p * (d * ∑ l ∈ Finset.range j, (d : ℚ) ^ l) := by positivity
      linarith

end

end Verif.Proofs
