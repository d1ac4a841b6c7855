import Verif.Proofs.InfSpread
import Verif.Proofs.TspTotal
import Mathlib.Algebra.Order.Archimedean.Basic

/-! The relaxed round with forbidden edges. -/

namespace Verif.Proofs
open Verif Num Model Spec

/-- Two bounds that approach each other with a gain grow beyond every limit. -/
theorem grows_of_step {P : ℕ → ℚ → ℚ → Prop} {ρ δ m : ℚ} (mono : ∀ t a b a' b', P t a b → a' ≤ a → b' ≤ b → P t a' b')
    (hstep : ∀ t a b, P t a b → P (t + 1) (ρ * a + (1 - ρ) * b) ((1 - ρ) * (δ + a) + ρ * b)) (hm : P 0 m m) (h0 : 0 ≤ ρ) (h1 : ρ < 1) (hδ : 0 < δ)
    (B : ℚ) : ∃ T, ∀ t ≥ T, P t B B := by
  have hκ : 0 < (1 - ρ) * (1 - ρ) * δ := mul_pos (mul_pos (by linarith) (by linarith)) hδ
  have hmul : 0 ≤ ρ * (1 - ρ) * δ := mul_nonneg (mul_nonneg h0 (by linarith)) hδ.le
  have hδρ : 0 < (1 - ρ) * δ := mul_pos (by linarith) hδ
  have step : ∀ t z, P t z z → P (t + 1) z (z + (1 - ρ) * δ) := by
    intro t z hz
    refine mono _ _ _ _ _ (hstep _ _ _ hz) ?_ ?_ <;> (apply le_of_eq; ring)
  have two : ∀ t z, P t z z → P (t + 2) (z + (1 - ρ) * (1 - ρ) * δ) (z + (1 - ρ) * (1 - ρ) * δ) := by
    intro t z hz
    refine mono _ _ _ _ _ (hstep _ _ _ (step t z hz)) ?_ ?_
    · apply le_of_eq; ring
    · have : (1 - ρ) * (δ + z) + ρ * (z + (1 - ρ) * δ) = z + (1 - ρ) * (1 - ρ) * δ + 2 * (ρ * (1 - ρ) * δ) := by ring
      rw [this]; linarith
  have key : ∀ k : ℕ, ∀ t : ℕ, (t = 2 * k ∨ t = 2 * k + 1) → P t (m + k * ((1 - ρ) * (1 - ρ) * δ)) (m + k * ((1 - ρ) * (1 - ρ) * δ)) := by
    intro k
    induction k with
    | zero =>
      intro t ht0
      rcases ht0 with rfl | rfl
      · simpa using hm
      · exact mono _ _ _ _ _ (step 0 m hm) (by simp) (by simp; linarith)
    | succ k ih =>
      intro t ht0
      have := two (t - 2) _ (ih (t - 2) (by omega))
      rw [show t - 2 + 2 = t by omega] at this
      refine mono _ _ _ _ _ this ?_ ?_ <;> (push_cast; apply le_of_eq; ring)
  obtain ⟨k, hk⟩ := exists_nat_gt ((B - m) / ((1 - ρ) * (1 - ρ) * δ))
  rw [div_lt_iff₀ hκ] at hk
  refine ⟨2 * k, fun t ht2 => ?_⟩
  have hle : (k : ℚ) * ((1 - ρ) * (1 - ρ) * δ) ≤ ((t / 2 : ℕ) : ℚ) * ((1 - ρ) * (1 - ρ) * δ) := by
    apply mul_le_mul_of_nonneg_right _ hκ.le
    exact_mod_cast (by omega : k ≤ t / 2)
  refine mono _ _ _ _ _ (key (t / 2) t (by omega)) ?_ ?_ <;> linarith

theorem foldl_atLeast {f : ℕ → ℚ} {x : ℕ → Num} {n : ℕ} (h : ∀ v < n, AtLeast (f v) (x v)) :
    AtLeast (∑ v ∈ Finset.range n, f v) ((List.range n).foldl (fun acc v => acc + x v) 0) := by
  induction n with
  | zero => exact Or.inr ⟨0, rfl, by simp⟩
  | succ n ih =>
    rw [List.range_succ, List.foldl_append, Finset.sum_range_succ]
    exact (ih fun v hv => h v (by omega)).add (h n (by omega))

theorem foldl_atMost {f : ℕ → ℚ} {x : ℕ → Num} {n : ℕ} (h : ∀ v < n, AtMost (f v) (x v)) :
    AtMost (∑ v ∈ Finset.range n, f v) ((List.range n).foldl (fun acc v => acc + x v) 0) := by
  induction n with
  | zero => exact Or.inr ⟨0, rfl, by simp⟩
  | succ n ih =>
    rw [List.range_succ, List.foldl_append, Finset.sum_range_succ]
    exact (ih fun v hv => h v (by omega)).add (h n (by omega))

theorem sum_two {n s d : ℕ} (hs : s < n) (hd : d < n) (hne : s ≠ d) (p q : ℚ) :
    ∑ v ∈ Finset.range n, (if v = s then p else if v = d then q else 0) = p + q := by
  have : ∀ v, (if v = s then p else if v = d then q else 0) = (if v = s then p else 0) + (if v = d then q else 0) := by
    intro v
    by_cases h1 : v = s
    · have : v ≠ d := fun h => hne (h1.symm.trans h)
      simp [h1, hne]
    · simp [h1]
  simp only [this, Finset.sum_add_distrib, Finset.sum_ite_eq', Finset.mem_range, hs, hd, if_true]

section
variable {inp : TspInputs} {F : ℕ → ℕ → Bool} {C : ℕ → ℕ → ℚ} {next : ℕ → ℕ} {u v : ℕ → ℚ} {δ : ℚ} {e2d : Mat Num}

/-- The first `t` iterations return and the bounds hold. -/
def RunInv (inp : TspInputs) (c : ℕ → ℕ → Num) (next : ℕ → ℕ) (u v : ℕ → ℚ) (e2d : Mat Num) (t : ℕ) (a b : ℚ) : Prop :=
  ∃ m, loopUp t (tspRelaxedIter inp) (tspInit inp e2d) = some m ∧ InfInv inp c next u v t a b m

theorem InfInv.mono {c : ℕ → ℕ → Num} {j : ℕ} {a b a' b' : ℚ} {m : TspMsgs} (h : InfInv inp c next u v j a b m) (ha : a' ≤ a) (hb : b' ≤ b) :
    InfInv inp c next u v j a' b' m :=
  { h with
    non := fun e he hn => ⟨(h.non e he hn).1.mono (by linarith), (h.non e he hn).2.mono (by linarith)⟩
    cov := fun e he hn => ⟨(h.cov e he hn).1.mono (by linarith), (h.cov e he hn).2.mono (by linarith)⟩ }

theorem edge_lt (h : AllEdges inp.numNodes inp.edges) (hlen : inp.edges.length = inp.numEdges) {e : ℕ} (he : e < inp.numEdges) :
    src inp.edges e < inp.numNodes ∧ dst inp.edges e < inp.numNodes ∧ src inp.edges e ≠ dst inp.edges e := by
  have := h.2.1 _ (List.getElem_mem (show e < inp.edges.length by omega))
  rw [src_dst (by omega)] at this
  exact this

theorem run_start (h : CostsOk inp (forbid F C)) (he : EndCosts inp (forbid F C) e2d) (next : ℕ → ℕ) (u v : ℕ → ℚ) :
    ∃ a, RunInv inp (forbid F C) next u v e2d 0 a a := by
  have hu : ∀ i < inp.numNodes, |u i| ≤ ∑ i ∈ Finset.range inp.numNodes, (|u i| + |v i|) := fun i hi =>
    (le_add_of_nonneg_right (abs_nonneg (v i))).trans
      (Finset.single_le_sum (f := fun i => |u i| + |v i|) (fun j _ => add_nonneg (abs_nonneg _) (abs_nonneg _)) (Finset.mem_range.mpr hi))
  have hv : ∀ i < inp.numNodes, |v i| ≤ ∑ i ∈ Finset.range inp.numNodes, (|u i| + |v i|) := fun i hi =>
    (le_add_of_nonneg_left (abs_nonneg (u i))).trans
      (Finset.single_le_sum (f := fun i => |u i| + |v i|) (fun j _ => add_nonneg (abs_nonneg _) (abs_nonneg _)) (Finset.mem_range.mpr hi))
  set S := ∑ i ∈ Finset.range inp.numNodes, (|u i| + |v i|)
  have hz : ∀ c : Num, (fin 0 : Num) + c = c := fun c => by
    cases c with
    | fin q => exact congrArg fin (zero_add q)
    | _ => rfl
  refine ⟨-S, tspInit inp e2d, rfl, he.rows, he.cols, ?_, ?_, rfl, rfl, fun _ _ _ _ _ _ => rfl, rfl, rfl, fun _ _ _ _ _ _ => rfl, rfl, rfl,
    fun _ _ _ _ _ => rfl, fun _ _ _ _ _ => rfl, ?_, ?_⟩
  · intro e hl
    show e2d.data e _ = fin 0 + _
    rw [he.ends e hl _ (Or.inl rfl), hz]
  · intro e hl
    show e2d.data e _ = fin 0 + _
    rw [he.ends e hl _ (Or.inr rfl), hz]
  · intro e hl _
    obtain ⟨s1, s2, -⟩ := edge_lt h.all h.len hl
    have h1 := hu _ s1
    have h2 := hv _ s2
    exact ⟨atLeast_fin.mpr (by linarith [neg_abs_le (u (src inp.edges e))]), atLeast_fin.mpr (by linarith [neg_abs_le (v (dst inp.edges e))])⟩
  · intro e hl _
    obtain ⟨s1, s2, -⟩ := edge_lt h.all h.len hl
    have h1 := hu _ s1
    have h2 := hv _ s2
    exact ⟨atMost_fin.mpr (by linarith [le_abs_self (u (src inp.edges e))]), atMost_fin.mpr (by linarith [le_abs_self (v (dst inp.edges e))])⟩

theorem run_step (h : CostsOk inp (forbid F C)) (hd : DualF inp.numNodes F C next u v δ) (r0 : 0 ≤ rate inp.flag inp.alpha)
    (r1 : rate inp.flag inp.alpha < 1) {t : ℕ} {a b : ℚ} (hr : RunInv inp (forbid F C) next u v e2d t a b) :
    RunInv inp (forbid F C) next u v e2d (t + 1) (rate inp.flag inp.alpha * a + (1 - rate inp.flag inp.alpha) * b)
      ((1 - rate inp.flag inp.alpha) * (δ + a) + rate inp.flag inp.alpha * b) := by
  obtain ⟨m, h1, h2⟩ := hr
  obtain ⟨m', h3, h4⟩ := infStep h hd r0 r1 h2
  exact ⟨m', by rw [loopUp, h1]; exact h3, h4⟩

theorem run_all (h : CostsOk inp (forbid F C)) (he : EndCosts inp (forbid F C) e2d) (hd : DualF inp.numNodes F C next u v δ) (r0 : 0 ≤ rate inp.flag inp.alpha)
    (r1 : rate inp.flag inp.alpha < 1) (t : ℕ) : ∃ a b, RunInv inp (forbid F C) next u v e2d t a b := by
  induction t with
  | zero => obtain ⟨a, ha⟩ := run_start h he next u v; exact ⟨a, a, ha⟩
  | succ t ih => obtain ⟨a, b, hr⟩ := ih; exact ⟨_, _, run_step h hd r0 r1 hr⟩

theorem run_grows (h : CostsOk inp (forbid F C)) (he : EndCosts inp (forbid F C) e2d) (hd : DualF inp.numNodes F C next u v δ) (hδ : 0 < δ)
    (r0 : 0 ≤ rate inp.flag inp.alpha) (r1 : rate inp.flag inp.alpha < 1) (B : ℚ) : ∃ T, ∀ t ≥ T, RunInv inp (forbid F C) next u v e2d t B B := by
  obtain ⟨a, ha⟩ := run_start h he next u v
  exact grows_of_step (P := fun t a b => RunInv inp (forbid F C) next u v e2d t a b) (fun t a b a' b' ⟨m, h1, h2⟩ ha hb => ⟨m, h1, h2.mono ha hb⟩)
    (fun t a b hr => run_step h hd r0 r1 hr) ha r0 r1 hδ B

/-- The relaxed round. -/
theorem relaxed_forbidden {maxCount K : ℕ} {reset augmentation : Bool} {thr : Num} {maxAugm : ℤ} {order : ℕ → List (ℕ × ℕ) → List ℕ}
    (h : CostsOk inp (forbid F C)) (hd : DualF inp.numNodes F C next u v δ) (ho : ∀ k sel, StartOrder sel (order k sel)) {a b : ℚ}
    (hr : RunInv inp (forbid F C) next u v e2d K a b) :
    ∃ st, iterateRelaxed (tspSetup inp K reset augmentation thr maxCount maxAugm order) (tspStart inp e2d) = some st ∧ st.intr.size = inp.numEdges ∧
      (∀ e < inp.numEdges, dst inp.edges e ≠ next (src inp.edges e) → AtLeast (2 * a + δ) (st.intr.data e)) ∧
      (∀ e < inp.numEdges, dst inp.edges e = next (src inp.edges e) → AtMost (-2 * b) (st.intr.data e)) ∧
      (∀ e < inp.numEdges, F (src inp.edges e) (dst inp.edges e) = true → st.intr.data e = pinf) ∧
      st.selected = (chosen inp.numEdges thr st.intr).map (fun e => inp.edges.getD e (0, 0)) ∧
      st.cost = (chosen inp.numEdges thr st.intr).foldl (fun acc e => acc + inp.cost.data e) 0 ∧
      analyse inp.numNodes maxCount inp.edges st.selected (order 0 st.selected) {} = some st.an := by
  obtain ⟨m, h1, h2⟩ := hr
  obtain ⟨ext, e1, e2, e3⟩ := tspExtrinsicRelaxed_num h2.deg_rows h2.deg_cols (ext := Arr.fill inp.numEdges 0) rfl
  have hint : ∃ intr, tspIntrinsic ext inp.cost (Arr.fill inp.numEdges 0) = some intr ∧ intr.size = inp.numEdges ∧
      ∀ e < inp.numEdges, intr.data e = ext.data e + inp.cost.data e := by
    refine ⟨⟨inp.numEdges, fun i => if i < ext.size then ext.data i + inp.cost.data i else 0⟩, ?_, rfl, ?_⟩
    · unfold tspIntrinsic Arr.addTo
      rw [if_pos ⟨by rw [e2, h.size], by rw [e2]; exact le_rfl⟩]; rfl
    · intro e he
      show (if e < ext.size then _ else _) = _
      rw [if_pos (by omega)]
  obtain ⟨intr, i1, i2, i3⟩ := hint
  have hrun : tspRelaxed inp K (tspInit inp e2d) (Arr.fill inp.numEdges 0, Arr.fill inp.numEdges 0) = some (m, ext, intr) := by
    simp only [tspRelaxed, h1, e1, i1, Option.bind_eq_bind, Option.bind_some]
  have hnon : ∀ e < inp.numEdges, dst inp.edges e ≠ next (src inp.edges e) →
      AtLeast (a - u (src inp.edges e) + (a - v (dst inp.edges e))) (ext.data e) := by
    intro e he hn
    obtain ⟨s1, s2, s3⟩ := edge_lt h.all h.len he
    rw [e3 e he, ← sum_two s1 s2 s3]
    refine foldl_atLeast fun z hz => ?_
    split_ifs with c1 c2
    · rw [c1]; exact (h2.non e he hn).1
    · rw [c2]; exact (h2.non e he hn).2
    · rw [h2.deg_off e he z hz c1 c2]; exact atLeast_fin.mpr le_rfl
  have hcov : ∀ e < inp.numEdges, dst inp.edges e = next (src inp.edges e) →
      AtMost (-b - u (src inp.edges e) + (-b - v (dst inp.edges e))) (ext.data e) := by
    intro e he hn
    obtain ⟨s1, s2, s3⟩ := edge_lt h.all h.len he
    rw [e3 e he, ← sum_two s1 s2 s3]
    refine foldl_atMost fun z hz => ?_
    split_ifs with c1 c2
    · rw [c1]; exact (h2.cov e he hn).1
    · rw [c2]; exact (h2.cov e he hn).2
    · rw [h2.deg_off e he z hz c1 c2]; exact atMost_fin.mpr le_rfl
  have hh := hardDecision_eq (thr := thr) i2 h.len h.size
  set sel := (chosen inp.numEdges thr intr).map (fun e => inp.edges.getD e (0, 0)) with hsel
  obtain ⟨an, han⟩ := analyse_some (n := inp.numNodes) (mc := maxCount) (edges := inp.edges) (ho 0 sel) {}
  refine ⟨{ tspStart inp e2d with msgs := m, ext := ext, intr := intr, cost := (chosen inp.numEdges thr intr).foldl (fun acc e => acc + inp.cost.data e) 0, an := an, selected := sel }, ?_, i2, ?_, ?_, ?_, hsel, rfl, han⟩
  · unfold iterateRelaxed
    have e1 : (tspSetup inp K reset augmentation thr maxCount maxAugm order).relaxed [] (tspStart inp e2d).msgs ((tspStart inp e2d).ext, (tspStart inp e2d).intr) = some (m, ext, intr) := hrun
    simp only [e1, Option.bind_eq_bind, Option.bind_some]
    simp only [tspSetup, hh, Option.bind_some]
    have e2 : analyse inp.numNodes maxCount inp.edges sel (order (tspStart inp e2d).numAugm sel) (tspStart inp e2d).an = some an := han
    rw [e2]; rfl
  · intro e he hn
    obtain ⟨s1, s2, s3⟩ := edge_lt h.all h.len he
    show AtLeast _ (intr.data e)
    rw [i3 e he, h.cost e he]
    exact ((hnon e he hn).add (forbid_other hd s1 s2 (Ne.symm s3) hn)).mono (by linarith)
  · intro e he hn
    obtain ⟨s1, s2, s3⟩ := edge_lt h.all h.len he
    show AtMost _ (intr.data e)
    have := hcov e he hn
    rw [i3 e he, h.cost e he, hn, forbid_cover hd s1, ← hn]
    exact (this.add (atMost_fin.mpr le_rfl)).mono (by linarith)
  · intro e he hF
    obtain ⟨s1, s2, s3⟩ := edge_lt h.all h.len he
    show intr.data e = _
    have hn : dst inp.edges e ≠ next (src inp.edges e) := by
      intro hn
      have := hd.avoid _ s1
      rw [← hn, hF] at this; simp at this
    rw [i3 e he, h.cost e he]
    unfold forbid
    rw [hF, if_pos rfl]
    rcases hnon e he hn with h | ⟨p, h, -⟩ <;> (rw [h]; rfl)

/-- A cover that avoids the forbidden edges has prices. -/
theorem dual_any (hc : CycleCover inp.numNodes next) (ha : Avoids inp.numNodes F next) :
    ∃ u v δ, DualF inp.numNodes F C next u v δ := by
  refine ⟨fun i => C i (next i), fun _ => 0, -∑ i ∈ Finset.range inp.numNodes, ∑ j ∈ Finset.range inp.numNodes, (|C i j| + |C i (next i)|), hc, ha,
    fun i _ => by simp, fun i hi j hj _ _ _ => ?_⟩
  have h1 : |C i j| + |C i (next i)| ≤ ∑ j ∈ Finset.range inp.numNodes, (|C i j| + |C i (next i)|) :=
    Finset.single_le_sum (f := fun j => |C i j| + |C i (next i)|) (fun k _ => by positivity) (Finset.mem_range.mpr hj)
  have h2 := Finset.single_le_sum (f := fun i => ∑ j ∈ Finset.range inp.numNodes, (|C i j| + |C i (next i)|))
    (fun k _ => Finset.sum_nonneg fun _ _ => by positivity) (Finset.mem_range.mpr hi)
  have := neg_abs_le (C i j)
  have := le_abs_self (C i (next i))
  linarith

/-- A unique cheapest cover among those that avoid the forbidden edges has prices with a positive rest. -/
theorem dual_best {n : ℕ} (h : OnlyBestAvoiding n F C next) : ∃ u v δ, 0 < δ ∧ DualF n F C next u v δ := by
  obtain ⟨hc, ha, hb⟩ := h
  obtain ⟨B, hB0, hB⟩ : ∃ B : ℚ, 0 ≤ B ∧ ∀ i < n, ∀ j < n, |C i j| ≤ B := by
    refine ⟨∑ i ∈ Finset.range n, ∑ j ∈ Finset.range n, |C i j|, Finset.sum_nonneg fun _ _ => Finset.sum_nonneg fun _ _ => abs_nonneg _, fun i hi j hj => ?_⟩
    exact (Finset.single_le_sum (f := fun j => |C i j|) (fun _ _ => abs_nonneg _) (Finset.mem_range.mpr hj)).trans
      (Finset.single_le_sum (f := fun i => ∑ j ∈ Finset.range n, |C i j|) (fun _ _ => Finset.sum_nonneg fun _ _ => abs_nonneg _) (Finset.mem_range.mpr hi))
  set M : ℚ := 2 * n * B + 1 with hM
  have hMpos : 0 < M := by positivity
  set D : ℕ → ℕ → ℚ := fun i j => if F i j then M else C i j with hD
  have hav : ∀ f, Avoids n F f → coverCost n D f = coverCost n C f := by
    intro f hf
    refine Finset.sum_congr rfl fun i hi => ?_
    simp [hD, hf i (Finset.mem_range.mp hi)]
  have hbest : OnlyBest n D next := by
    refine ⟨hc, fun other ho hne => ?_⟩
    rw [hav next ha]
    by_cases hoa : Avoids n F other
    · rw [hav other hoa]; exact hb other ho hoa hne
    · unfold Avoids at hoa
      push Not at hoa
      obtain ⟨k, hk, hF⟩ := hoa
      have hF : F k (other k) = true := by simpa using hF
      have hup : coverCost n C next ≤ n * B := by
        unfold coverCost
        calc _ ≤ ∑ i ∈ Finset.range n, B := Finset.sum_le_sum fun i hi =>
              (le_abs_self _).trans (hB i (Finset.mem_range.mp hi) _ (hc.lt i (Finset.mem_range.mp hi)))
          _ = _ := by rw [Finset.sum_const, Finset.card_range, nsmul_eq_mul]
      have hlow : M - n * B ≤ coverCost n D other := by
        unfold coverCost
        have h1 : ∀ i < n, 0 ≤ D i (other i) + B := by
          intro i hi
          have := hB i hi _ (ho.lt i hi)
          have := neg_abs_le (C i (other i))
          simp only [hD]
          split_ifs <;> linarith
        have h2 := Finset.single_le_sum (f := fun i => D i (other i) + B) (fun i hi => h1 i (Finset.mem_range.mp hi)) (Finset.mem_range.mpr hk)
        have h3 : D k (other k) = M := by simp [hD, hF]
        simp only [h3, Finset.sum_add_distrib, Finset.sum_const, Finset.card_range, nsmul_eq_mul] at h2
        linarith
      have : 2 * (n : ℚ) * B + 1 - n * B = n * B + 1 := by ring
      rw [hM] at hlow
      linarith
  obtain ⟨u, v, δ, hδ, d1, d2⟩ := exists_dual hbest
  refine ⟨u, v, δ, hδ, hc, ha, fun i hi => ?_, fun i hi j hj h1 h2 hF => ?_⟩
  · have := d1 i hi
    simpa [hD, ha i hi] using this
  · have := d2 i hi j hj h1 h2
    simpa [hD, hF] using this

end

end Verif.Proofs
