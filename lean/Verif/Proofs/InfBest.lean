import Verif.Proofs.InfOptimal
import Verif.Properties.TspIO

/-! From the cost matrix with forbidden edges to the selected edges. -/

namespace Verif.Proofs
open Verif Num Model Spec Properties

section
variable {n : ℕ} {m : Mat Num} {F : ℕ → ℕ → Bool} {C : ℕ → ℕ → ℚ} {edges : List (ℕ × ℕ)} {next : ℕ → ℕ} {flag : Bool} {alpha θ : ℚ}

/-- The tables that reach the native solver. -/
theorem forbidden_inputs (flag : Bool) (alpha : ℚ) (hr : m.rows = n) (hc : m.cols = n) (hm : ∀ i < n, ∀ j < n, i ≠ j → m.data i j = forbid F C i j) (h : AllEdges n edges) :
    ∃ inp a, tspInputs flag alpha n m edges = some (inp, a) ∧ inp.numNodes = n ∧ inp.numEdges = edges.length ∧ inp.edges = edges ∧ inp.flag = flag ∧
      inp.alpha = alpha ∧ CostsOk inp (forbid F C) ∧ EndCosts inp (forbid F C) a := by
  have hl := allEdges_length h
  obtain ⟨inp, a, d1, d2, d3, d4, d5, d6, d7, d8, -, d9, d10, d11, d12⟩ := C48_decoded flag alpha hr hc h.2.1 hl
  have hlt : ∀ e < n * n - n, src edges e < n ∧ dst edges e < n ∧ src edges e ≠ dst edges e := by
    intro e he
    have := h.2.1 _ (List.getElem_mem (show e < edges.length by omega))
    rw [Proofs.src_dst (by omega)] at this
    exact this
  have hv : ∀ e < n * n - n, m.data (src edges e) (dst edges e) = forbid F C (src edges e) (dst edges e) := fun e he =>
    hm _ (hlt e he).1 _ (hlt e he).2.1 (hlt e he).2.2
  have hends : ∀ t : Mat Num, t.rows = n * n - n → t.cols = n → (∀ e < n * n - n, ∀ v < n,
      t.data e v = if v = src edges e ∨ v = dst edges e then m.data (src edges e) (dst edges e) else 0) → EndCosts inp (forbid F C) t := by
    intro t t1 t2 t3
    refine ⟨by rw [t1, d3], by rw [t2, d2], fun e he v hor => ?_⟩
    rw [d3] at he
    rw [d4] at hor ⊢
    have hlv : v < n := by rcases hor with rfl | rfl; exacts [(hlt e he).1, (hlt e he).2.1]
    rw [t3 e he v hlv, if_pos hor, hv e he]
  refine ⟨inp, a, d1, d2, by rw [d3, hl], d4, d5, d6, ⟨by rw [d2, d4]; exact h, by rw [d3, d4, hl], by rw [d7, d3], fun e he => ?_, hends _ d9.1 d9.2.1 d9.2.2⟩,
    hends _ d10 d11 d12⟩
  rw [d3] at he
  rw [d8 e he, hv e he, d4]

/-- The state after the relaxed round if the beliefs are split. -/
theorem forbidden_best {inp : TspInputs} {a : Mat Num} (d7 : CostsOk inp (forbid F C)) (d8 : EndCosts inp (forbid F C) a) (hb : OnlyBestAvoiding inp.numNodes F C next)
    (ha : inp.flag = true → 0 ≤ inp.alpha ∧ inp.alpha < 1) :
    ∃ T, ∀ K ≥ T, ∀ (reset augmentation : Bool) (maxCount : ℕ) (maxAugm : ℤ) (order : ℕ → List (ℕ × ℕ) → List ℕ),
      (∀ k sel, StartOrder sel (order k sel)) →
      ∃ st, iterateRelaxed (tspSetup inp K reset augmentation (fin θ) maxCount maxAugm order) (tspStart inp a) = some st ∧
        st.selected = inp.edges.filter (fun e => e.2 = next e.1) ∧ st.cost = fin (coverCost inp.numNodes C next) ∧
        analyse inp.numNodes maxCount inp.edges st.selected (order 0 st.selected) {} = some st.an := by
  have hrate := Proofs.rate_lt ha
  obtain ⟨u, v, δ, hδ, hd⟩ := Proofs.dual_best hb
  obtain ⟨T, hT⟩ := Proofs.run_grows d7 d8 hd hδ hrate.1 hrate.2 (|θ| + 1)
  refine ⟨T, fun K hK reset augmentation maxCount maxAugm order ho => ?_⟩
  obtain ⟨st, s1, s2, s3, s4, s5, s6, s7, s8⟩ := Proofs.relaxed_forbidden (maxCount := maxCount) (reset := reset) (augmentation := augmentation) (thr := fin θ)
    (maxAugm := maxAugm) d7 hd ho (hT K hK)
  have hchosen : Proofs.chosen inp.numEdges (fin θ) st.intr = (List.range inp.edges.length).filter (fun e => dst inp.edges e = next (src inp.edges e)) := by
    unfold Proofs.chosen
    rw [d7.len]
    refine List.filter_congr fun e he => ?_
    have he := List.mem_range.mp he
    have := le_abs_self θ
    have := neg_abs_le θ
    by_cases hn : dst inp.edges e = next (src inp.edges e)
    · have hx : gt (st.intr.data e) (fin θ) = false := by
        rcases s4 e he hn with hh | ⟨p, hh, hp⟩
        · rw [hh]; rfl
        · rw [hh]; simp only [gt, lt_fin, decide_eq_false_iff_not, not_lt]; linarith
      simp [hx, hn]
    · have hx : gt (st.intr.data e) (fin θ) = true := by
        rcases s3 e he hn with hh | ⟨p, hh, hp⟩
        · rw [hh]; rfl
        · rw [hh]; simp only [gt, lt_fin, decide_eq_true_eq]; linarith
      simp [hx, hn]
  have hpair : ∀ e < inp.edges.length, inp.edges.getD e (0, 0) = (src inp.edges e, dst inp.edges e) := fun e he => by
    rw [List.getD_eq_getElem _ _ he, Proofs.src_dst he]
  have he : inp.edges = (List.range inp.edges.length).map (fun e => (src inp.edges e, dst inp.edges e)) := by
    refine List.ext_getElem (by simp) fun i i1 i2 => ?_
    rw [Proofs.src_dst i1]; simp
  have hf : inp.edges.filter (fun e => e.2 = next e.1) =
      ((List.range inp.edges.length).filter (fun e => dst inp.edges e = next (src inp.edges e))).map (fun e => (src inp.edges e, dst inp.edges e)) := by
    conv_lhs => rw [he]
    rw [List.filter_map]
    rfl
  have hcost : ∀ (l : List ℕ) (p : ℚ), (∀ e ∈ l, e < inp.edges.length ∧ dst inp.edges e = next (src inp.edges e)) →
      l.foldl (fun acc e => acc + inp.cost.data e) (fin p) = fin (p + (l.map (fun e => C (src inp.edges e) (dst inp.edges e))).sum) := by
    intro l
    induction l with
    | nil => intro p _; simp
    | cons e l ih =>
      intro p hl
      obtain ⟨e1, e2⟩ := hl e List.mem_cons_self
      rw [d7.len] at e1
      have hce : inp.cost.data e = fin (C (src inp.edges e) (dst inp.edges e)) := by
        rw [d7.cost e e1]
        unfold forbid
        rw [e2, hb.2.1 _ (Proofs.edge_lt d7.all d7.len e1).1]; rfl
      rw [List.foldl_cons, hce, fin_add, ih _ fun e' he' => hl e' (List.mem_cons_of_mem _ he'), List.map_cons, List.sum_cons, add_assoc]
  refine ⟨st, s1, ?_, ?_, s8⟩
  · rw [s6, hchosen, hf]
    exact List.map_congr_left fun e hm => hpair e (List.mem_range.mp (List.mem_filter.mp hm).1)
  · rw [s7, hchosen, zero_def, hcost _ 0 (fun e hm => ⟨List.mem_range.mp (List.mem_filter.mp hm).1, by simpa using (List.mem_filter.mp hm).2⟩), zero_add,
      ← Proofs.cover_sum d7.all hb.1, hf, List.map_map]
    rfl

end

end Verif.Proofs
