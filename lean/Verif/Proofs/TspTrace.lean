import Verif.Proofs.TspRun

/-! # Uniqueness of TSP traces, and the outputs of the two kinds of runs -/

namespace Verif.Proofs
open Verif Num Spec Model

theorem prev_congr {flag : Bool} {alpha s : ℚ} {q q' : ℕ → ℚ} {j : ℕ} (h : ∀ i < j, q i = q' i) :
    prev flag alpha s q j = prev flag alpha s q' j := by
  cases j with
  | zero => rfl
  | succ j => exact damped_congr fun i hi => h i (by omega)

section
variable {n : ℕ} {edges : List (ℕ × ℕ)} {w : ℕ → ℚ} {c : ℕ → ℕ → ℚ} {deltas : List (List ℕ)} {flag : Bool} {alpha : ℚ}
  {x0 s0 : ℕ → ℕ → ℚ} {x r y q x' r' y' q' : ℕ → ℕ → ℕ → ℚ}

/-- Two traces from the same start messages agree on all messages that exist. -/
theorem tspTrace_unique (hok : EdgesOk n edges) (hd : ∀ l ∈ deltas, ∀ e ∈ l, e < edges.length)
    (h : IsTspTrace n edges deltas w c flag alpha x0 s0 x r y q)
    (h' : IsTspTrace n edges deltas w c flag alpha x0 s0 x' r' y' q') (j : ℕ) :
    (∀ e < edges.length, ∀ v, v = src edges e ∨ v = dst edges e → x j e v = x' j e v ∧ r j e v = r' j e v) ∧
    ∀ k < deltas.length, ∀ e ∈ deltas.getD k [], y j k e = y' j k e ∧ q j k e = q' j k e := by
  have hlt : ∀ {k e}, k < deltas.length → e ∈ deltas.getD k [] → e < edges.length := fun {k e} hk he => by
    have hgd : deltas.getD k [] = deltas[k] := by simp [hk]
    rw [hgd] at he; exact hd _ (List.getElem_mem hk) e he
  induction j using Nat.strong_induction_on with
  | _ j ih =>
    have hx : ∀ e < edges.length, ∀ v, v = src edges e ∨ v = dst edges e → x j e v = x' j e v := by
      intro e he v hv
      cases j with
      | zero =>
        rcases hv with rfl | rfl
        · rw [h.init_src e he, h'.init_src e he]
        · rw [h.init_dst e he, h'.init_dst e he]
      | succ j =>
        have hr : ∀ i ≤ j, ∀ v, v = src edges e ∨ v = dst edges e → r i e v = r' i e v := fun i hi v hv =>
          ((ih i (by omega)).1 e he v hv).2
        have hq : ∀ k ∈ cuts deltas e, damped flag alpha (fun i => q i k e) j = damped flag alpha (fun i => q' i k e) j :=
          fun k hk => damped_congr fun i hi => ((ih i (by omega)).2 k (mem_cuts.mp hk).1 e (mem_cuts.mp hk).2).2
        rcases hv with rfl | rfl
        · rw [h.var_src j e he, h'.var_src j e he, Finset.sum_congr rfl hq,
            damped_congr fun i hi => hr i hi _ (Or.inr rfl)]
        · rw [h.var_dst j e he, h'.var_dst j e he, Finset.sum_congr rfl hq,
            damped_congr fun i hi => hr i hi _ (Or.inl rfl)]
    have hr : ∀ e < edges.length, ∀ v, v = src edges e ∨ v = dst edges e → r j e v = r' j e v := by
      intro e he v hv
      rcases hv with rfl | rfl
      · have hm : e ∈ outEdges edges (src edges e) := mem_outEdges.mpr ⟨he, rfl⟩
        have h1 := h.out j _ (src_lt hok he) e hm
        have h2 := h'.out j _ (src_lt hok he) e hm
        exact Num.fin.inj (h1.unique (h2.congr_in (fun u hu => (hx u (mem_outEdges.mp hu).1 _
          (Or.inl (mem_outEdges.mp hu).2.symm)).symm) hm))
      · have hm : e ∈ inEdges edges (dst edges e) := mem_inEdges.mpr ⟨he, rfl⟩
        have h1 := h.inn j _ (dst_lt hok he) e hm
        have h2 := h'.inn j _ (dst_lt hok he) e hm
        exact Num.fin.inj (h1.unique (h2.congr_in (fun u hu => (hx u (mem_inEdges.mp hu).1 _
          (Or.inr (mem_inEdges.mp hu).2.symm)).symm) hm))
    have hr' : ∀ i ≤ j, ∀ e < edges.length, ∀ v, v = src edges e ∨ v = dst edges e → r i e v = r' i e v := by
      intro i hi e he v hv
      rcases Nat.lt_or_eq_of_le hi with hi | rfl
      · exact ((ih i hi).1 e he v hv).2
      · exact hr e he v hv
    have hy : ∀ k < deltas.length, ∀ e ∈ deltas.getD k [], y j k e = y' j k e := by
      intro k hk e he
      have he' := hlt hk he
      rw [h.to_cut j k hk e he, h'.to_cut j k hk e he, damped_congr fun i hi => hr' i hi e he' _ (Or.inl rfl),
        damped_congr fun i hi => hr' i hi e he' _ (Or.inr rfl)]
      congr 1
      refine Finset.sum_congr rfl fun k' hk' => prev_congr fun i hi => ?_
      have hm := mem_cuts.mp (Finset.mem_of_mem_erase hk')
      exact ((ih i hi).2 k' hm.1 e hm.2).2
    refine ⟨fun e he v hv => ⟨hx e he v hv, hr e he v hv⟩, fun k hk e he => ⟨hy k hk e he, ?_⟩⟩
    have h1 := h.cut j k hk e he
    have h2 := h'.cut j k hk e he
    exact Num.fin.inj (h1.unique (h2.congr_in (fun u hu => (hy k hk u (List.mem_toFinset.mp hu)).symm)
      (List.mem_toFinset.mpr he)))

end

section
variable {inp : TspInputs} {w : ℕ → ℚ} {c : ℕ → ℕ → ℚ} {deltas : List (List ℕ)}

theorem tspRelaxed_run (h : TspOk inp w c) {m : TspMsgs} (hm : TspMsgsOk inp [] m) :
    ∃ x r y q, IsTspTrace inp.numNodes inp.edges [] w c inp.flag inp.alpha m.e2d.val m.s2e.val x r y q ∧
      ∀ K, ∀ o : Arr Num × Arr Num, o.1.size = inp.numEdges → o.2.size = inp.numEdges →
        ∃ m' ext intr, tspRelaxed inp K m o = some (m', ext, intr) ∧ TspMsgsOk inp [] m' ∧
          (∀ e < inp.numEdges, m'.e2d.val e (src inp.edges e) = x K e (src inp.edges e) ∧
            m'.e2d.val e (dst inp.edges e) = x K e (dst inp.edges e)) ∧
          ext.Is inp.numEdges (tspOutput inp.flag inp.alpha inp.edges [] m.deg.val m.s2e.val r q K) ∧
          intr.Is inp.numEdges (fun e => tspOutput inp.flag inp.alpha inp.edges [] m.deg.val m.s2e.val r q K e + w e) ∧
          ∀ e < inp.numEdges, ∀ v, v = src inp.edges e ∨ v = dst inp.edges e →
            m'.deg.val e v = prev inp.flag inp.alpha (m.deg.val e v) (fun i => r i e v) K := by
  obtain ⟨x, r, y, q, ht, hr⟩ := tsp_run (deltas := []) (body := tspRelaxedIter inp) h (fun l hl => by simp at hl)
    (fun j m hm => tspRelaxedIter_step h hm) hm (Nat.zero_le _)
  refine ⟨x, r, y, q, ht, fun K o ho1 ho2 => ?_⟩
  obtain ⟨m', m1, m2, m3, m4, m5, m6⟩ := hr K
  obtain ⟨ext, e1, e2⟩ := tspExtrinsicRelaxed_is m2.deg ho1
  have hext : ext.Is inp.numEdges (tspOutput inp.flag inp.alpha inp.edges [] m.deg.val m.s2e.val r q K) := e2.congr fun e he => by
    rw [deg_sum h m2 he, m5 e he _ (Or.inl rfl), m5 e he _ (Or.inr rfl), tspOutput]
    simp [cuts]
  obtain ⟨intr, i1, i2⟩ := tspIntrinsic_is h hext ho2
  refine ⟨m', ext, intr, ?_, m2, m4, hext, i2, m5⟩
  simp only [tspRelaxed, m1, e1, i1, Option.bind_eq_bind, Option.bind_some]

theorem tspReset_is (hok : EdgesOk inp.numNodes inp.edges) (hlen : inp.edges.length = inp.numEdges) {C : ℕ → ℕ → ℚ}
    (hC : inp.costMatrix.Is inp.numNodes inp.numNodes C)
    {e2d : Mat Num} {x : ℕ → ℕ → ℚ} (he : e2d.Is inp.numEdges inp.numNodes x) :
    ∃ r, tspReset inp e2d = some r ∧ r.Is inp.numEdges inp.numNodes (fun e v =>
      if v = src inp.edges e ∨ v = dst inp.edges e then C (src inp.edges e) (dst inp.edges e) else x e v) := by
  obtain ⟨r, r1, r2⟩ := loopUp_inv (n := inp.edges.length) (body := fun i (e2d : Mat Num) => do
      let c ← inp.edges[i]?
      let cost ← inp.costMatrix.rd c.1 c.2
      let e2d ← e2d.wr i c.1 cost
      e2d.wr i c.2 cost) (s := e2d)
    (fun k r => r.Is inp.numEdges inp.numNodes (fun e v => if e < k ∧ (v = src inp.edges e ∨ v = dst inp.edges e) then
      C (src inp.edges e) (dst inp.edges e) else x e v))
    (he.congr fun _ _ _ _ => by simp)
    (by
      intro k hk t ht
      have hs := src_lt hok hk
      have hd := dst_lt hok hk
      have hkE : k < inp.numEdges := by rw [← hlen]; exact hk
      rw [src_eq hk] at hs; rw [dst_eq hk] at hd
      obtain ⟨t1, p1, p2⟩ := ht.wr hkE hs (C inp.edges[k].1 inp.edges[k].2)
      obtain ⟨t2, p3, p4⟩ := p2.wr hkE hd (C inp.edges[k].1 inp.edges[k].2)
      refine ⟨t2, ?_, p4.congr fun e he v hv => ?_⟩
      · simp only [List.getElem?_eq_getElem hk, hC.rd hs hd, p1, p3, Option.bind_eq_bind, Option.bind_some]
      · by_cases hek : e = k
        · subst hek
          rw [src_eq hk, dst_eq hk]
          by_cases h1 : v = inp.edges[e].2
          · simp [h1]
          · by_cases h2 : v = inp.edges[e].1
            · simp [h2]
            · simp [h1, h2]
        · have : (e < k + 1) ↔ (e < k) := by omega
          simp [hek, this])
  refine ⟨r, r1, r2.congr fun e he v hv => ?_⟩
  have : e < inp.edges.length := by rw [hlen]; exact he
  simp [this]

theorem anyNan_false {m : Mat Num} {r n : ℕ} {x : ℕ → ℕ → ℚ} (h : m.Is r n x) : anyNan m = false := by
  unfold anyNan
  rw [List.any_eq_false]
  intro i hi
  rw [Bool.not_eq_true, List.any_eq_false]
  intro j hj
  rw [List.mem_range] at hi hj
  rw [h.2.2 i (by rw [← h.1]; exact hi) j (by rw [← h.2.1]; exact hj)]
  simp

theorem tspAugmented_run (h : TspOk inp w c) (hd : CutsOk inp.numEdges deltas) {C : ℕ → ℕ → ℚ}
    (hC : inp.costMatrix.Is inp.numNodes inp.numNodes C) (reset : Bool) {m : TspMsgs} (hm : TspMsgsOk inp deltas m) :
    ∃ x r y q, IsTspTrace inp.numNodes inp.edges deltas w c inp.flag inp.alpha (augStart inp.edges reset C m.e2d.val) m.s2e.val x r y q ∧
      ∀ K, ∀ o : Arr Num × Arr Num, o.1.size = inp.numEdges → o.2.size = inp.numEdges →
        ∃ m' ext intr, tspAugmented inp reset deltas K m o = some (m', ext, intr) ∧ TspMsgsOk inp deltas m' ∧
          (∀ e < inp.numEdges, m'.e2d.val e (src inp.edges e) = x K e (src inp.edges e) ∧
            m'.e2d.val e (dst inp.edges e) = x K e (dst inp.edges e)) ∧
          ext.Is inp.numEdges (tspOutput inp.flag inp.alpha inp.edges deltas m.deg.val m.s2e.val r q K) ∧
          intr.Is inp.numEdges (fun e => tspOutput inp.flag inp.alpha inp.edges deltas m.deg.val m.s2e.val r q K e + w e) ∧
          (∀ e < inp.numEdges, ∀ v, v = src inp.edges e ∨ v = dst inp.edges e →
            m'.deg.val e v = prev inp.flag inp.alpha (m.deg.val e v) (fun i => r i e v) K) ∧
          ∀ k < deltas.length, ∀ e ∈ deltas.getD k [],
            m'.s2e.val k e = prev inp.flag inp.alpha (m.s2e.val k e) (fun i => q i k e) K := by
  obtain ⟨e2d, s1, s2⟩ : ∃ e2d, (if reset then tspReset inp m.e2d else some m.e2d) = some e2d ∧
      e2d.Is inp.numEdges inp.numNodes (augStart inp.edges reset C m.e2d.val) := by
    cases reset with
    | true =>
      obtain ⟨r, r1, r2⟩ := tspReset_is h.edges h.len hC hm.e2d
      exact ⟨r, r1, r2.congr fun e _ v _ => by simp [augStart]⟩
    | false => exact ⟨m.e2d, rfl, hm.e2d.congr fun e _ v _ => by simp [augStart]⟩
  have hm0 : TspMsgsOk inp deltas { m with e2d := e2d, subOld := Mat.pushZeros deltas.length m.subOld } :=
    { hm with e2d := s2.self, subOld_cols := hm.subOld_cols }
  obtain ⟨x, r, y, q, ht, hr⟩ := tsp_run (deltas := deltas) (body := tspAugmentedIter inp deltas) h hd
    (fun j m hm => tspAugmentedIter_step h hd hm) hm0 (by show _ ≤ m.subOld.rows + deltas.length; omega)
  have hE : ∀ {e}, e < inp.edges.length → e < inp.numEdges := fun he => by rw [← h.len]; exact he
  refine ⟨x, r, y, q, { ht with
    init_src := fun e he => (ht.init_src e he).trans (s2.val (hE he) (src_lt h.edges he))
    init_dst := fun e he => (ht.init_dst e he).trans (s2.val (hE he) (dst_lt h.edges he)) }, fun K o ho1 ho2 => ?_⟩
  obtain ⟨m', m1, m2, m3, m4, m5, m6⟩ := hr K
  obtain ⟨e0, e1, e2⟩ := tspExtrinsicRelaxed_is m2.deg ho1
  obtain ⟨ext, g1, g2⟩ := addRowsL_is m2.s2e e2
  have hext : ext.Is inp.numEdges (tspOutput inp.flag inp.alpha inp.edges deltas m.deg.val m.s2e.val r q K) := g2.congr fun e he => by
    rw [deg_sum h m2 he, m5 e he _ (Or.inl rfl), m5 e he _ (Or.inr rfl), sub_sum m2 he, tspOutput,
      Finset.sum_congr rfl fun k hk => m6 k (mem_cuts.mp hk).1 e (mem_cuts.mp hk).2]
  obtain ⟨intr, i1, i2⟩ := tspIntrinsic_is h hext ho2
  refine ⟨m', ext, intr, ?_, m2, m4, hext, i2, m5, m6⟩
  cases reset <;> simp only [Bool.false_eq_true, if_false, if_true, Option.some.injEq] at s1
  · subst s1
    simp only [tspAugmented, m1, anyNan_false m2.e2d, tspExtrinsicAugmented, e1, g1, i1, Option.bind_eq_bind,
      Option.bind_some, Bool.false_eq_true, if_false]
  simp only [tspAugmented, if_true, s1, m1, anyNan_false m2.e2d, tspExtrinsicAugmented, e1, g1, i1, Option.bind_eq_bind,
    Option.bind_some, Bool.false_eq_true, if_false]

end
end Verif.Proofs
