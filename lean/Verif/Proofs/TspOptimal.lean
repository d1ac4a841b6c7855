import Verif.Proofs.TspCover
import Verif.Proofs.TspCall

/-! Tours and cycle covers, and the edges selected by split beliefs. -/

namespace Verif.Proofs
open Verif Num Spec Model

variable {n : ℕ} {edges : List (ℕ × ℕ)} {C : ℕ → ℕ → ℚ} {next : ℕ → ℕ}

theorem walkCost_chain (C : ℕ → ℕ → ℚ) (l : List ℕ) : walkCost C l = chainWeight C l := by
  induction l with
  | nil => simp [walkCost, chainWeight]
  | cons a l ih =>
    cases l with
    | nil => simp [walkCost, chainWeight]
    | cons b l =>
      simp only [walkCost, List.tail_cons, List.zip_cons_cons, List.map_cons, List.sum_cons, chainWeight] at ih ⊢
      rw [← ih]

theorem tour_split {E : ℕ → ℕ → Prop} {t : List ℕ} (ht : IsTour E n t) (hn : 0 < n) :
    ∃ a l z, t = (a :: l) ++ [a] ∧ (a :: l).getLast? = some z ∧ E z a ∧ (a :: l).IsChain E ∧ (a :: l).Perm (List.range n) := by
  obtain ⟨q, b, rfl⟩ : ∃ q b, t = q ++ [b] := by
    rcases List.eq_nil_or_concat t with rfl | ⟨q, b, rfl⟩
    · have := ht.length; simp at this
    · exact ⟨q, b, by simp⟩
  match q, ht with
  | [], ht => have := ht.length; simp at this; omega
  | a :: l, ht =>
    have hc := ht.closed
    simp only [List.cons_append, List.head?_cons] at hc
    rw [← List.cons_append, List.getLast?_append] at hc
    simp at hc
    subst hc
    obtain ⟨z, hz⟩ : ∃ z, (a :: l).getLast? = some z := ⟨_, List.getLast?_eq_some_getLast (by simp)⟩
    have hs := List.isChain_append.mp ht.steps
    refine ⟨a, l, z, rfl, hz, hs.2.2 z (by simpa using hz) a (by simp), hs.1, ?_⟩
    have hnd : (a :: l).Nodup := by
      have := ht.once
      simp only [List.cons_append, List.tail_cons] at this
      exact (List.perm_append_singleton a l).nodup_iff.mp this
    refine (List.perm_ext_iff_of_nodup hnd List.nodup_range).mpr fun v => ?_
    rw [List.mem_range, ← ht.all v]
    simp only [List.cons_append, List.mem_cons, List.mem_append]
    tauto

theorem tour_cost {t : List ℕ} (ht : IsTour (fun u v => v = next u) n t) (hn : 0 < n) : walkCost C t = coverCost n C next := by
  obtain ⟨a, l, z, rfl, hz, hza, hch, hp⟩ := tour_split ht hn
  have h1 := cycle_sum C next (l := a :: l) (i := z) (by
    refine hch.imp ?_
    intro x y h; exact h.symm) hz
  rw [← hza] at h1
  rw [walkCost_chain, chainWeight_snoc C hz, ← h1, (hp.map _).sum_eq]
  rfl

/-- Every tour is a cycle cover. -/
theorem tour_cover {E : ℕ → ℕ → Prop} {t : List ℕ} (ht : IsTour E n t) (hE : ∀ u < n, ∀ v < n, E u v → u ≠ v) (hn : 0 < n) :
    ∃ nx, CycleCover n nx ∧ IsTour (fun u v => v = nx u) n t ∧ ∀ u < n, E u (nx u) := by
  obtain ⟨a, l, z, rfl, hz, hza, hch, hp⟩ := tour_split ht hn
  have hnd : (a :: l).Nodup := hp.nodup_iff.mpr List.nodup_range
  have hmem : ∀ u, u ∈ a :: l ↔ u < n := fun u => by rw [hp.mem_iff, List.mem_range]
  have hfz : (a :: l).formPerm z = a := by
    have := List.formPerm_apply_getLast a l
    rwa [show (a :: l).getLast (by simp) = z by rw [List.getLast?_eq_some_getLast (by simp)] at hz; simpa using hz] at this
  have hstep : ∀ u < n, E u ((a :: l).formPerm u) := by
    intro u hu
    obtain ⟨s, hs, rfl⟩ := List.getElem_of_mem ((hmem u).mpr hu)
    by_cases hlast : s + 1 < (a :: l).length
    · rw [List.formPerm_apply_lt_getElem _ hnd s hlast]
      exact (List.isChain_iff_getElem.mp hch) s hlast
    · have : (a :: l)[s] = z := by
        rw [List.getLast?_eq_getElem?, show (a :: l).length - 1 = s by omega, List.getElem?_eq_getElem hs] at hz
        simpa using hz
      rw [this, hfz]; exact hza
  have hlt : ∀ u < n, (a :: l).formPerm u < n := fun u hu => (hmem _).mp (List.formPerm_apply_mem_of_mem ((hmem u).mpr hu))
  refine ⟨fun u => (a :: l).formPerm u, ⟨hlt, fun u hu => Ne.symm (hE u hu _ (hlt u hu) (hstep u hu)), fun u hu v hv h => (a :: l).formPerm.injective h⟩,
    ⟨ht.length, ht.closed, ?_, ht.once, ht.all⟩, hstep⟩
  rw [List.isChain_append]
  refine ⟨(formPerm_chain hnd).imp fun x y h => h.symm, by simp, ?_⟩
  intro x hx y hy
  simp at hy; subst hy
  rw [hz] at hx; simp at hx; subst hx
  exact hfz.symm

/-- The edges of the cover. -/
theorem cover_edges (h : AllEdges n edges) (hc : CycleCover n next) :
    (edges.filter (fun e => e.2 = next e.1)).Perm ((List.range n).map (fun u => (u, next u))) := by
  refine (List.perm_ext_iff_of_nodup (h.1.filter _) ?_).mpr fun e => ?_
  · refine List.nodup_range.map ?_
    intro u v huv
    simpa using (Prod.ext_iff.mp huv).1
  · simp only [List.mem_filter, decide_eq_true_eq, List.mem_map, List.mem_range]
    constructor
    · rintro ⟨h1, h2⟩
      exact ⟨e.1, (h.2.1 e h1).1, by rw [← h2]⟩
    · rintro ⟨u, hu, rfl⟩
      exact ⟨h.2.2 u hu _ (hc.lt u hu) (Ne.symm (hc.ne u hu)), rfl⟩

theorem cover_sum (h : AllEdges n edges) (hc : CycleCover n next) :
    ((edges.filter (fun e => e.2 = next e.1)).map (fun e => C e.1 e.2)).sum = coverCost n C next := by
  rw [((cover_edges h hc).map _).sum_eq, List.map_map]
  rfl

/-- Selection by split beliefs. -/
theorem selects_filter {b : ℕ → ℚ} {θ q : ℚ} {sel : List (ℕ × ℕ)} (hs : Selects edges (fun e => C (src edges e) (dst edges e)) b (fin θ) sel q)
    (hb : ∀ e < edges.length, (dst edges e = next (src edges e) → b e ≤ θ) ∧ (dst edges e ≠ next (src edges e) → θ < b e)) :
    sel = edges.filter (fun e => e.2 = next e.1) ∧ q = ((edges.filter (fun e => e.2 = next e.1)).map (fun e => C e.1 e.2)).sum := by
  obtain ⟨L, h1, h2, h3, rfl⟩ := hs
  have hL : L = (List.range edges.length).filter (fun e => dst edges e = next (src edges e)) := by
    refine List.Perm.eq_of_pairwise (le := (· < ·)) (fun a b _ _ h1 h2 => by omega) h1 (List.pairwise_lt_range.filter _) ?_
    refine (List.perm_ext_iff_of_nodup (h1.imp fun h => Nat.ne_of_lt h) (List.nodup_range.filter _)).mpr fun e => ?_
    rw [h2]
    simp only [List.mem_filter, List.mem_range, decide_eq_true_eq, Above, not_lt]
    constructor
    · rintro ⟨a1, a2⟩
      refine ⟨a1, ?_⟩
      by_contra hne
      exact absurd ((hb e a1).2 hne) (not_lt.mpr a2)
    · rintro ⟨a1, a2⟩
      exact ⟨a1, (hb e a1).1 a2⟩
  have he : edges = (List.range edges.length).map (fun e => (src edges e, dst edges e)) := by
    refine List.ext_getElem (by simp) fun i i1 i2 => ?_
    rw [src_dst i1]; simp
  have hf : edges.filter (fun e => e.2 = next e.1) = L.map (fun e => (src edges e, dst edges e)) := by
    rw [hL]
    conv_lhs => rw [he]
    rw [List.filter_map]
    rfl
  have hsel : sel.map some = (L.map (fun e => (src edges e, dst edges e))).map some := by
    rw [h3, List.map_map]
    apply List.map_congr_left
    intro e hm
    have := ((h2 e).mp hm).1
    rw [List.getElem?_eq_getElem this, src_dst this]; rfl
  refine ⟨?_, ?_⟩
  · rw [hf]; exact (List.map_injective_iff.mpr (Option.some_injective _)) hsel
  · rw [hf, List.map_map]; rfl

theorem rate_lt {flag : Bool} {alpha : ℚ} (h : flag = true → 0 ≤ alpha ∧ alpha < 1) : 0 ≤ rate flag alpha ∧ rate flag alpha < 1 := by
  unfold rate
  split
  · next hh => exact h hh.1
  · exact ⟨le_rfl, by norm_num⟩

/-- The relaxed round of the solver, if the beliefs are split. -/
theorem relaxed_cover {inp : TspInputs} {w : ℕ → ℚ} {cc x0 s0 : ℕ → ℕ → ℚ} {e2d : Mat Num} {K maxCount : ℕ} {reset augmentation : Bool}
    {θ : ℚ} {maxAugm : ℤ} {order : ℕ → List (ℕ × ℕ) → List ℕ} {x r y q : ℕ → ℕ → ℕ → ℚ}
    (h : TspOk inp w cc) (hn : 3 ≤ inp.numNodes) (hall : AllEdges inp.numNodes inp.edges) (ho : ∀ k sel, StartOrder sel (order k sel))
    (he : e2d.Is inp.numEdges inp.numNodes x0) (hc : CycleCover inp.numNodes next)
    (hw : ∀ e < inp.edges.length, w e = C (src inp.edges e) (dst inp.edges e))
    (ht : IsTspTrace inp.numNodes inp.edges [] w cc inp.flag inp.alpha x0 s0 x r y q)
    (hb : ∀ e < inp.edges.length,
      (dst inp.edges e = next (src inp.edges e) →
        tspOutput inp.flag inp.alpha inp.edges [] (fun _ _ => 0) s0 r q K e + C (src inp.edges e) (dst inp.edges e) ≤ θ) ∧
      (dst inp.edges e ≠ next (src inp.edges e) →
        θ < tspOutput inp.flag inp.alpha inp.edges [] (fun _ _ => 0) s0 r q K e + C (src inp.edges e) (dst inp.edges e))) :
    ∃ st, iterateRelaxed (tspSetup inp K reset augmentation (fin θ) maxCount maxAugm order) (tspStart inp e2d) = some st ∧
      st.selected = inp.edges.filter (fun e => e.2 = next e.1) ∧ st.cost = fin (coverCost inp.numNodes C next) ∧
      analyse inp.numNodes maxCount inp.edges st.selected (order 0 st.selected) {} = some st.an := by
  obtain ⟨st, r1, -⟩ := relaxed_total (numIter := K) (reset := reset) (augmentation := augmentation)
        (thr := fin θ) (maxCount := maxCount) (maxAugm := maxAugm) h hn hall.2.2 ho he
  refine ⟨st, r1, ?_⟩
  obtain ⟨m, ext, intr, f1, f2, f3, f4, f5, f6⟩ := (Properties.C12_relaxed_run h he s0).2 x r y q ht K
  obtain ⟨m1, ext1, intr1, sel, total, an, g1, g2, g3, rfl⟩ := iterateRelaxed_facts r1
  have e1 : (tspSetup inp K reset augmentation (fin θ) maxCount maxAugm order).relaxed [] (tspStart inp e2d).msgs
      ((tspStart inp e2d).ext, (tspStart inp e2d).intr) = some (m, ext, intr) := f1
  rw [e1] at g1
  simp only [Option.some.injEq, Prod.mk.injEq] at g1
  obtain ⟨rfl, rfl, rfl⟩ := g1
  obtain ⟨c, ⟨L, l1, l2, l3, l4⟩, hct⟩ := selects_of_hard h f5 g2
  have hsel := selects_filter (C := C) (next := next) (edges := inp.edges) (b := fun e => tspOutput inp.flag inp.alpha inp.edges [] (fun _ _ => 0) s0 r q K e + w e)
    (q := c) (sel := sel) (θ := θ) ⟨L, l1, l2, l3, by
      rw [l4]; congr 1; apply List.map_congr_left; intro e hm; exact hw e ((l2 e).mp hm).1⟩
    (fun e he => by rw [hw e he]; exact hb e he)
  rw [cover_sum hall hc] at hsel
  refine ⟨hsel.1, by rw [← hsel.2]; exact hct, g3⟩

end Verif.Proofs
