import Verif.Proofs.PyTspRun

/-! # Empty cuts do not matter to the message passing of the pure Python TSP solver -/

namespace Verif.Proofs
open Verif Num Model Spec

/-- The cuts of the C++ program are the nonempty cuts of the Python program; cut `k` of the former is cut `σ k` of the latter. -/
structure Thinned (deltas pd : List (List ℕ)) (σ : ℕ → ℕ) : Prop where
  lt : ∀ k < deltas.length, σ k < pd.length
  inj : ∀ k < deltas.length, ∀ j < deltas.length, σ k = σ j → k = j
  get : ∀ k < deltas.length, pd.getD (σ k) [] = deltas.getD k []
  hit : ∀ i < pd.length, pd.getD i [] = [] ∨ ∃ k < deltas.length, σ k = i

section
variable {deltas pd : List (List ℕ)} {σ : ℕ → ℕ}

theorem Thinned.mem (h : Thinned deltas pd σ) {d : List ℕ} (hd : d ≠ []) : d ∈ pd ↔ d ∈ deltas := by
  constructor
  · intro hm
    obtain ⟨i, hi, rfl⟩ := List.mem_iff_getElem.mp hm
    rcases h.hit i hi with h0 | ⟨k, hk, rfl⟩
    · rw [List.getD_eq_getElem _ _ hi] at h0; exact absurd h0 hd
    · have := h.get k hk
      rw [List.getD_eq_getElem _ _ hi, List.getD_eq_getElem _ _ hk] at this
      rw [this]; exact List.getElem_mem hk
  · intro hm
    obtain ⟨k, hk, rfl⟩ := List.mem_iff_getElem.mp hm
    have := h.get k hk
    rw [List.getD_eq_getElem _ _ (h.lt k hk), List.getD_eq_getElem _ _ hk] at this
    rw [← this]; exact List.getElem_mem _

theorem thinned_nil : Thinned [] [] id := ⟨by simp, by simp, by simp, by simp⟩

/-- A new cut on both sides. -/
theorem Thinned.push (h : Thinned deltas pd σ) (d : List ℕ) :
    Thinned (deltas ++ [d]) (pd ++ [d]) (fun k => if k = deltas.length then pd.length else σ k) := by
  have key : ∀ k < (deltas ++ [d]).length, k = deltas.length ∨ k < deltas.length := fun k hk => by
    rw [List.length_append, List.length_singleton] at hk; omega
  refine ⟨fun k hk => ?_, fun k hk j hj e => ?_, fun k hk => ?_, fun i hi => ?_⟩
  · rw [List.length_append, List.length_singleton]
    rcases key k hk with rfl | hk
    · simp
    · rw [if_neg (by omega)]; have := h.lt k hk; omega
  · rcases key k hk with rfl | hk <;> rcases key j hj with rfl | hj
    · rfl
    · rw [if_pos rfl, if_neg (by omega)] at e; have := h.lt j hj; omega
    · rw [if_pos rfl, if_neg (by omega)] at e; have := h.lt k hk; omega
    · rw [if_neg (by omega), if_neg (by omega)] at e; exact h.inj k hk j hj e
  · rcases key k hk with rfl | hk
    · simp
    · rw [if_neg (by omega), List.getD_append _ _ _ _ (h.lt k hk), List.getD_append _ _ _ _ hk, h.get k hk]
  · rw [List.length_append, List.length_singleton] at hi
    by_cases hi' : i < pd.length
    · rw [List.getD_append _ _ _ _ hi']
      rcases h.hit i hi' with h0 | ⟨k, hk, rfl⟩
      · exact Or.inl h0
      · exact Or.inr ⟨k, by rw [List.length_append]; omega, by rw [if_neg (by omega)]⟩
    · exact Or.inr ⟨deltas.length, by simp, by rw [if_pos rfl]; omega⟩

/-- An empty cut on the Python side. -/
theorem Thinned.pushEmpty (h : Thinned deltas pd σ) : Thinned deltas (pd ++ [[]]) σ := by
  refine ⟨fun k hk => ?_, h.inj, fun k hk => ?_, fun i hi => ?_⟩
  · rw [List.length_append]; have := h.lt k hk; omega
  · rw [List.getD_append _ _ _ _ (h.lt k hk), h.get k hk]
  · rw [List.length_append, List.length_singleton] at hi
    by_cases hi' : i < pd.length
    · rw [List.getD_append _ _ _ _ hi']; exact h.hit i hi'
    · obtain rfl : i = pd.length := by omega
      left; simp

theorem Thinned.sum (h : Thinned deltas pd σ) {s : ℕ → ℚ} (hs : ∀ i < pd.length, pd.getD i [] = [] → s i = 0) :
    (Finset.range pd.length).sum s = (Finset.range deltas.length).sum (fun k => s (σ k)) := by
  have e : (Finset.range deltas.length).sum (fun k => s (σ k)) = ((Finset.range deltas.length).image σ).sum s := by
    rw [Finset.sum_image]
    intro a ha b hb he
    simp only [Finset.coe_range, Set.mem_Iio] at ha hb
    exact h.inj a ha b hb he
  rw [e]
  symm
  apply Finset.sum_subset
  · intro i hi
    obtain ⟨k, hk, rfl⟩ := Finset.mem_image.mp hi
    exact Finset.mem_range.mpr (h.lt k (Finset.mem_range.mp hk))
  · intro i hi hn
    rcases h.hit i (Finset.mem_range.mp hi) with h0 | ⟨k, hk, rfl⟩
    · exact hs i (Finset.mem_range.mp hi) h0
    · exact absurd (Finset.mem_image_of_mem _ (Finset.mem_range.mpr hk)) hn

theorem Thinned.sum_erase (h : Thinned deltas pd σ) {s : ℕ → ℚ} (hs : ∀ i < pd.length, pd.getD i [] = [] → s i = 0) {k : ℕ}
    (hk : k < deltas.length) :
    ((Finset.range pd.length).erase (σ k)).sum s = ((Finset.range deltas.length).erase k).sum (fun k => s (σ k)) := by
  have h1 := Finset.add_sum_erase (Finset.range pd.length) s (Finset.mem_range.mpr (h.lt k hk))
  have h2 := Finset.add_sum_erase (Finset.range deltas.length) (fun k => s (σ k)) (Finset.mem_range.mpr hk)
  have h3 := h.sum hs
  linarith

theorem Thinned.cuts (h : Thinned deltas pd σ) {E : ℕ} (hd : CutsOk E deltas) : ∀ l ∈ pd, l.Nodup ∧ l.length ≠ 1 ∧ ∀ e ∈ l, e < E := by
  intro l hl
  by_cases h0 : l = []
  · subst h0; simp
  · have := hd l ((h.mem h0).mp hl)
    exact ⟨this.1, by have := this.2.1; omega, this.2.2⟩

/-- The states of the two programs stand for the same messages, except that the Python program may have empty cuts. -/
structure TspThin (inp : TspInputs) (deltas pd : List (List ℕ)) (σ : ℕ → ℕ) (m : TspMsgs) (p : PyTspState) : Prop where
  e2d : ∃ x, p.e2d.Is inp.numEdges inp.numNodes x
  ends : ∀ e < inp.numEdges, ∀ v, v = src inp.edges e ∨ v = dst inp.edges e → p.e2d.data e v = m.e2d.data e v
  rows : p.s2e.rows = pd.length
  cols : p.s2e.cols = inp.numEdges
  s2e : ∀ k < deltas.length, ∀ e < inp.numEdges, p.s2e.data (σ k) e = m.s2e.data k e
  empty : ∀ i < pd.length, pd.getD i [] = [] → ∀ e < inp.numEdges, p.s2e.data i e = 0

variable {inp : TspInputs} {w : ℕ → ℚ} {c : ℕ → ℕ → ℚ}

/-- The states of the two programs at the start of iteration `j`. -/
structure ThinSame (inp : TspInputs) (deltas pd : List (List ℕ)) (σ : ℕ → ℕ) (j : ℕ) (m : TspMsgs) (p : PyTspState) : Prop where
  inv : TspInv inp deltas j m
  e2d : ∃ x, p.e2d.Is inp.numEdges inp.numNodes x ∧ ∀ e < inp.edges.length,
    x e (src inp.edges e) = m.e2d.val e (src inp.edges e) ∧ x e (dst inp.edges e) = m.e2d.val e (dst inp.edges e)
  deg : j ≠ 0 → ∃ d, p.deg = some d ∧ d.Is inp.numEdges inp.numNodes m.deg.val
  degOld : j ≠ 0 → inp.flag = true → ∃ o, p.degOld = some o ∧ o.Is inp.numEdges inp.numNodes m.deg.val
  s2e : p.s2e.Is pd.length inp.numEdges p.s2e.val
  same : ∀ k < deltas.length, ∀ e < inp.numEdges, p.s2e.val (σ k) e = m.s2e.val k e
  empty : ∀ i < pd.length, pd.getD i [] = [] → ∀ e < inp.numEdges, p.s2e.val i e = 0
  subOld : j ≠ 0 → inp.flag = true → ∃ o, p.subOld = some o ∧ o.Is pd.length inp.numEdges p.s2e.val

theorem ThinSame.degree {j : ℕ} {m : TspMsgs} {p : PyTspState} (h : ThinSame inp deltas pd σ j m p) :
    TspSame inp deltas j m { p with s2e := m.s2e, subOld := some m.s2e } :=
  ⟨h.inv, h.e2d, h.deg, h.degOld, h.inv.s2e, fun _ _ _ => ⟨m.s2e, rfl, h.inv.s2e⟩⟩

theorem pyTspAugmentedIter_thin (h : TspOk inp w c) (hfa : inp.flag = true → inp.alpha ≠ 0) (hd : CutsOk inp.numEdges deltas)
    (ht : Thinned deltas pd σ) (hne : pd ≠ []) {j : ℕ} {m : TspMsgs} {p : PyTspState} (hs : ThinSame inp deltas pd σ j m p) :
    ∃ m' p', tspAugmentedIter inp deltas j m = some m' ∧ pyTspAugmentedIter inp pd j p = some p' ∧
      ThinSame inp deltas pd σ (j + 1) m' p' := by
  obtain ⟨m', s1, s2, s3⟩ := tspAugmentedIter_step h hd hs.inv
  have hC : pd.length ≠ 0 := fun hh => hne (List.length_eq_zero_iff.mp hh)
  have hlt : ∀ l ∈ deltas, ∀ e ∈ l, e < inp.numEdges := fun l hl => (hd l hl).2.2
  have hpc := ht.cuts hd
  have hplt : ∀ l ∈ pd, ∀ e ∈ l, e < inp.numEdges := fun l hl => (hpc l hl).2.2
  obtain ⟨D, u, o, d1, d2, d3, d4, d5, d6, d7, d8, d9, d10, d11, d12, d13⟩ := tsp_degree h hs.inv
  obtain ⟨Y, y1, y2, y3, y4⟩ := edgeToSubtour_is h.edges h.len rfl hlt h.cost d6 hs.inv.s2e
  have hY : Y.Is deltas.length inp.numEdges Y.val := Mat.isFin y2 y3 fun k hk e he =>
    ⟨_, y4 k hk e (by rw [h.len]; exact he)⟩
  have hcuts : ∀ l ∈ deltas, l.Nodup ∧ l ≠ [] ∧ ∀ e ∈ l, e < inp.numEdges := fun l hl =>
    ⟨(hd l hl).1, by rintro rfl; have := (hd _ hl).2.1; simp at this, (hd l hl).2.2⟩
  obtain ⟨Q, q1, q2, q3, q4⟩ := subtourUpdate_eq (old := m.subDummy) (E := inp.numEdges) rfl hcuts hY hs.inv.sub_rows
    hs.inv.sub_cols
  have hm' : ∃ S so r, processFiltering deltas.length inp.flag inp.alpha j Q (m.s2e, m.subOld) = some (S, so) ∧
      edgeToDegreeAugmented inp.numEdges u S inp.edges inp.degCost m.e2d = some r ∧ m' = ⟨r, D, u, o, Y, S, Q, so⟩ := by
    simp only [tspAugmentedIter, d1, d2, y1, q1, Option.bind_eq_bind, Option.bind_some] at s1
    obtain ⟨⟨S, so⟩, f1, f2⟩ := Option.bind_eq_some_iff.mp s1
    obtain ⟨r, f3, f4⟩ := Option.bind_eq_some_iff.mp f2
    exact ⟨S, so, r, f1, f3, (Option.some.inj f4).symm⟩
  obtain ⟨S, so, r, f1, f3, rfl⟩ := hm'
  obtain ⟨D2, e1, e2⟩ := degreeUpdate_form h.edges h.len h.two hs.inv.e2d hs.inv.dummy_rows hs.inv.dummy_cols
    (fun e he v hv a b => hs.inv.dummy_off e he v hv a b)
  rw [d1] at e1
  obtain rfl := Option.some.inj e1
  obtain ⟨D', u', o', p1, p2, p3, p4⟩ := pyTsp_degree h hfa hs.degree d1 d13 (degree_fin h d5 e2)
  simp only at p1 p2
  -- messages to the cuts
  obtain ⟨Y', Y2, g, a1, a2, a3, a4⟩ := pyEdgeToSubtour_agree h.edges h.len rfl hplt h.cost p3 hs.s2e d7
  obtain ⟨Y3, b1, b2, b3, b4⟩ := edgeToSubtour_is h.edges h.len rfl hplt h.cost p3 hs.s2e
  rw [a2] at b1
  obtain rfl := Option.some.inj b1
  have hget : ∀ k, ∀ hk : k < deltas.length, pd[σ k]'(ht.lt k hk) = deltas[k] := fun k hk => by
    have := ht.get k hk
    rwa [List.getD_eq_getElem _ _ (ht.lt k hk), List.getD_eq_getElem _ _ hk] at this
  have hg : ∀ k < deltas.length, ∀ e < inp.numEdges, g (σ k) e = Y.val k e := fun k hk e he => by
    have he' : e < inp.edges.length := by rw [h.len]; exact he
    rw [← a4.val (ht.lt k hk) he, Mat.val, Mat.val, b4 (σ k) (ht.lt k hk) e he', y4 k hk e he', Num.val_fin, Num.val_fin, hget k hk,
      ht.sum_erase (s := fun j => p.s2e.val j e) (fun i hi h0 => hs.empty i hi h0 e he) hk]
    congr 1
    congr 1
    refine Finset.sum_congr rfl fun j hj => hs.same j ?_ e he
    exact Finset.mem_range.mp (Finset.mem_of_mem_erase hj)
  obtain ⟨Q', c1, c2, c3, c4⟩ := pySubtourUpdate_of rfl hpc a3
  have hQz : ∀ i < pd.length, pd.getD i [] = [] → ∀ e, Q'.data i e = fin 0 := fun i hi h0 e => by
    rw [List.getD_eq_getElem _ _ hi] at h0
    exact (c4 i hi).2 e (by rw [h0]; simp)
  have hQs : ∀ k < deltas.length, ∀ e < inp.numEdges, Q'.data (σ k) e = fin (Q.val k e) := fun k hk e he => by
    have hk' := ht.lt k hk
    by_cases hin : e ∈ deltas[k]
    · obtain ⟨z, hz, hq⟩ := (c4 (σ k) hk').1 e (by rw [hget k hk]; exact hin)
      obtain ⟨z', hz', hq'⟩ := (q4 k hk).1 e hin
      have hl := hd _ (List.getElem_mem hk)
      have hoth : others pd[σ k].toFinset (g (σ k)) e = others deltas[k].toFinset (Y.val k) e := by
        rw [hget k hk]
        ext r
        simp only [others, Set.mem_ofPred_eq]
        constructor
        · rintro ⟨j, j1, j2, rfl⟩
          exact ⟨j, j1, j2, (hg k hk j (hl.2.2 j (by simpa using j1))).symm⟩
        · rintro ⟨j, j1, j2, rfl⟩
          exact ⟨j, j1, j2, hg k hk j (hl.2.2 j (by simpa using j1))⟩
      rw [hoth] at hz
      obtain ⟨q, rfl⟩ := others_fin (by rw [List.toFinset_card_of_nodup hl.1]; exact hl.2.1) hz
      obtain rfl := IsMin.unique hz hz'
      rw [hq, Mat.val, hq', show -fin q = fin (-q) from rfl, cmin_fin]
      rfl
    · rw [(c4 (σ k) hk').2 e (by rw [hget k hk]; exact hin), Mat.val, (q4 k hk).2 e hin,
        hs.inv.sub_off k hk e he (by simpa [hk] using hin)]
      rfl
  have hQ' : Q'.Is pd.length inp.numEdges Q'.val := Mat.isFin c2 c3 fun i hi e he => by
    rcases ht.hit i hi with h0 | ⟨k, hk, rfl⟩
    · exact ⟨0, hQz i hi h0 e⟩
    · exact ⟨_, hQs k hk e he⟩
  obtain ⟨S', so', h1, h2, h3⟩ := pyFilter_is (k := j) (old := p.subOld) (p := p.s2e.val) hfa hQ'
    (fun hj hf => hs.subOld hj hf)
  have hS' : S'.Is pd.length inp.numEdges S'.val := h2.self
  have hSv : ∀ i < pd.length, ∀ e < inp.numEdges, S'.val i e = dampStep inp.flag inp.alpha j (Q'.val i e) (p.s2e.val i e) :=
    fun i hi e he => h2.val hi he
  have hsame : ∀ k < deltas.length, ∀ e < inp.numEdges, S'.val (σ k) e = S.val k e := fun k hk e he => by
    rw [hSv _ (ht.lt k hk) e he, hs.same k hk e he, Mat.val, hQs k hk e he, Num.val_fin]
    exact (s3.sdamp k hk e he).symm
  have hzero : ∀ i < pd.length, pd.getD i [] = [] → ∀ e < inp.numEdges, S'.val i e = 0 := fun i hi h0 e he => by
    rw [hSv i hi e he, hs.empty i hi h0 e he, Mat.val, hQz i hi h0 e, Num.val_fin]
    unfold dampStep; split <;> simp
  have hsum : ∀ e < inp.numEdges, (Finset.range pd.length).sum (fun i => S'.val i e) = (Finset.range deltas.length).sum (fun k => S.val k e) :=
    fun e he => by
      rw [ht.sum (s := fun i => S'.val i e) fun i hi h0 => hzero i hi h0 e he]
      exact Finset.sum_congr rfl fun k hk => hsame k (Finset.mem_range.mp hk) e he
  obtain ⟨r', g', k1, k2, k3⟩ := pyEdgeToDegreeAugmented_is h.edges h.len hC p3 hS' h.deg
  obtain ⟨r2, l1, l2, l3, l4⟩ := edgeToDegreeAugmented_is (out := m.e2d) h.edges h.len d6 s2.s2e h.deg hs.inv.e2d
  simp only at l1
  rw [f3] at l1
  obtain rfl := Option.some.inj l1
  refine ⟨_, ⟨r', some u', o', S', so'⟩, s1, ?_, ⟨s2, ⟨g', k2, fun e he => ?_⟩, fun _ => ⟨u', rfl, p3⟩, fun _ hf => p4 hf,
    hS', hsame, hzero, fun _ hf => ?_⟩⟩
  · simp only [pyTspAugmentedIter, p1, p2, a1, c1, h1, k1, Option.bind_eq_bind, Option.bind_some]
  · have hne := src_ne_dst h.edges he
    have hsum := hsum e (by rw [← h.len]; exact he)
    rw [src_eq he, dst_eq he] at hne ⊢
    have hs1 : inp.edges[e].1 < inp.numNodes := (h.edges _ (List.getElem_mem he)).1
    have hs2 : inp.edges[e].2 < inp.numNodes := (h.edges _ (List.getElem_mem he)).2.1
    constructor
    · show _ = r.val e _
      rw [(k3 e he).1, show r.val e _ = (r.data e _).val from rfl, l4 e he _ hs1, if_pos rfl, Num.val_fin, hsum]
    · show _ = r.val e _
      rw [(k3 e he).2, show r.val e _ = (r.data e _).val from rfl, l4 e he _ hs2, if_neg (Ne.symm hne), if_pos rfl, Num.val_fin, hsum]
  · obtain ⟨o2, o3, o4⟩ := h3 hf
    exact ⟨o2, o3, o4.congr fun i hi e he => (hSv i hi e he).symm⟩

theorem thinSame_of_thin (hok : EdgesOk inp.numNodes inp.edges) (hlen : inp.edges.length = inp.numEdges) {m : TspMsgs}
    {p : PyTspState} (hm : TspMsgsOk inp deltas m) (hold : deltas.length ≤ m.subOld.rows) (ht : Thinned deltas pd σ)
    (ha : TspThin inp deltas pd σ m p) : ThinSame inp deltas pd σ 0 m p := by
  obtain ⟨x, hx⟩ := ha.e2d
  refine ⟨⟨hm, hold, fun hh => absurd rfl hh, fun hh => absurd rfl hh⟩, ⟨x, hx, fun e he => ?_⟩, fun hh => absurd rfl hh,
    fun hh => absurd rfl hh, Mat.isFin ha.rows ha.cols fun i hi e he => ?_, fun k hk e he => ?_, fun i hi h0 e he => ?_, fun hh => absurd rfl hh⟩
  · have he' : e < inp.numEdges := by rw [← hlen]; exact he
    constructor
    · rw [← hx.val he' (src_lt hok he), Mat.val, Mat.val, ha.ends e he' _ (Or.inl rfl)]
    · rw [← hx.val he' (dst_lt hok he), Mat.val, Mat.val, ha.ends e he' _ (Or.inr rfl)]
  · rcases ht.hit i hi with h0 | ⟨k, hk, rfl⟩
    · exact ⟨0, ha.empty i hi h0 e he⟩
    · exact ⟨_, by rw [ha.s2e k hk e he]; exact hm.s2e.2.2 k hk e he⟩
  · rw [Mat.val, Mat.val, ha.s2e k hk e he]
  · rw [Mat.val, ha.empty i hi h0 e he]; rfl

theorem thin_of_thinSame (hok : EdgesOk inp.numNodes inp.edges) (hlen : inp.edges.length = inp.numEdges) {m : TspMsgs}
    {p : PyTspState} {j : ℕ} (ht : Thinned deltas pd σ) (h : ThinSame inp deltas pd σ j m p) : TspThin inp deltas pd σ m p := by
  obtain ⟨x, hx, hxe⟩ := h.e2d
  refine ⟨⟨x, hx⟩, fun e he v hv => ?_, h.s2e.1, h.s2e.2.1, fun k hk e he => ?_, fun i hi h0 e he => ?_⟩
  · have he' : e < inp.edges.length := by rw [hlen]; exact he
    rcases hv with rfl | rfl
    · rw [hx.2.2 e he _ (src_lt hok he'), h.inv.e2d.2.2 e he _ (src_lt hok he'), (hxe e he').1]
    · rw [hx.2.2 e he _ (dst_lt hok he'), h.inv.e2d.2.2 e he _ (dst_lt hok he'), (hxe e he').2]
  · rw [h.s2e.2.2 _ (ht.lt k hk) e he, h.inv.s2e.2.2 k hk e he, h.same k hk e he]
  · rw [h.s2e.2.2 i hi e he, h.empty i hi h0 e he]; rfl

/-- A run of both programs. -/
theorem thin_run {body : ℕ → TspMsgs → Option TspMsgs} {pbody : ℕ → PyTspState → Option PyTspState}
    (hb : ∀ j m p, ThinSame inp deltas pd σ j m p → ∃ m' p', body j m = some m' ∧ pbody j p = some p' ∧
      ThinSame inp deltas pd σ (j + 1) m' p') {m : TspMsgs} {p : PyTspState} (h : ThinSame inp deltas pd σ 0 m p) (K : ℕ) :
    ∃ m' p', loopUp K body m = some m' ∧ loopUp K pbody p = some p' ∧ ThinSame inp deltas pd σ K m' p' := by
  induction K with
  | zero => exact ⟨m, p, rfl, rfl, h⟩
  | succ K ih =>
    obtain ⟨s, q, h1, h2, h3⟩ := ih
    obtain ⟨s', q', i1, i2, i3⟩ := hb _ _ _ h3
    exact ⟨s', q', by simp [loopUp, h1, i1], by simp [loopUp, h2, i2], i3⟩

/-- The augmented runs agree. -/
theorem pyTspAugmented_thin (h : TspOk inp w c) (hfa : inp.flag = true → inp.alpha ≠ 0) (hd : CutsOk inp.numEdges deltas)
    (ht : Thinned deltas pd σ) (hne : pd ≠ []) {C : ℕ → ℕ → ℚ} (hC : inp.costMatrix.Is inp.numNodes inp.numNodes C) (reset : Bool) {m : TspMsgs}
    {p : PyTspState} (hm : TspMsgsOk inp deltas m) (ha : TspThin inp deltas pd σ m p) (K : ℕ) {o : Arr Num × Arr Num}
    (ho1 : o.1.size = inp.numEdges) (ho2 : o.2.size = inp.numEdges) :
    ∃ m' p' ext intr pintr, tspAugmented inp reset deltas (K + 1) m o = some (m', ext, intr) ∧
      pyTspAugmented inp reset pd (K + 1) p = some (p', pintr) ∧
      SameArr inp.numEdges pintr intr ∧ TspMsgsOk inp deltas m' ∧ TspThin inp deltas pd σ m' p' := by
  obtain ⟨x, hx⟩ := ha.e2d
  obtain ⟨e2d, pe2d, s1, s2, s3, s4, s5⟩ : ∃ e2d pe2d, (if reset then tspReset inp m.e2d else some m.e2d) = some e2d ∧
      (if reset then pyTspReset inp p.e2d else some p.e2d) = some pe2d ∧ e2d.Is inp.numEdges inp.numNodes e2d.val ∧
      (∃ x, pe2d.Is inp.numEdges inp.numNodes x) ∧ ∀ e < inp.numEdges, ∀ v, v = src inp.edges e ∨ v = dst inp.edges e →
        pe2d.data e v = e2d.data e v := by
    cases reset with
    | true =>
      obtain ⟨r, r1, r2⟩ := tspReset_is h.edges h.len hC hm.e2d
      obtain ⟨t, t1, t2⟩ := tspReset_is h.edges h.len hC hx
      refine ⟨r, t, r1, t1, r2.self, ⟨_, t2⟩, fun e he v hv => ?_⟩
      have hvn : v < inp.numNodes := by
        have he' : e < inp.edges.length := by rw [h.len]; exact he
        rcases hv with rfl | rfl
        · exact src_lt h.edges he'
        · exact dst_lt h.edges he'
      rw [r2.2.2 e he v hvn, t2.2.2 e he v hvn]
      simp only [if_pos hv]
    | false => exact ⟨m.e2d, p.e2d, rfl, rfl, hm.e2d, ⟨x, hx⟩, ha.ends⟩
  have hm0 : TspMsgsOk inp deltas { m with e2d := e2d, subOld := Mat.pushZeros deltas.length m.subOld } :=
    { hm with e2d := s3, subOld_cols := hm.subOld_cols }
  obtain ⟨m', p', r1, r2, r3⟩ := thin_run (body := tspAugmentedIter inp deltas) (pbody := pyTspAugmentedIter inp pd)
    (fun j m p hs => pyTspAugmentedIter_thin h hfa hd ht hne hs)
    (thinSame_of_thin (p := { p with e2d := pe2d }) h.edges h.len hm0 (by show _ ≤ m.subOld.rows + deltas.length; omega) ht
      ⟨s4, s5, ha.rows, ha.cols, ha.s2e, ha.empty⟩) (K + 1)
  obtain ⟨d, d1, d2⟩ := r3.deg (Nat.succ_ne_zero K)
  obtain ⟨e0, e1, e2⟩ := tspExtrinsicRelaxed_is r3.inv.deg ho1
  obtain ⟨ext, g1, g2⟩ := addRowsL_is r3.inv.s2e e2
  obtain ⟨intr, i1, i2⟩ := tspIntrinsic_is h g2 ho2
  obtain ⟨pe, p1, p2, p3⟩ := genM_eq (n := d.rows) (f := npRowSum d) (fun e he => npRowSum_is d2 (by rw [← d2.1]; exact he))
  obtain ⟨px, t1, t2⟩ := npAdd1_is (A := pe) (r := inp.numEdges) ⟨by rw [p2, d2.1], fun e he => p3 e (by rw [d2.1]; exact he)⟩
    (npSumAxis0_is r3.s2e)
  obtain ⟨pi, q1, q2⟩ := npAdd1_is t2 h.cost
  have hr0 : p'.s2e.rows ≠ 0 := by rw [r3.s2e.1]; exact fun hh => hne (List.length_eq_zero_iff.mp hh)
  have hsum : ∀ e < inp.numEdges, (Finset.range pd.length).sum (fun i => p'.s2e.val i e) = (Finset.range deltas.length).sum (fun k => m'.s2e.val k e) :=
    fun e he => by
      rw [ht.sum (s := fun i => p'.s2e.val i e) fun i hi h0 => r3.empty i hi h0 e he]
      exact Finset.sum_congr rfl fun k hk => r3.same k (Finset.mem_range.mp hk) e he
  refine ⟨m', p', ext, intr, pi, ?_, ?_, ⟨q2.1, i2.1, fun e he => by rw [q2.2 e he, i2.2 e he]; beta_reduce; rw [hsum e he]⟩, r3.inv.toTspMsgsOk,
    thin_of_thinSame h.edges h.len ht r3⟩
  · cases reset <;> simp only [Bool.false_eq_true, if_false, if_true, Option.some.injEq] at s1
    · subst s1
      simp only [tspAugmented, r1, anyNan_false r3.inv.e2d, tspExtrinsicAugmented, e1, g1, i1, Option.bind_eq_bind,
        Option.bind_some, Bool.false_eq_true, if_false]
    simp only [tspAugmented, if_true, s1, r1, anyNan_false r3.inv.e2d, tspExtrinsicAugmented, e1, g1, i1, Option.bind_eq_bind,
      Option.bind_some, Bool.false_eq_true, if_false]
  · simp only [pyTspAugmented]
    rw [s2]
    simp only [r2, d1, p1, if_neg hr0, t1, q1, Option.bind_eq_bind, Option.bind_some]

end
end Verif.Proofs
