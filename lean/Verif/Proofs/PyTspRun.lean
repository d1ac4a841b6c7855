import Verif.Proofs.PyTsp
import Verif.Proofs.TspTrace
import Verif.Spec.PyTsp

/-! # The pure Python TSP runs give the outputs of the C++ runs -/

namespace Verif.Proofs
open Verif Num Model Spec

section
variable {inp : TspInputs} {w : ℕ → ℚ} {c : ℕ → ℕ → ℚ} {deltas : List (List ℕ)}

/-- The states of the two programs at the start of iteration `j`. -/
structure TspSame (inp : TspInputs) (deltas : List (List ℕ)) (j : ℕ) (m : TspMsgs) (p : PyTspState) : Prop where
  inv : TspInv inp deltas j m
  e2d : ∃ x, p.e2d.Is inp.numEdges inp.numNodes x ∧ ∀ e < inp.edges.length,
    x e (src inp.edges e) = m.e2d.val e (src inp.edges e) ∧ x e (dst inp.edges e) = m.e2d.val e (dst inp.edges e)
  deg : j ≠ 0 → ∃ d, p.deg = some d ∧ d.Is inp.numEdges inp.numNodes m.deg.val
  degOld : j ≠ 0 → inp.flag = true → ∃ o, p.degOld = some o ∧ o.Is inp.numEdges inp.numNodes m.deg.val
  s2e : p.s2e.Is deltas.length inp.numEdges m.s2e.val
  subOld : j ≠ 0 → inp.flag = true → deltas ≠ [] → ∃ o, p.subOld = some o ∧ o.Is deltas.length inp.numEdges m.s2e.val

/-- The degree half of an iteration in Python. -/
theorem pyTsp_degree (h : TspOk inp w c) (hfa : inp.flag = true → inp.alpha ≠ 0) {j : ℕ} {m : TspMsgs} {p : PyTspState}
    (hs : TspSame inp deltas j m p) {D u : Mat Num}
    (hD : degreeUpdate inp.numNodes inp.numEdges m.e2d inp.edges m.degDummy = some D)
    (hu : ∀ e < inp.numEdges, ∀ v < inp.numNodes, u.val e v = dampStep inp.flag inp.alpha j (D.val e v) (m.deg.val e v))
    (hDf : ∀ e < inp.numEdges, ∀ v < inp.numNodes, ∃ q, D.data e v = fin q) :
    ∃ D' u' o', pyDegreeUpdate inp.numNodes inp.numEdges p.e2d inp.edges = some D' ∧
      pyFilter inp.flag inp.alpha j D' p.degOld = some (u', o') ∧ u'.Is inp.numEdges inp.numNodes u.val ∧
      (inp.flag = true → ∃ o, o' = some o ∧ o.Is inp.numEdges inp.numNodes u.val) := by
  obtain ⟨x, hx, hxe⟩ := hs.e2d
  obtain ⟨D', d1, d2⟩ := pyDegreeUpdate_is h.edges h.len h.two hx
  obtain ⟨D2, e1, e2⟩ := degreeUpdate_form h.edges h.len h.two hs.inv.e2d hs.inv.dummy_rows hs.inv.dummy_cols
    (fun e he v hv a b => hs.inv.dummy_off e he v hv a b)
  rw [hD] at e1
  obtain rfl := Option.some.inj e1
  have hsame := d2.same e2 hxe
  rw [h.len] at hsame
  have hD' : D'.Is inp.numEdges inp.numNodes D.val := ⟨hsame.1, hsame.2.2.1, fun e he v hv => by
    obtain ⟨q, hq⟩ := hDf e he v hv
    rw [hsame.2.2.2.2 e he v hv, Mat.val, hq]; rfl⟩
  obtain ⟨u', o', g1, g2, g3⟩ := pyFilter_is (k := j) (old := p.degOld) (p := m.deg.val) hfa hD' hs.degOld
  refine ⟨D', u', o', d1, g1, g2.congr fun e he v hv => (hu e he v hv).symm, fun hf => ?_⟩
  obtain ⟨o, o1, o2⟩ := g3 hf
  exact ⟨o, o1, o2.congr fun e he v hv => (hu e he v hv).symm⟩

/-- The entries of the table of new degree messages are finite. -/
theorem degree_fin (h : TspOk inp w c) {x : ℕ → ℕ → ℚ} {D : Mat Num}
    (hoff : ∀ e < inp.numEdges, ∀ v < inp.numNodes, v ≠ src inp.edges e → v ≠ dst inp.edges e → D.data e v = fin 0)
    (hf : DegForm inp.numNodes inp.edges x D) :
    ∀ e < inp.numEdges, ∀ v < inp.numNodes, ∃ q, D.data e v = fin q := by
  intro e he v hv
  have he' : e < inp.edges.length := by rw [h.len]; exact he
  by_cases h1 : v = src inp.edges e
  · obtain ⟨z, hz, hd⟩ := hf.out v hv e (mem_outEdges.mpr ⟨he', h1.symm⟩)
    obtain ⟨q, rfl⟩ := others_fin (h.two v hv).1 hz
    exact ⟨-q, hd⟩
  by_cases h2 : v = dst inp.edges e
  · obtain ⟨z, hz, hd⟩ := hf.inn v hv e (mem_inEdges.mpr ⟨he', h2.symm⟩)
    obtain ⟨q, rfl⟩ := others_fin (h.two v hv).2 hz
    exact ⟨-q, hd⟩
  · exact ⟨0, hoff e he v hv h1 h2⟩

theorem pyTspRelaxedIter_same (h : TspOk inp w c) (hfa : inp.flag = true → inp.alpha ≠ 0) {j : ℕ} {m : TspMsgs}
    {p : PyTspState} (hs : TspSame inp [] j m p) :
    ∃ m' p', tspRelaxedIter inp j m = some m' ∧ pyTspRelaxedIter inp j p = some p' ∧ TspSame inp [] (j + 1) m' p' := by
  obtain ⟨m', s1, s2, -⟩ := tspRelaxedIter_step h hs.inv
  obtain ⟨D, u, o, d1, d2, d3, d4, d5, d6, d7, d8, d9, d10, d11, d12, d13⟩ := tsp_degree h hs.inv
  obtain ⟨r, r1, r2, r3, r4⟩ := edgeToDegreeRelaxed_is (out := m.e2d) h.edges h.len d6 h.deg hs.inv.e2d.1 hs.inv.e2d.2.1
  have hm' : tspRelaxedIter inp j m = some { m with e2d := r, degDummy := D, deg := u, degOld := o } := by
    simp only [tspRelaxedIter, d1, d2, r1, Option.bind_eq_bind, Option.bind_some]
  rw [s1] at hm'
  obtain rfl := Option.some.inj hm'
  obtain ⟨D2, e1, e2⟩ := degreeUpdate_form h.edges h.len h.two hs.inv.e2d hs.inv.dummy_rows hs.inv.dummy_cols
    (fun e he v hv a b => hs.inv.dummy_off e he v hv a b)
  rw [d1] at e1
  obtain rfl := Option.some.inj e1
  obtain ⟨D', u', o', p1, p2, p3, p4⟩ := pyTsp_degree h hfa hs d1 d13 (degree_fin h d5 e2)
  obtain ⟨P, Q, g, q1, q2, q3, q4⟩ := pyEdgeToDegreeRelaxed_agree (out := m.e2d) h.edges h.len p3 h.deg hs.inv.e2d.1
    hs.inv.e2d.2.1
  obtain ⟨Q2, t1, t2, t3, t4⟩ := edgeToDegreeRelaxed_is (out := m.e2d) h.edges h.len p3 h.deg hs.inv.e2d.1 hs.inv.e2d.2.1
  rw [q2] at t1
  obtain rfl := Option.some.inj t1
  have hg : ∀ e < inp.numEdges, ∀ v < inp.numNodes, g e v = r.val e v := fun e he v hv => by
    have he' : e < inp.edges.length := by rw [h.len]; exact he
    rw [← q4.val he hv, Mat.val, Mat.val, t4 e he' v hv, r4 e he' v hv]
  refine ⟨_, ⟨P, some u', o', p.s2e, p.subOld⟩, s1, ?_, ⟨s2, ⟨g, q3, fun e he => ?_⟩, fun _ => ⟨u', rfl, p3⟩, fun _ hf => p4 hf,
    hs.s2e, fun _ _ hn => absurd rfl hn⟩⟩
  · simp only [pyTspRelaxedIter, p1, p2, q1, Option.bind_eq_bind, Option.bind_some]
  · have he' : e < inp.numEdges := by rw [← h.len]; exact he
    exact ⟨hg e he' _ (src_lt h.edges he), hg e he' _ (dst_lt h.edges he)⟩

theorem pyTspAugmentedIter_same (h : TspOk inp w c) (hfa : inp.flag = true → inp.alpha ≠ 0) (hd : CutsOk inp.numEdges deltas)
    (hne : deltas ≠ []) {j : ℕ} {m : TspMsgs} {p : PyTspState} (hs : TspSame inp deltas j m p) :
    ∃ m' p', tspAugmentedIter inp deltas j m = some m' ∧ pyTspAugmentedIter inp deltas j p = some p' ∧
      TspSame inp deltas (j + 1) m' p' := by
  obtain ⟨m', s1, s2, s3⟩ := tspAugmentedIter_step h hd hs.inv
  have hC : deltas.length ≠ 0 := fun hh => hne (List.length_eq_zero_iff.mp hh)
  have hlt : ∀ l ∈ deltas, ∀ e ∈ l, e < inp.numEdges := fun l hl => (hd l hl).2.2
  obtain ⟨D, u, o, d1, d2, d3, d4, d5, d6, d7, d8, d9, d10, d11, d12, d13⟩ := tsp_degree h hs.inv
  obtain ⟨Y, y1, y2, y3, y4⟩ := edgeToSubtour_is h.edges h.len rfl hlt h.cost d6 hs.inv.s2e
  have hY : Y.Is deltas.length inp.numEdges Y.val := Mat.isFin y2 y3 fun k hk e he =>
    ⟨_, y4 k hk e (by rw [h.len]; exact he)⟩
  have hcuts : ∀ l ∈ deltas, l.Nodup ∧ l ≠ [] ∧ ∀ e ∈ l, e < inp.numEdges := fun l hl =>
    ⟨(hd l hl).1, by rintro rfl; have := (hd _ hl).2.1; simp at this, (hd l hl).2.2⟩
  obtain ⟨Q, q1, q2, q3, q4⟩ := subtourUpdate_eq (old := m.subDummy) (E := inp.numEdges) rfl hcuts hY hs.inv.sub_rows
    hs.inv.sub_cols
  -- the shape of the new state of the C++ program
  have hm' : ∃ S so r, processFiltering deltas.length inp.flag inp.alpha j Q (m.s2e, m.subOld) = some (S, so) ∧
      edgeToDegreeAugmented inp.numEdges u S inp.edges inp.degCost m.e2d = some r ∧ m' = ⟨r, D, u, o, Y, S, Q, so⟩ := by
    simp only [tspAugmentedIter, d1, d2, y1, q1, Option.bind_eq_bind, Option.bind_some] at s1
    obtain ⟨⟨S, so⟩, f1, f2⟩ := Option.bind_eq_some_iff.mp s1
    obtain ⟨r, f3, f4⟩ := Option.bind_eq_some_iff.mp f2
    exact ⟨S, so, r, f1, f3, (Option.some.inj f4).symm⟩
  obtain ⟨S, so, r, f1, f3, rfl⟩ := hm'
  obtain ⟨D2, e1, e2⟩ := degreeUpdate_form h.edges h.len h.two hs.inv.e2d hs.inv.dummy_rows hs.inv.dummy_cols
    (fun e he v hv a b => hs.inv.dummy_off e he v hv a b)
  rw [d1] at e1
  obtain rfl := Option.some.inj e1
  obtain ⟨D', u', o', p1, p2, p3, p4⟩ := pyTsp_degree h hfa hs d1 d13 (degree_fin h d5 e2)
  -- messages to the cuts
  obtain ⟨Y', Y2, g, a1, a2, a3, a4⟩ := pyEdgeToSubtour_agree h.edges h.len rfl hlt h.cost p3 hs.s2e d7
  obtain ⟨Y3, b1, b2, b3, b4⟩ := edgeToSubtour_is h.edges h.len rfl hlt h.cost p3 hs.s2e
  rw [a2] at b1
  obtain rfl := Option.some.inj b1
  have hY' : Y'.Is deltas.length inp.numEdges Y.val := a3.congr fun k hk e he => by
    have he' : e < inp.edges.length := by rw [h.len]; exact he
    rw [← a4.val hk he, Mat.val, Mat.val, b4 k hk e he', y4 k hk e he']
  obtain ⟨Q', c1, c2, c3, c4⟩ := pySubtourUpdate_is rfl hd hY'
  have hQ' : Q'.Is deltas.length inp.numEdges Q.val := by
    refine ⟨c2, c3, fun k hk e he => ?_⟩
    by_cases hin : e ∈ deltas[k]
    · obtain ⟨z, hz, hq⟩ := (c4 k hk).1 e hin
      obtain ⟨z', hz', hq'⟩ := (q4 k hk).1 e hin
      have hl := hd _ (List.getElem_mem hk)
      obtain ⟨q, rfl⟩ := others_fin (by rw [List.toFinset_card_of_nodup hl.1]; exact hl.2.1) hz
      obtain rfl := IsMin.unique hz hz'
      rw [hq, Mat.val, hq', show -fin q = fin (-q) from rfl, cmin_fin]
      rfl
    · rw [(c4 k hk).2 e hin, Mat.val, (q4 k hk).2 e hin, hs.inv.sub_off k hk e he (by simpa [hk] using hin)]
      rfl
  obtain ⟨S', so', h1, h2, h3⟩ := pyFilter_is (k := j) (old := p.subOld) (p := m.s2e.val) hfa hQ'
    (fun hj hf => hs.subOld hj hf hne)
  have hS : ∀ k < deltas.length, ∀ e < inp.numEdges,
      dampStep inp.flag inp.alpha j (Q.val k e) (m.s2e.val k e) = S.val k e := fun k hk e he => (s3.sdamp k hk e he).symm
  have hS' : S'.Is deltas.length inp.numEdges S.val := h2.congr hS
  obtain ⟨r', g', k1, k2, k3⟩ := pyEdgeToDegreeAugmented_is h.edges h.len hC p3 hS' h.deg
  obtain ⟨r2, l1, l2, l3, l4⟩ := edgeToDegreeAugmented_is (out := m.e2d) h.edges h.len d6 s2.s2e h.deg hs.inv.e2d
  simp only at l1
  rw [f3] at l1
  obtain rfl := Option.some.inj l1
  refine ⟨_, ⟨r', some u', o', S', so'⟩, s1, ?_, ⟨s2, ⟨g', k2, fun e he => ?_⟩, fun _ => ⟨u', rfl, p3⟩, fun _ hf => p4 hf,
    hS', fun _ hf _ => ?_⟩⟩
  · simp only [pyTspAugmentedIter, p1, p2, a1, c1, h1, k1, Option.bind_eq_bind, Option.bind_some]
  · have hne := src_ne_dst h.edges he
    rw [src_eq he, dst_eq he] at hne ⊢
    have hs1 : inp.edges[e].1 < inp.numNodes := (h.edges _ (List.getElem_mem he)).1
    have hs2 : inp.edges[e].2 < inp.numNodes := (h.edges _ (List.getElem_mem he)).2.1
    constructor
    · show _ = r.val e _
      rw [(k3 e he).1, show r.val e _ = (r.data e _).val from rfl, l4 e he _ hs1, if_pos rfl, Num.val_fin]
    · show _ = r.val e _
      rw [(k3 e he).2, show r.val e _ = (r.data e _).val from rfl, l4 e he _ hs2, if_neg (Ne.symm hne), if_pos rfl, Num.val_fin]
  · obtain ⟨o2, o3, o4⟩ := h3 hf
    exact ⟨o2, o3, o4.congr hS⟩

/-- A run of both programs. -/
theorem pyTsp_run {body : ℕ → TspMsgs → Option TspMsgs} {pbody : ℕ → PyTspState → Option PyTspState}
    (hb : ∀ j m p, TspSame inp deltas j m p → ∃ m' p', body j m = some m' ∧ pbody j p = some p' ∧
      TspSame inp deltas (j + 1) m' p') {m : TspMsgs} {p : PyTspState} (h : TspSame inp deltas 0 m p) (K : ℕ) :
    ∃ m' p', loopUp K body m = some m' ∧ loopUp K pbody p = some p' ∧ TspSame inp deltas K m' p' := by
  induction K with
  | zero => exact ⟨m, p, rfl, rfl, h⟩
  | succ K ih =>
    obtain ⟨s, q, h1, h2, h3⟩ := ih
    obtain ⟨s', q', i1, i2, i3⟩ := hb _ _ _ h3
    exact ⟨s', q', by simp [loopUp, h1, i1], by simp [loopUp, h2, i2], i3⟩

theorem tspSame_of_alike (hok : EdgesOk inp.numNodes inp.edges) (hlen : inp.edges.length = inp.numEdges) {m : TspMsgs}
    {p : PyTspState} (hm : TspMsgsOk inp deltas m) (hold : deltas.length ≤ m.subOld.rows) (ha : TspAlike inp deltas m p) :
    TspSame inp deltas 0 m p := by
  obtain ⟨x, hx⟩ := ha.e2d
  refine ⟨⟨hm, hold, fun hh => absurd rfl hh, fun hh => absurd rfl hh⟩, ⟨x, hx, fun e he => ?_⟩, fun hh => absurd rfl hh,
    fun hh => absurd rfl hh, ⟨ha.s2e.1, ha.s2e.2.2.1, fun k hk e he => ?_⟩, fun hh => absurd rfl hh⟩
  · have he' : e < inp.numEdges := by rw [← hlen]; exact he
    constructor
    · rw [← hx.val he' (src_lt hok he), Mat.val, Mat.val, ha.ends e he' _ (Or.inl rfl)]
    · rw [← hx.val he' (dst_lt hok he), Mat.val, Mat.val, ha.ends e he' _ (Or.inr rfl)]
  · rw [ha.s2e.2.2.2.2 k hk e he, hm.s2e.2.2 k hk e he]

theorem alike_of_tspSame (hok : EdgesOk inp.numNodes inp.edges) (hlen : inp.edges.length = inp.numEdges) {m : TspMsgs}
    {p : PyTspState} {j : ℕ} (h : TspSame inp deltas j m p) : TspAlike inp deltas m p := by
  obtain ⟨x, hx, hxe⟩ := h.e2d
  refine ⟨⟨x, hx⟩, fun e he v hv => ?_, h.s2e.1, h.inv.s2e.1, h.s2e.2.1, h.inv.s2e.2.1, fun k hk e he => ?_⟩
  · have he' : e < inp.edges.length := by rw [hlen]; exact he
    rcases hv with rfl | rfl
    · rw [hx.2.2 e he _ (src_lt hok he'), h.inv.e2d.2.2 e he _ (src_lt hok he'), (hxe e he').1]
    · rw [hx.2.2 e he _ (dst_lt hok he'), h.inv.e2d.2.2 e he _ (dst_lt hok he'), (hxe e he').2]
  · rw [h.s2e.2.2 k hk e he, h.inv.s2e.2.2 k hk e he]

/-- The relaxed runs agree. -/
theorem pyTspRelaxed_agree (h : TspOk inp w c) (hfa : inp.flag = true → inp.alpha ≠ 0) {m : TspMsgs} {p : PyTspState}
    (hm : TspMsgsOk inp [] m) (ha : TspAlike inp [] m p) (K : ℕ) {o : Arr Num × Arr Num} (ho1 : o.1.size = inp.numEdges)
    (ho2 : o.2.size = inp.numEdges) :
    ∃ m' p' ext intr pintr, tspRelaxed inp (K + 1) m o = some (m', ext, intr) ∧ pyTspRelaxed inp (K + 1) p = some (p', pintr) ∧
      SameArr inp.numEdges pintr intr ∧ TspMsgsOk inp [] m' ∧ TspAlike inp [] m' p' := by
  obtain ⟨m', p', r1, r2, r3⟩ := pyTsp_run (body := tspRelaxedIter inp) (pbody := pyTspRelaxedIter inp)
    (fun j m p hs => pyTspRelaxedIter_same h hfa hs) (tspSame_of_alike h.edges h.len hm (Nat.zero_le _) ha) (K + 1)
  obtain ⟨d, d1, d2⟩ := r3.deg (Nat.succ_ne_zero K)
  obtain ⟨ext, e1, e2⟩ := tspExtrinsicRelaxed_is r3.inv.deg ho1
  obtain ⟨intr, i1, i2⟩ := tspIntrinsic_is h e2 ho2
  obtain ⟨pe, p1, p2, p3⟩ := genM_eq (n := d.rows) (f := npRowSum d) (fun e he => npRowSum_is d2 (by rw [← d2.1]; exact he))
  obtain ⟨pi, q1, q2⟩ := npAdd1_is (A := pe) (r := inp.numEdges) ⟨by rw [p2, d2.1], fun e he => p3 e (by rw [d2.1]; exact he)⟩ h.cost
  refine ⟨m', p', ext, intr, pi, ?_, ?_, ⟨q2.1, i2.1, fun e he => by rw [q2.2 e he, i2.2 e he]⟩, r3.inv.toTspMsgsOk,
    alike_of_tspSame h.edges h.len r3⟩
  · simp only [tspRelaxed, r1, e1, i1, Option.bind_eq_bind, Option.bind_some]
  · simp only [pyTspRelaxed, r2, d1, p1, q1, Option.bind_eq_bind, Option.bind_some]

/-- The augmented runs agree. -/
theorem pyTspAugmented_agree (h : TspOk inp w c) (hfa : inp.flag = true → inp.alpha ≠ 0) (hd : CutsOk inp.numEdges deltas)
    (hne : deltas ≠ []) {C : ℕ → ℕ → ℚ} (hC : inp.costMatrix.Is inp.numNodes inp.numNodes C) (reset : Bool) {m : TspMsgs}
    {p : PyTspState} (hm : TspMsgsOk inp deltas m) (ha : TspAlike inp deltas m p) (K : ℕ) {o : Arr Num × Arr Num}
    (ho1 : o.1.size = inp.numEdges) (ho2 : o.2.size = inp.numEdges) :
    ∃ m' p' ext intr pintr, tspAugmented inp reset deltas (K + 1) m o = some (m', ext, intr) ∧
      pyTspAugmented inp reset deltas (K + 1) p = some (p', pintr) ∧
      SameArr inp.numEdges pintr intr ∧ TspMsgsOk inp deltas m' ∧ TspAlike inp deltas m' p' := by
  obtain ⟨x, hx⟩ := ha.e2d
  obtain ⟨e2d, pe2d, s1, s2, s3, s4, s5⟩ : ∃ e2d pe2d, (if reset then tspReset inp m.e2d else some m.e2d) = some e2d ∧
      (if reset then pyTspReset inp p.e2d else some p.e2d) = some pe2d ∧ e2d.Is inp.numEdges inp.numNodes e2d.val ∧
      (∃ x, pe2d.Is inp.numEdges inp.numNodes x) ∧ ∀ e < inp.numEdges, ∀ v, v = src inp.edges e ∨ v = dst inp.edges e →
        pe2d.data e v = e2d.data e v := by
    cases reset with
    | true =>
      obtain ⟨r, r1, r2⟩ := tspReset_is h.edges h.len hC hm.e2d
      obtain ⟨t, t1, t2⟩ := tspReset_is h.edges h.len hC hx
      refine ⟨r, t, r1, t1, r2.self, ⟨_, t2⟩, fun e he v hv => ?_⟩
      have hvn : v < inp.numNodes := by
        have he' : e < inp.edges.length := by rw [h.len]; exact he
        rcases hv with rfl | rfl
        · exact src_lt h.edges he'
        · exact dst_lt h.edges he'
      rw [r2.2.2 e he v hvn, t2.2.2 e he v hvn]
      simp only [if_pos hv]
    | false => exact ⟨m.e2d, p.e2d, rfl, rfl, hm.e2d, ⟨x, hx⟩, ha.ends⟩
  have hm0 : TspMsgsOk inp deltas { m with e2d := e2d, subOld := Mat.pushZeros deltas.length m.subOld } :=
    { hm with e2d := s3, subOld_cols := hm.subOld_cols }
  obtain ⟨m', p', r1, r2, r3⟩ := pyTsp_run (body := tspAugmentedIter inp deltas) (pbody := pyTspAugmentedIter inp deltas)
    (fun j m p hs => pyTspAugmentedIter_same h hfa hd hne hs)
    (tspSame_of_alike (p := { p with e2d := pe2d }) h.edges h.len hm0 (by show _ ≤ m.subOld.rows + deltas.length; omega)
      ⟨s4, s5, ha.s2e⟩) (K + 1)
  obtain ⟨d, d1, d2⟩ := r3.deg (Nat.succ_ne_zero K)
  obtain ⟨e0, e1, e2⟩ := tspExtrinsicRelaxed_is r3.inv.deg ho1
  obtain ⟨ext, g1, g2⟩ := addRowsL_is r3.inv.s2e e2
  obtain ⟨intr, i1, i2⟩ := tspIntrinsic_is h g2 ho2
  obtain ⟨pe, p1, p2, p3⟩ := genM_eq (n := d.rows) (f := npRowSum d) (fun e he => npRowSum_is d2 (by rw [← d2.1]; exact he))
  obtain ⟨px, t1, t2⟩ := npAdd1_is (A := pe) (r := inp.numEdges) ⟨by rw [p2, d2.1], fun e he => p3 e (by rw [d2.1]; exact he)⟩
    (npSumAxis0_is r3.s2e)
  obtain ⟨pi, q1, q2⟩ := npAdd1_is t2 h.cost
  have hr0 : p'.s2e.rows ≠ 0 := by rw [r3.s2e.1]; exact fun hh => hne (List.length_eq_zero_iff.mp hh)
  refine ⟨m', p', ext, intr, pi, ?_, ?_, ⟨q2.1, i2.1, fun e he => by rw [q2.2 e he, i2.2 e he]⟩, r3.inv.toTspMsgsOk,
    alike_of_tspSame h.edges h.len r3⟩
  · cases reset <;> simp only [Bool.false_eq_true, if_false, if_true, Option.some.injEq] at s1
    · subst s1
      simp only [tspAugmented, r1, anyNan_false r3.inv.e2d, tspExtrinsicAugmented, e1, g1, i1, Option.bind_eq_bind,
        Option.bind_some, Bool.false_eq_true, if_false]
    simp only [tspAugmented, if_true, s1, r1, anyNan_false r3.inv.e2d, tspExtrinsicAugmented, e1, g1, i1, Option.bind_eq_bind,
      Option.bind_some, Bool.false_eq_true, if_false]
  · simp only [pyTspAugmented]
    rw [s2]
    simp only [r2, d1, p1, if_neg hr0, t1, q1, Option.bind_eq_bind, Option.bind_some]

/-- Adding cuts keeps the states alike. -/
theorem pyTspAddCuts_alike {m : TspMsgs} {p : PyTspState} (ha : TspAlike inp deltas m p) (more : List (List ℕ)) :
    TspAlike inp (deltas ++ more) (tspAddCuts more.length m) (pyTspAddCuts more.length p) := by
  refine ⟨ha.e2d, ha.ends, ?_, ?_, ha.s2e.2.2.1, ha.s2e.2.2.2.1, fun k hk e he => ?_⟩
  · show p.s2e.rows + _ = _; rw [ha.s2e.1, List.length_append]
  · show m.s2e.rows + _ = _; rw [ha.s2e.2.1, List.length_append]
  · show (if k < p.s2e.rows then p.s2e.data k e else 0) = (if k < m.s2e.rows then m.s2e.data k e else 0)
    rw [ha.s2e.1, ha.s2e.2.1]
    by_cases h : k < deltas.length
    · rw [if_pos h, if_pos h, ha.s2e.2.2.2.2 k h e he]
    · rw [if_neg h, if_neg h]

end
end Verif.Proofs
