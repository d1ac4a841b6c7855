import Verif.Proofs.InfCuts
import Verif.Proofs.InfBest
import Verif.Proofs.TspTotal

/-! The TSP solver in all rounds if infinite costs forbid edges and two other edges leave every set of nodes. -/

namespace Verif.Proofs
open Verif Num Model Spec Properties

/-- Infinite for forbidden edges, finite for the others. -/
def Carries (f : Bool) (x : Num) : Prop := if f then x = pinf else ∃ q, x = fin q

theorem Carries.ne {f : Bool} {x : Num} (h : Carries f x) : x ≠ nan := by
  cases f
  · obtain ⟨q, rfl⟩ := h; simp
  · rintro rfl; cases h
theorem carries_forbid (F : ℕ → ℕ → Bool) (C : ℕ → ℕ → ℚ) (i j : ℕ) : Carries (F i j) (forbid F C i j) := by
  unfold forbid
  cases F i j
  · exact ⟨_, rfl⟩
  · rfl
theorem Carries.add {f : Bool} {x : Num} (h : Carries f x) (p : ℚ) : Carries f (fin p + x) := by
  cases f
  · obtain ⟨q, rfl⟩ := h; exact ⟨_, rfl⟩
  · obtain rfl : x = pinf := h; rfl
theorem Carries.sub {f : Bool} {x : Num} (h : Carries f x) (p : ℚ) : Carries f (x - fin p) := by
  cases f
  · obtain ⟨q, rfl⟩ := h; exact ⟨q - p, fin_sub q p⟩
  · obtain rfl : x = pinf := h; rfl

/-- The minimum of entries one of which belongs to an allowed edge. -/
theorem minN_carries {ι : Type} {P : ι → Prop} {f : ι → Bool} {x : ι → Num} {w : Num} (hw : MinN {q | ∃ e, P e ∧ x e = q} w) (hx : ∀ e, P e → Carries (f e) (x e))
    {a : ι} (ha : P a) (hf : f a = false) : ∃ q, w = fin q := by
  have h1 : w ≠ pinf := by
    rintro rfl
    have := hx a ha
    rw [hf] at this
    obtain ⟨q, hq⟩ := this
    have := hw.2.2 (x a) ⟨a, ha, rfl⟩
    rw [hq] at this
    simp [lt] at this
  obtain ⟨e, he, rfl⟩ := hw.2.1.resolve_left h1
  have := hx e he
  cases hfe : f e
  · rw [hfe] at this; exact this
  · rw [hfe] at this; exact absurd this h1

section
variable {inp : TspInputs} {F : ℕ → ℕ → Bool} {C : ℕ → ℕ → ℚ}

/-- The inputs with forbidden edges. -/
structure ForbidIn (inp : TspInputs) (F : ℕ → ℕ → Bool) (C : ℕ → ℕ → ℚ) : Prop extends CostsOk inp (forbid F C) where
  mrows : inp.costMatrix.rows = inp.numNodes
  mcols : inp.costMatrix.cols = inp.numNodes
  mat : ∀ u < inp.numNodes, ∀ v < inp.numNodes, u ≠ v → inp.costMatrix.data u v = forbid F C u v
  deg_off : ∀ e < inp.numEdges, ∀ v < inp.numNodes, v ≠ src inp.edges e → v ≠ dst inp.edges e → inp.degCost.data e v = fin 0
  two : TwoLeave inp.numNodes F

/-- The table of messages from edges to degree constraints. -/
structure EdgeTable (inp : TspInputs) (F : ℕ → ℕ → Bool) (M : Mat Num) : Prop where
  rows : M.rows = inp.numEdges
  cols : M.cols = inp.numNodes
  ends : ∀ e < inp.numEdges, ∀ v, v = src inp.edges e ∨ v = dst inp.edges e → Carries (F (src inp.edges e) (dst inp.edges e)) (M.data e v)
  off : ∀ e < inp.numEdges, ∀ v < inp.numNodes, v ≠ src inp.edges e → v ≠ dst inp.edges e → ∃ q, M.data e v = fin q

/-- All messages to edges are finite. -/
structure ForbidMsgs (inp : TspInputs) (F : ℕ → ℕ → Bool) (deltas : List (List ℕ)) (m : TspMsgs) : Prop where
  e2d : EdgeTable inp F m.e2d
  dummy : FinM m.degDummy inp.numEdges inp.numNodes
  deg : FinM m.deg inp.numEdges inp.numNodes
  old : FinM m.degOld inp.numEdges inp.numNodes
  s2e : FinM m.s2e deltas.length inp.numEdges
  sub : FinM m.subDummy deltas.length inp.numEdges
  subOld : FinM m.subOld m.subOld.rows inp.numEdges

/-- The cuts contain two allowed edges. -/
def CutsTwo (inp : TspInputs) (F : ℕ → ℕ → Bool) (deltas : List (List ℕ)) : Prop :=
  ∀ d ∈ deltas, d.Nodup ∧ (∀ e ∈ d, e < inp.numEdges) ∧ ∃ a ∈ d, ∃ b ∈ d, a ≠ b ∧
    F (src inp.edges a) (dst inp.edges a) = false ∧ F (src inp.edges b) (dst inp.edges b) = false

theorem ForbidIn.lt (h : ForbidIn inp F C) {e : ℕ} (he : e < inp.numEdges) :
    src inp.edges e < inp.numNodes ∧ dst inp.edges e < inp.numNodes ∧ src inp.edges e ≠ dst inp.edges e := edge_lt h.all h.len he

/-- The edge with given ends. -/
theorem edge_index (h : ForbidIn inp F C) {a : ℕ × ℕ} (h1 : a.1 < inp.numNodes) (h2 : a.2 < inp.numNodes) (hne : a.1 ≠ a.2) :
    ∃ e < inp.numEdges, src inp.edges e = a.1 ∧ dst inp.edges e = a.2 := by
  obtain ⟨e, he, hg⟩ := List.mem_iff_getElem.mp (h.all.2.2 a.1 h1 a.2 h2 hne)
  refine ⟨e, by rw [← h.len]; exact he, ?_, ?_⟩
  · rw [src_eq he, hg]
  · rw [dst_eq he, hg]

/-- Two allowed edges leave every set. -/
theorem two_edges (h : ForbidIn inp F C) {S : ℕ → Prop} (h1 : ∃ u < inp.numNodes, S u) (h2 : ∃ u < inp.numNodes, ¬ S u) :
    ∃ a < inp.numEdges, ∃ b < inp.numEdges, a ≠ b ∧
      (S (src inp.edges a) ∧ ¬ S (dst inp.edges a) ∧ F (src inp.edges a) (dst inp.edges a) = false) ∧
      (S (src inp.edges b) ∧ ¬ S (dst inp.edges b) ∧ F (src inp.edges b) (dst inp.edges b) = false) := by
  obtain ⟨a, b, hab, ⟨a1, a2, a3, a4, a5⟩, ⟨b1, b2, b3, b4, b5⟩⟩ := h.two S h1 h2
  obtain ⟨i, hi, i1, i2⟩ := edge_index h a1 a2 (fun e => a4 (e ▸ a3))
  obtain ⟨j, hj, j1, j2⟩ := edge_index h b1 b2 (fun e => b4 (e ▸ b3))
  refine ⟨i, hi, j, hj, ?_, by rw [i1, i2]; exact ⟨a3, a4, a5⟩, by rw [j1, j2]; exact ⟨b3, b4, b5⟩⟩
  rintro rfl
  exact hab (Prod.ext (i1.symm.trans j1) (i2.symm.trans j2))

theorem pick_other {a b : ℕ} (hab : a ≠ b) (e : ℕ) : a ≠ e ∨ b ≠ e := by omega

/-- The degree constraints. -/
theorem forbid_degree (h : ForbidIn inp F C) (hn : 2 ≤ inp.numNodes) {M old : Mat Num} (hM : EdgeTable inp F M)
    (hold : FinM old inp.numEdges inp.numNodes) :
    ∃ D, degreeUpdate inp.numNodes inp.numEdges M inp.edges old = some D ∧ FinM D inp.numEdges inp.numNodes := by
  have hE : inp.edges.length = inp.numEdges := h.len
  have hother : ∀ v < inp.numNodes, ∃ u < inp.numNodes, u ≠ v := fun v _ => by
    by_cases hv : v = 0
    · exact ⟨1, by omega, by omega⟩
    · exact ⟨0, by omega, by omega⟩
  have hout : ∀ v < inp.numNodes, ∃ a ∈ outEdges inp.edges v, ∃ b ∈ outEdges inp.edges v, a ≠ b ∧
      F (src inp.edges a) (dst inp.edges a) = false ∧ F (src inp.edges b) (dst inp.edges b) = false := by
    intro v hv
    obtain ⟨a, ha, b, hb, hab, ⟨a1, -, a2⟩, ⟨b1, -, b2⟩⟩ := two_edges h (S := fun u => u = v) ⟨v, hv, rfl⟩ (hother v hv)
    exact ⟨a, mem_outEdges.mpr ⟨by omega, a1⟩, b, mem_outEdges.mpr ⟨by omega, b1⟩, hab, a2, b2⟩
  have hin : ∀ v < inp.numNodes, ∃ a ∈ inEdges inp.edges v, ∃ b ∈ inEdges inp.edges v, a ≠ b ∧
      F (src inp.edges a) (dst inp.edges a) = false ∧ F (src inp.edges b) (dst inp.edges b) = false := by
    intro v hv
    obtain ⟨a, ha, b, hb, hab, ⟨-, a1, a2⟩, ⟨-, b1, b2⟩⟩ := two_edges h (S := fun u => u ≠ v) (hother v hv) ⟨v, hv, not_not.mpr rfl⟩
    exact ⟨a, mem_inEdges.mpr ⟨by omega, not_not.mp a1⟩, b, mem_inEdges.mpr ⟨by omega, not_not.mp b1⟩, hab, a2, b2⟩
  have mo : ∀ {v e}, e ∈ outEdges inp.edges v → Carries (F (src inp.edges e) (dst inp.edges e)) (M.data e v) := fun {v e} he => by
    obtain ⟨h1, h2⟩ := mem_outEdges.mp he
    exact hM.ends e (by omega) v (Or.inl h2.symm)
  have mi : ∀ {v e}, e ∈ inEdges inp.edges v → Carries (F (src inp.edges e) (dst inp.edges e)) (M.data e v) := fun {v e} he => by
    obtain ⟨h1, h2⟩ := mem_inEdges.mp he
    exact hM.ends e (by omega) v (Or.inr h2.symm)
  obtain ⟨D, d1, d2, d3, d4⟩ := degreeUpdate_num (M := M) h.all.2.1 hE (fun v hv => let ⟨a, ha, _⟩ := hout v hv; ⟨a, ha⟩)
    (fun v hv => let ⟨a, ha, _⟩ := hin v hv; ⟨a, ha⟩) hM.rows hM.cols
    (fun v hv e he => he.elim (fun he => (mo he).ne) (fun he => (mi he).ne)) hold.1 hold.2.1
  refine ⟨D, d1, d2, d3, fun e he v hv => ?_⟩
  obtain ⟨k1, k2, k3⟩ := d4 v hv
  have fin_of : ∀ {l : Finset ℕ}, (∀ e ∈ l, Carries (F (src inp.edges e) (dst inp.edges e)) (M.data e v)) →
      (∃ a ∈ l, ∃ b ∈ l, a ≠ b ∧ F (src inp.edges a) (dst inp.edges a) = false ∧ F (src inp.edges b) (dst inp.edges b) = false) →
      ∀ w, MinN {q | ∃ e' ∈ l, e' ≠ e ∧ M.data e' v = q} w → ∃ q, -w = fin q := by
    rintro l hl ⟨a, ha, b, hb, hab, fa, fb⟩ w hw
    have hw' : MinN {q | ∃ e', (e' ∈ l ∧ e' ≠ e) ∧ M.data e' v = q} w := by
      simpa only [and_assoc] using hw
    obtain ⟨c, hc, hce, fc⟩ : ∃ c ∈ l, c ≠ e ∧ F (src inp.edges c) (dst inp.edges c) = false := by
      rcases pick_other hab e with h' | h'
      · exact ⟨a, ha, h', fa⟩
      · exact ⟨b, hb, h', fb⟩
    obtain ⟨q, rfl⟩ := minN_carries (f := fun e => F (src inp.edges e) (dst inp.edges e)) hw' (fun e' he' => hl e' he'.1) ⟨hc, hce⟩ fc
    exact ⟨-q, rfl⟩
  by_cases ho : e ∈ outEdges inp.edges v
  · obtain ⟨w, w1, w2⟩ := k1 e ho
    rw [w2]; exact fin_of (fun e he => mo he) (hout v hv) w w1
  · by_cases hi : e ∈ inEdges inp.edges v
    · obtain ⟨w, w1, w2⟩ := k2 e hi
      rw [w2]; exact fin_of (fun e he => mi he) (hin v hv) w w1
    · rw [k3 e ho hi]; exact hold.2.2 e he v hv

/-- One iteration of the relaxed round. -/
theorem forbid_relaxedIter (h : ForbidIn inp F C) (hn : 2 ≤ inp.numNodes) {deltas : List (List ℕ)} {j : ℕ} {m : TspMsgs} (hm : ForbidMsgs inp F deltas m) :
    ∃ m', tspRelaxedIter inp j m = some m' ∧ ForbidMsgs inp F deltas m' := by
  obtain ⟨D, d1, d2⟩ := forbid_degree h hn hm.e2d hm.dummy
  obtain ⟨u, o, p1, p2, p3⟩ := processFiltering_fin (flag := inp.flag) (alpha := inp.alpha) (j := j) d2 hm.deg hm.old le_rfl
  obtain ⟨r, r1, r2, r3, r4⟩ := edgeToDegreeRelaxed_num (out := m.e2d) (cost := inp.degCost) h.all.2.1 h.len p2.1 p2.2.1 h.deg.rows h.deg.cols hm.e2d.rows hm.e2d.cols
  refine ⟨{ m with e2d := r, degDummy := D, deg := u, degOld := o }, by simp only [tspRelaxedIter, d1, p1, r1, Option.bind_eq_bind, Option.bind_some], ⟨r2, r3, ?_, ?_⟩, d2, p2, p3,
    hm.s2e, hm.sub, hm.subOld⟩
  · intro e he v hv
    have he' : e < inp.edges.length := by rw [h.len]; exact he
    obtain ⟨l1, l2, l3⟩ := h.lt he
    have hvn : v < inp.numNodes := by rcases hv with rfl | rfl <;> assumption
    rw [r4 e he' v hvn, h.deg.ends e he v hv]
    have hb : ∃ q, (if v = inp.edges[e].1 then u.data e inp.edges[e].2 else if v = inp.edges[e].2 then u.data e inp.edges[e].1 else u.data e v) = fin q := by
      rw [src_eq he'] at l1; rw [dst_eq he'] at l2
      split_ifs
      · exact p2.2.2 e he _ l2
      · exact p2.2.2 e he _ l1
      · exact p2.2.2 e he _ hvn
    obtain ⟨q, hq⟩ := hb
    rw [hq]
    exact (carries_forbid F C _ _).add q
  · intro e he v hv n1 n2
    have he' : e < inp.edges.length := by rw [h.len]; exact he
    rw [r4 e he' v hv, h.deg_off e he v hv n1 n2, if_neg (by rw [← src_eq he']; exact n1), if_neg (by rw [← dst_eq he']; exact n2)]
    obtain ⟨q, hq⟩ := p2.2.2 e he v hv
    rw [hq]; exact ⟨_, rfl⟩

/-- One iteration of an augmented round. -/
theorem forbid_augmentedIter (h : ForbidIn inp F C) (hn : 2 ≤ inp.numNodes) {deltas : List (List ℕ)} (hd : CutsTwo inp F deltas) {j : ℕ} {m : TspMsgs}
    (hm : ForbidMsgs inp F deltas m) (hrows : deltas.length ≤ m.subOld.rows) :
    ∃ m', tspAugmentedIter inp deltas j m = some m' ∧ ForbidMsgs inp F deltas m' ∧ m'.subOld.rows = m.subOld.rows := by
  obtain ⟨D, d1, d2⟩ := forbid_degree h hn hm.e2d hm.dummy
  obtain ⟨u, o, p1, p2, p3⟩ := processFiltering_fin (flag := inp.flag) (alpha := inp.alpha) (j := j) d2 hm.deg hm.old le_rfl
  obtain ⟨Y, y1, y2, y3, y4⟩ := edgeToSubtour_num (deltas := deltas) h.all.2.1 h.len rfl (fun l hl => (hd l hl).2.1) h.size p2 hm.s2e
  have hY : ∀ k, ∀ hk : k < deltas.length, ∀ e ∈ deltas[k], Carries (F (src inp.edges e) (dst inp.edges e)) (Y.data k e) := by
    intro k hk e he
    obtain ⟨p, q, hpq⟩ := y4 k hk e he
    rw [hpq, h.cost e ((hd _ (List.getElem_mem hk)).2.1 e he)]
    exact ((carries_forbid F C _ _).add p).sub q
  obtain ⟨Z, z1, z2, z3, z4⟩ := subtourUpdate_num (M := Y) (old := m.subDummy) (E := inp.numEdges) (deltas := deltas) rfl
    (fun l hl => ⟨(hd l hl).1, by obtain ⟨a, ha, -⟩ := (hd l hl).2.2; exact List.ne_nil_of_mem ha, (hd l hl).2.1⟩) y2 y3
    (fun c hc e he => (hY c hc e he).ne) hm.sub.1 hm.sub.2.1
  have hZ : FinM Z deltas.length inp.numEdges := by
    refine ⟨z2, z3, fun k hk e he => ?_⟩
    obtain ⟨k1, k2⟩ := z4 k hk
    by_cases hin : e ∈ deltas[k]
    · obtain ⟨w, w1, w2⟩ := k1 e hin
      obtain ⟨a, ha, b, hb, hab, fa, fb⟩ := (hd _ (List.getElem_mem hk)).2.2
      have hw' : MinN {q | ∃ e', (e' ∈ deltas[k] ∧ e' ≠ e) ∧ Y.data k e' = q} w := by simpa only [and_assoc] using w1
      obtain ⟨c, hc, hce, fc⟩ : ∃ c ∈ deltas[k], c ≠ e ∧ F (src inp.edges c) (dst inp.edges c) = false := by
        rcases pick_other hab e with h' | h'
        · exact ⟨a, ha, h', fa⟩
        · exact ⟨b, hb, h', fb⟩
      obtain ⟨q, rfl⟩ := minN_carries (f := fun e => F (src inp.edges e) (dst inp.edges e)) hw' (fun e' he' => hY k hk e' he'.1) ⟨hc, hce⟩ fc
      rw [w2]
      unfold cmin
      split_ifs
      · exact ⟨0, rfl⟩
      · exact ⟨-q, rfl⟩
    · rw [k2 e hin]; exact hm.sub.2.2 k hk e he
  obtain ⟨s, so, s1, s2, s3⟩ := processFiltering_fin (flag := inp.flag) (alpha := inp.alpha) (j := j) hZ hm.s2e hm.subOld hrows
  obtain ⟨r, r1, r2, r3, r4⟩ := edgeToDegreeAugmented_num (out := m.e2d) (cost := inp.degCost) h.all.2.1 h.len p2 s2 h.deg.rows h.deg.cols hm.e2d.rows hm.e2d.cols
  refine ⟨⟨r, D, u, o, Y, s, Z, so⟩, by simp only [tspAugmentedIter, d1, p1, y1, z1, s1, r1, Option.bind_eq_bind, Option.bind_some], ⟨⟨r2, r3, ?_, ?_⟩, d2, p2, p3, s2, hZ, ?_⟩, s3.1⟩
  · intro e he v hv
    have he' : e < inp.edges.length := by rw [h.len]; exact he
    obtain ⟨l1, l2, l3⟩ := h.lt he
    have hvn : v < inp.numNodes := by rcases hv with rfl | rfl <;> assumption
    obtain ⟨p, hp⟩ := (r4 e he' v hvn).1 (by rw [← src_eq he', ← dst_eq he']; exact hv)
    rw [hp, h.deg.ends e he v hv]
    exact (carries_forbid F C _ _).add p
  · intro e he v hv n1 n2
    have he' : e < inp.edges.length := by rw [h.len]; exact he
    rw [(r4 e he' v hv).2 (by rw [← src_eq he']; exact n1) (by rw [← dst_eq he']; exact n2)]
    exact hm.e2d.off e he v hv n1 n2
  · show FinM so so.rows inp.numEdges
    rw [s3.1]; exact s3

/-- The outputs. -/
theorem forbid_outputs (h : ForbidIn inp F C) {x : ℕ → ℚ} {ext intr : Arr Num} (hx : ext.Is inp.numEdges x) (hi : intr.size = inp.numEdges) :
    ∃ r, tspIntrinsic ext inp.cost intr = some r ∧ r.size = inp.numEdges ∧ ∀ e < inp.numEdges, Carries (F (src inp.edges e) (dst inp.edges e)) (r.data e) := by
  refine ⟨⟨intr.size, fun i => if i < ext.size then ext.data i + inp.cost.data i else intr.data i⟩, ?_, hi, fun e he => ?_⟩
  · unfold tspIntrinsic Arr.addTo
    rw [if_pos ⟨by rw [hx.1, h.size], by rw [hx.1, hi]⟩]
  · simp only
    rw [if_pos (by rw [hx.1]; exact he), hx.2 e he, h.cost e he]
    exact (carries_forbid F C _ _).add _

theorem forbid_relaxed (h : ForbidIn inp F C) (hn : 2 ≤ inp.numNodes) {deltas : List (List ℕ)} {m : TspMsgs} (hm : ForbidMsgs inp F deltas m) (K : ℕ) {o : Arr Num × Arr Num}
    (h1 : o.1.size = inp.numEdges) (h2 : o.2.size = inp.numEdges) :
    ∃ m' ext intr, tspRelaxed inp K m o = some (m', ext, intr) ∧ ForbidMsgs inp F deltas m' ∧ ext.size = inp.numEdges ∧ intr.size = inp.numEdges ∧
      ∀ e < inp.numEdges, Carries (F (src inp.edges e) (dst inp.edges e)) (intr.data e) := by
  obtain ⟨m', a1, a2⟩ := loopUp_inv (n := K) (body := tspRelaxedIter inp) (s := m) (fun _ m => ForbidMsgs inp F deltas m) hm
    (fun j _ m hm => forbid_relaxedIter h hn hm)
  obtain ⟨x, hx⟩ := a2.deg.is
  obtain ⟨ext, e1, e2⟩ := tspExtrinsicRelaxed_is hx h1
  obtain ⟨intr, i1, i2, i3⟩ := forbid_outputs h e2 h2
  exact ⟨m', ext, intr, by simp only [tspRelaxed, a1, e1, i1, Option.bind_eq_bind, Option.bind_some], a2, e2.1, i2, i3⟩

theorem forbid_reset (h : ForbidIn inp F C) {M : Mat Num} (hM : EdgeTable inp F M) :
    ∃ R, tspReset inp M = some R ∧ EdgeTable inp F R := by
  obtain ⟨R, r1, r2⟩ := loopUp_inv (n := inp.edges.length) (body := fun i (e2d : Mat Num) => do
    let c ← inp.edges[i]?
    let cost ← inp.costMatrix.rd c.1 c.2
    let e2d ← e2d.wr i c.1 cost
    e2d.wr i c.2 cost) (s := M) (fun _ M => EdgeTable inp F M) hM
    (by
      intro k hk M hM
      have hkE : k < inp.numEdges := by rw [← h.len]; exact hk
      obtain ⟨l1, l2, l3⟩ := h.lt hkE
      have hmat := h.mat _ l1 _ l2 l3
      rw [src_eq hk] at l1 l3; rw [dst_eq hk] at l2 l3
      refine ⟨⟨M.rows, M.cols, fun i l => if i = k ∧ l = inp.edges[k].2 then inp.costMatrix.data inp.edges[k].1 inp.edges[k].2 else
        if i = k ∧ l = inp.edges[k].1 then inp.costMatrix.data inp.edges[k].1 inp.edges[k].2 else M.data i l⟩, ?_, hM.rows, hM.cols, ?_, ?_⟩
      · simp only [List.getElem?_eq_getElem hk, Option.bind_eq_bind, Option.bind_some,
          Mat.rd_of_lt (show inp.edges[k].1 < inp.costMatrix.rows by rw [h.mrows]; exact l1) (show inp.edges[k].2 < inp.costMatrix.cols by rw [h.mcols]; exact l2),
          Mat.wr_of_lt (show k < M.rows by rw [hM.rows]; exact hkE) (show inp.edges[k].1 < M.cols by rw [hM.cols]; exact l1)]
        exact Mat.wr_of_lt (show k < M.rows by rw [hM.rows]; exact hkE) (show inp.edges[k].2 < M.cols by rw [hM.cols]; exact l2)
      · intro e he v hv
        simp only
        by_cases hek : e = k
        · subst hek
          have hval : inp.costMatrix.data inp.edges[e].1 inp.edges[e].2 = forbid F C (src inp.edges e) (dst inp.edges e) := by
            rw [← hmat, src_eq hk, dst_eq hk]
          rw [src_eq hk, dst_eq hk] at hv
          have : (if e = e ∧ v = inp.edges[e].2 then inp.costMatrix.data inp.edges[e].1 inp.edges[e].2 else
              if e = e ∧ v = inp.edges[e].1 then inp.costMatrix.data inp.edges[e].1 inp.edges[e].2 else M.data e v) =
              inp.costMatrix.data inp.edges[e].1 inp.edges[e].2 := by
            by_cases hv2 : v = inp.edges[e].2
            · rw [if_pos ⟨rfl, hv2⟩]
            · rw [if_neg (fun h => hv2 h.2), if_pos ⟨rfl, hv.resolve_right hv2⟩]
          rw [this, hval]
          exact carries_forbid F C _ _
        · simp only [hek, false_and, if_false]
          exact hM.ends e he v hv
      · intro e he v hv n1 n2
        simp only
        by_cases hek : e = k
        · subst hek
          rw [src_eq hk] at n1; rw [dst_eq hk] at n2
          rw [if_neg (fun h => n2 h.2), if_neg (fun h => n1 h.2)]
          exact hM.off e he v hv (by rw [src_eq hk]; exact n1) (by rw [dst_eq hk]; exact n2)
        · simp only [hek, false_and, if_false]
          exact hM.off e he v hv n1 n2)
  exact ⟨R, r1, r2⟩

theorem finM_push {M : Mat Num} {r c : ℕ} (h : FinM M r c) (k : ℕ) : FinM (Mat.pushZeros k M) (r + k) c := by
  refine ⟨by rw [← h.1]; rfl, h.2.1, fun i hi j hj => ?_⟩
  show ∃ q, (if i < M.rows then M.data i j else 0) = fin q
  split_ifs with hc
  · exact h.2.2 i (by rw [← h.1]; exact hc) j hj
  · exact ⟨0, rfl⟩

theorem forbid_augmented (h : ForbidIn inp F C) (hn : 2 ≤ inp.numNodes) {deltas : List (List ℕ)} (hd : CutsTwo inp F deltas) {m : TspMsgs}
    (hm : ForbidMsgs inp F deltas m) (reset : Bool) (K : ℕ) {o : Arr Num × Arr Num} (h1 : o.1.size = inp.numEdges) (h2 : o.2.size = inp.numEdges) :
    ∃ m' ext intr, tspAugmented inp reset deltas K m o = some (m', ext, intr) ∧ ForbidMsgs inp F deltas m' ∧ ext.size = inp.numEdges ∧
      intr.size = inp.numEdges ∧ ∀ e < inp.numEdges, Carries (F (src inp.edges e) (dst inp.edges e)) (intr.data e) := by
  obtain ⟨R, r1, r2⟩ : ∃ R, (if reset then tspReset inp m.e2d else some m.e2d) = some R ∧ EdgeTable inp F R := by
    cases reset
    · exact ⟨_, rfl, hm.e2d⟩
    · exact forbid_reset h hm.e2d
  have hp := finM_push hm.subOld deltas.length
  obtain ⟨m', a1, a2, a3⟩ := loopUp_inv (n := K) (body := tspAugmentedIter inp deltas) (s := { m with e2d := R, subOld := Mat.pushZeros deltas.length m.subOld })
    (fun _ m => ForbidMsgs inp F deltas m ∧ deltas.length ≤ m.subOld.rows)
    ⟨⟨r2, hm.dummy, hm.deg, hm.old, hm.s2e, hm.sub, hp⟩, by show _ ≤ m.subOld.rows + _; omega⟩
    (fun j _ m ⟨hm, hle⟩ => by
      obtain ⟨m', b1, b2, b3⟩ := forbid_augmentedIter (j := j) h hn hd hm hle
      exact ⟨m', b1, b2, by rw [b3]; exact hle⟩)
  obtain ⟨x, hx⟩ := a2.deg.is
  obtain ⟨s, hs⟩ := a2.s2e.is
  obtain ⟨ext0, e1, e2⟩ := tspExtrinsicRelaxed_is hx h1
  obtain ⟨ext, f1, f2⟩ := addRowsL_is hs e2
  obtain ⟨intr, i1, i2, i3⟩ := forbid_outputs h f2 h2
  have hnan : anyNan m'.e2d = false := by
    simp only [anyNan, List.any_eq_false, List.mem_range, beq_iff_eq, Bool.not_eq_true]
    intro e he
    rw [a2.e2d.rows] at he
    intro v hv
    rw [a2.e2d.cols] at hv
    by_cases hv1 : v = src inp.edges e ∨ v = dst inp.edges e
    · exact (a2.e2d.ends e he v hv1).ne
    · obtain ⟨q, hq⟩ := a2.e2d.off e he v hv (fun h => hv1 (Or.inl h)) (fun h => hv1 (Or.inr h))
      rw [hq]; simp
  refine ⟨m', ext, intr, ?_, a2, f2.1, i2, i3⟩
  cases reset <;> simp only [Bool.false_eq_true, if_false, if_true, Option.some.injEq] at r1
  · subst r1
    simp only [tspAugmented, a1, hnan, tspExtrinsicAugmented, e1, f1, i1, Option.bind_eq_bind, Option.bind_some, Bool.false_eq_true, if_false]
  · simp only [tspAugmented, if_true, r1, a1, hnan, tspExtrinsicAugmented, e1, f1, i1, Option.bind_eq_bind, Option.bind_some, Bool.false_eq_true, if_false]

/-- New rows for new cuts. -/
theorem forbid_addCuts {deltas : List (List ℕ)} {m : TspMsgs} (hm : ForbidMsgs inp F deltas m) (more : List (List ℕ)) :
    ForbidMsgs inp F (deltas ++ more) (tspAddCuts more.length m) := by
  have hp := finM_push hm.s2e more.length
  rw [← List.length_append] at hp
  exact ⟨hm.e2d, hm.dummy, hm.deg, hm.old, hp, hp, hm.subOld⟩

/-- The cuts of the analysis have two allowed edges. -/
theorem forbid_cuts (h : ForbidIn inp F C) {maxCount : ℕ} {sel : List (ℕ × ℕ)} {order : List ℕ} (ho : StartOrder sel order)
    {s s' : TspAnalysis} (ha : analyse inp.numNodes maxCount inp.edges sel order s = some s') (hd : CutsTwo inp F s.deltas) :
    (∃ more, s'.deltas = s.deltas ++ more) ∧ CutsTwo inp F s'.deltas := by
  obtain ⟨⟨more, h1⟩, -, h3, -⟩ := Properties.C19_round ho ha
  refine ⟨⟨more, h1.symm⟩, fun d hdm => ?_⟩
  rcases h3 d hdm with h' | ⟨hne, l, -, -, hc⟩
  · exact hd d h'
  · have hlt : ∀ e ∈ d, e < inp.numEdges := by
      intro e he
      obtain ⟨c, hc1, -⟩ := (hc.2 e).mp he
      rw [← h.len]
      exact (List.getElem?_eq_some_iff.mp hc1).1
    refine ⟨hc.1.imp (fun h => Nat.ne_of_lt h), hlt, ?_⟩
    obtain ⟨e, he⟩ := List.exists_mem_of_ne_nil _ hne
    obtain ⟨c, hc1, hc2, hc3⟩ := (hc.2 e).mp he
    obtain ⟨c1, c2, -⟩ := h.all.2.1 c (List.mem_of_getElem? hc1)
    obtain ⟨a, ha, b, hb, hab, ⟨a1, a2, a3⟩, ⟨b1, b2, b3⟩⟩ := two_edges h (S := fun v => v ∈ l) ⟨c.1, c1, hc2⟩ ⟨c.2, c2, hc3⟩
    have mem : ∀ a < inp.numEdges, src inp.edges a ∈ l → dst inp.edges a ∉ l → a ∈ d := by
      intro a ha h1 h2
      have ha' : a < inp.edges.length := by rw [h.len]; exact ha
      refine (hc.2 a).mpr ⟨inp.edges[a], List.getElem?_eq_getElem ha', ?_, ?_⟩
      · rw [← src_eq ha']; exact h1
      · rw [← dst_eq ha']; exact h2
    exact ⟨a, mem a ha a1 a2, b, mem b hb b1 b2, hab, a3, b3⟩

/-- What holds of the state between rounds. -/
structure ForbidInv (inp : TspInputs) (F : ℕ → ℕ → Bool) (θ : ℚ) (st : TspState) : Prop where
  msgs : ForbidMsgs inp F st.an.deltas st.msgs
  cuts : CutsTwo inp F st.an.deltas
  ext : st.ext.size = inp.numEdges
  intr : st.intr.size = inp.numEdges
  beliefs : ∀ e < inp.numEdges, Carries (F (src inp.edges e) (dst inp.edges e)) (st.intr.data e)
  selected : st.selected = (chosen inp.numEdges (fin θ) st.intr).map (fun e => inp.edges.getD e (0, 0))
  cost : st.cost = (chosen inp.numEdges (fin θ) st.intr).foldl (fun acc e => acc + inp.cost.data e) 0

variable {numIter : ℕ} {reset augmentation : Bool} {θ : ℚ} {maxCount : ℕ} {maxAugm : ℤ} {order : ℕ → List (ℕ × ℕ) → List ℕ}

theorem forbid_round (h : ForbidIn inp F C) (hn : 2 ≤ inp.numNodes) (ho : ∀ k sel, StartOrder sel (order k sel)) {st : TspState} (hi : ForbidInv inp F θ st) :
    ∃ st1 st2, iterateAugmented (tspSetup inp numIter reset augmentation (fin θ) maxCount maxAugm order) st = some st1 ∧
      (∃ m, st1 = { st2 with msgs := m }) ∧ addMissingRows st1 = some st2 ∧ ForbidInv inp F θ st2 := by
  obtain ⟨m', ext, intr, r1, r2, r4, r5, r6⟩ := forbid_augmented h hn hi.cuts hi.msgs reset numIter (o := (st.ext, st.intr)) hi.ext hi.intr
  have hh := hardDecision_eq (thr := fin θ) r5 h.len h.size
  set sel := (chosen inp.numEdges (fin θ) intr).map (fun e => inp.edges.getD e (0, 0)) with hsel
  obtain ⟨an, han⟩ := analyse_some (n := inp.numNodes) (mc := maxCount) (edges := inp.edges) (ho (st.numAugm + 1) sel) st.an
  have hsome : ∃ st1, iterateAugmented (tspSetup inp numIter reset augmentation (fin θ) maxCount maxAugm order) st = some st1 := by
    have key : ∀ s0 : TspState, s0.an = st.an → s0.numAugm = st.numAugm + 1 →
        (checkOscillation maxCount sel (checkImprovement maxCount sel s0)).an = st.an ∧
        (checkOscillation maxCount sel (checkImprovement maxCount sel s0)).numAugm = st.numAugm + 1 := by
      intro s0 a1 a2
      obtain ⟨i1, i2⟩ := checkImprovement_same maxCount sel s0
      obtain ⟨o1, o2⟩ := checkOscillation_same maxCount sel (checkImprovement maxCount sel s0)
      exact ⟨by rw [o1, i1, a1], by rw [o2, i2, a2]⟩
    unfold iterateAugmented
    simp only [tspSetup, r1, Option.bind_eq_bind, Option.bind_some, hh]
    obtain ⟨k1, k2⟩ := key { st with numAugm := st.numAugm + 1, msgs := m', ext := ext, intr := intr, cost := (chosen inp.numEdges (fin θ) intr).foldl (fun acc e => acc + inp.cost.data e) 0 } rfl rfl
    by_cases hold : (checkOscillation maxCount sel (checkImprovement maxCount sel { st with numAugm := st.numAugm + 1, msgs := m', ext := ext, intr := intr, cost := (chosen inp.numEdges (fin θ) intr).foldl (fun acc e => acc + inp.cost.data e) 0 })).old ≠ []
    · simp only [if_pos hold, k1, k2, han]; exact ⟨_, rfl⟩
    · simp only [if_neg hold, k1, k2, han]; exact ⟨_, rfl⟩
  obtain ⟨st1, h1⟩ := hsome
  obtain ⟨intr', f1, f2, f3, f4, -⟩ := iterateAugmented_facts h1
  simp only [tspSetup] at f1 f3 f4
  rw [r1] at f1
  simp only [Option.some.injEq, Prod.mk.injEq] at f1
  obtain ⟨g1, g2, g3⟩ := f1
  obtain ⟨⟨more, hm⟩, hcut⟩ := forbid_cuts h (ho _ _) f4 hi.cuts
  have hok : ForbidMsgs inp F st.an.deltas st1.msgs := g1 ▸ r2
  have e1 : st1.ext.size = inp.numEdges := by rw [← g2]; exact r4
  have e0 : st1.intr = intr := by rw [f2, ← g3]
  rw [← g3, hh, Option.some.injEq, Prod.mk.injEq] at f3
  have hrows : st1.msgs.s2e.rows = st.an.deltas.length := hok.s2e.1
  have hb : ∀ e < inp.numEdges, Carries (F (src inp.edges e) (dst inp.edges e)) (st1.intr.data e) := by rw [e0]; exact r6
  have hs1 : st1.selected = (chosen inp.numEdges (fin θ) st1.intr).map (fun e => inp.edges.getD e (0, 0)) := by rw [← f3.1, e0]
  have hs2 : st1.cost = (chosen inp.numEdges (fin θ) st1.intr).foldl (fun acc e => acc + inp.cost.data e) 0 := by rw [← f3.2, e0]
  have e2 : st1.intr.size = inp.numEdges := by rw [e0]; exact r5
  by_cases hmore : more = []
  · subst hmore
    rw [List.append_nil] at hm
    refine ⟨st1, st1, h1, ⟨_, rfl⟩, ?_, ⟨hm ▸ hok, hcut, e1, e2, hb, hs1, hs2⟩⟩
    unfold addMissingRows
    rw [if_pos (by rw [hrows, hm])]
  · have hpos : 0 < more.length := List.length_pos_of_ne_nil hmore
    have hlen : st1.an.deltas.length = st.an.deltas.length + more.length := by rw [hm, List.length_append]
    refine ⟨st1, { st1 with msgs := tspAddCuts more.length st1.msgs }, h1, ⟨st1.msgs, rfl⟩, ?_, ⟨?_, hcut, e1, e2, hb, hs1, hs2⟩⟩
    · unfold addMissingRows
      rw [if_neg (by omega), if_neg (by omega), hlen, hrows, Nat.add_sub_cancel_left]
    · show ForbidMsgs inp F st1.an.deltas _
      rw [hm]; exact forbid_addCuts hok more

/-- The state after the relaxed round, with the rows for the first cuts. -/
theorem forbid_first (h : ForbidIn inp F C) (hn : 2 ≤ inp.numNodes) (ho : ∀ k sel, StartOrder sel (order k sel)) {e2d : Mat Num} (he : EdgeTable inp F e2d) :
    ∃ st, iterateRelaxed (tspSetup inp numIter reset augmentation (fin θ) maxCount maxAugm order) (tspStart inp e2d) = some st ∧ ForbidInv inp F θ (addFirstRows st) := by
  have hz : FinM (Mat.fill inp.numEdges inp.numNodes 0) inp.numEdges inp.numNodes := ⟨rfl, rfl, fun _ _ _ _ => ⟨0, rfl⟩⟩
  have h0 : FinM (Mat.fill 0 inp.numEdges 0) 0 inp.numEdges := ⟨rfl, rfl, fun _ _ _ _ => ⟨0, rfl⟩⟩
  obtain ⟨m', ext, intr, r1, r2, r4, r5, r6⟩ := forbid_relaxed (deltas := []) (m := tspInit inp e2d) h hn ⟨he, hz, hz, hz, h0, h0, h0⟩ numIter
    (o := (Arr.fill inp.numEdges 0, Arr.fill inp.numEdges 0)) rfl rfl
  have hh := hardDecision_eq (thr := fin θ) r5 h.len h.size
  set sel := (chosen inp.numEdges (fin θ) intr).map (fun e => inp.edges.getD e (0, 0)) with hsel
  obtain ⟨an, han⟩ := analyse_some (n := inp.numNodes) (mc := maxCount) (edges := inp.edges) (ho 0 sel) {}
  obtain ⟨-, hcut⟩ := forbid_cuts (F := F) h (ho _ _) han (fun d hd => by simp at hd)
  refine ⟨{ tspStart inp e2d with msgs := m', ext := ext, intr := intr, cost := (chosen inp.numEdges (fin θ) intr).foldl (fun acc e => acc + inp.cost.data e) 0, an := an, selected := sel }, ?_, ?_⟩
  · unfold iterateRelaxed
    have e1 : (tspSetup inp numIter reset augmentation (fin θ) maxCount maxAugm order).relaxed [] (tspStart inp e2d).msgs ((tspStart inp e2d).ext, (tspStart inp e2d).intr) = some (m', ext, intr) := r1
    simp only [e1, Option.bind_eq_bind, Option.bind_some]
    simp only [tspSetup, hh, Option.bind_some]
    have e2 : analyse inp.numNodes maxCount inp.edges sel (order (tspStart inp e2d).numAugm sel) (tspStart inp e2d).an = some an := han
    rw [e2]; rfl
  · unfold addFirstRows
    simp only
    split_ifs with hd
    · have := forbid_addCuts r2 an.deltas
      rw [List.nil_append] at this
      exact ⟨this, hcut, r4, r5, r6, rfl, rfl⟩
    · have hd' : an.deltas = [] := List.eq_nil_of_length_eq_zero (by omega)
      exact ⟨by show ForbidMsgs inp F an.deltas m'; rw [hd']; exact r2, hcut, r4, r5, r6, rfl, rfl⟩

/-- The loop over the augmented rounds. -/
theorem forbid_loop (h : ForbidIn inp F C) (hn : 2 ≤ inp.numNodes) (ho : ∀ k sel, StartOrder sel (order k sel)) (fuel : ℕ) :
    ∀ {st : TspState}, ForbidInv inp F θ st →
      (∀ st', augmentLoop (tspSetup inp numIter reset augmentation (fin θ) maxCount maxAugm order) fuel st = some (some st') →
        ∃ m : TspMsgs, ForbidInv inp F θ { st' with msgs := m }) ∧
      (augmentLoop (tspSetup inp numIter reset augmentation (fin θ) maxCount maxAugm order) fuel st = some none →
        ∃ k f, f 0 = st ∧ AugRun (tspSetup inp numIter reset augmentation (fin θ) maxCount maxAugm order) f k ∧ (f k).cost = 0 ∧ ForbidInv inp F θ (f k)) := by
  induction fuel with
  | zero => intro st _; exact ⟨fun st' hl => by simp [augmentLoop] at hl, fun hl => by simp [augmentLoop] at hl⟩
  | succ fuel ih =>
    intro st hinv
    obtain ⟨st1, st2, s1, ⟨m, s12⟩, s2, s3⟩ := forbid_round (numIter := numIter) (reset := reset) (augmentation := augmentation) (maxCount := maxCount)
      (maxAugm := maxAugm) h hn ho hinv
    rw [augmentLoop]
    by_cases h1 : (!st.an.satisfied && (tspSetup inp numIter reset augmentation (fin θ) maxCount maxAugm order).augmentation && !st.an.tourFlag) = true
    · rw [if_pos h1]
      by_cases h2 : (st.an.noConsFlag || st.noImprovFlag || st.solOscFlag) = true
      · rw [if_pos h2]
        refine ⟨fun st' hl => ?_, fun hl => by simp at hl⟩
        simp only [Option.some.injEq] at hl
        subst hl
        exact ⟨st.msgs, hinv⟩
      · rw [if_neg h2]
        by_cases h3 : st.cost = 0
        · rw [if_pos h3]
          exact ⟨fun st' hl => by simp at hl, fun _ => ⟨0, fun _ => st, rfl, augRun_zero st, h3, hinv⟩⟩
        · rw [if_neg h3, s1]
          simp only
          by_cases h4 : (st1.numAugm : ℤ) = (tspSetup inp numIter reset augmentation (fin θ) maxCount maxAugm order).maxAugm
          · rw [if_pos h4]
            refine ⟨fun st' hl => ?_, fun hl => by simp at hl⟩
            simp only [Option.some.injEq] at hl
            subst hl
            refine ⟨st2.msgs, ?_⟩
            rw [s12]; exact s3
          · rw [if_neg h4, s2]
            simp only
            refine ⟨(ih s3).1, fun hl => ?_⟩
            obtain ⟨k, f, f0, hr, hz, hf⟩ := (ih s3).2 hl
            have hgo : st.an.tourFlag = false ∧ st.an.satisfied = false ∧ st.an.noConsFlag = false ∧ st.noImprovFlag = false ∧
                st.solOscFlag = false ∧ st.cost ≠ 0 := by
              simp only [Bool.and_eq_true, Bool.not_eq_true', Bool.or_eq_true, not_or, Bool.not_eq_true] at h1 h2
              exact ⟨h1.2, h1.1.1, h2.1.1, h2.1.2, h2.2, h3⟩
            refine ⟨k + 1, _, rfl, augRun_cons hgo s1 h4 s2 f0 hr, by simpa using hz, ?_⟩
            simp only [Nat.add_one_ne_zero, if_false, Nat.add_sub_cancel]
            exact hf
    · rw [if_neg h1]
      refine ⟨fun st' hl => ?_, fun hl => by simp at hl⟩
      simp only [Option.some.injEq] at hl
      subst hl
      exact ⟨st.msgs, hinv⟩

/-- The chosen edges are not forbidden, and their cost is finite. -/
theorem ForbidInv.allowed (h : ForbidIn inp F C) {st : TspState} (hi : ForbidInv inp F θ st) :
    (∀ c ∈ st.selected, c ∈ inp.edges ∧ F c.1 c.2 = false) ∧ ∃ q, st.cost = fin q := by
  have hch : ∀ e ∈ chosen inp.numEdges (fin θ) st.intr, e < inp.numEdges ∧ F (src inp.edges e) (dst inp.edges e) = false := by
    intro e he
    obtain ⟨h1, h2⟩ := List.mem_filter.mp he
    have h1 := List.mem_range.mp h1
    refine ⟨h1, ?_⟩
    by_contra hF
    have := hi.beliefs e h1
    rw [Bool.not_eq_false] at hF
    rw [hF] at this
    rw [show st.intr.data e = pinf from this] at h2
    simp [gt, lt] at h2
  constructor
  · intro c hc
    rw [hi.selected] at hc
    obtain ⟨e, he, rfl⟩ := List.mem_map.mp hc
    obtain ⟨h1, h2⟩ := hch e he
    have h1' : e < inp.edges.length := by rw [h.len]; exact h1
    rw [List.getD_eq_getElem _ _ h1']
    refine ⟨List.getElem_mem _, ?_⟩
    rw [src_dst h1']; exact h2
  · rw [hi.cost]
    have : ∀ (l : List ℕ) (p : ℚ), (∀ e ∈ l, e < inp.numEdges ∧ F (src inp.edges e) (dst inp.edges e) = false) →
        ∃ q, l.foldl (fun acc e => acc + inp.cost.data e) (fin p) = fin q := by
      intro l
      induction l with
      | nil => intro p _; exact ⟨p, rfl⟩
      | cons e l ih =>
        intro p hl
        obtain ⟨e1, e2⟩ := hl e List.mem_cons_self
        have hce : inp.cost.data e = fin (C (src inp.edges e) (dst inp.edges e)) := by
          rw [h.cost e e1]
          unfold forbid
          rw [e2]; rfl
        rw [List.foldl_cons, hce, fin_add]
        exact ih _ fun e' he' => hl e' (List.mem_cons_of_mem _ he')
    exact this _ 0 hch

end

/-- The inputs made from the cost matrix. -/
theorem forbidden_all_inputs {n : ℕ} {m : Mat Num} {F : ℕ → ℕ → Bool} {C : ℕ → ℕ → ℚ} {edges : List (ℕ × ℕ)} (flag : Bool) (alpha : ℚ) (hr : m.rows = n) (hc : m.cols = n)
    (hm : ∀ i < n, ∀ j < n, i ≠ j → m.data i j = forbid F C i j) (h : AllEdges n edges) (ht : TwoLeave n F) :
    ∃ inp a, tspInputs flag alpha n m edges = some (inp, a) ∧ inp.numNodes = n ∧ inp.numEdges = edges.length ∧ inp.edges = edges ∧
      ForbidIn inp F C ∧ EdgeTable inp F a := by
  obtain ⟨inp, a, c1, c2, c3, c4, -, -, c7, c8⟩ := forbidden_inputs flag alpha hr hc hm h
  obtain ⟨inp', a', d1, d2, d3, d4, -, -, -, -, d9, d10, d11, d12, d13⟩ := Properties.C48_decoded flag alpha hr hc h.2.1 (allEdges_length h)
  rw [c1, Option.some.injEq, Prod.mk.injEq] at d1
  obtain ⟨rfl, rfl⟩ := d1
  refine ⟨inp, a, c1, c2, c3, c4, ⟨c7, by rw [d9.1, d2], by rw [d9.2.1, d2], fun u hu v hv huv => ?_, fun e he v hv h1 h2 => ?_, by rw [c2]; exact ht⟩, c8.rows, c8.cols, fun e he v hv => ?_,
    fun e he v hv h1 h2 => ?_⟩
  · rw [d2] at hu hv
    rw [d9.2.2 u hu v hv, hm u hu v hv huv]
  · rw [d3] at he; rw [d2] at hv; rw [d4] at h1 h2
    rw [d10.2.2 e he v hv, if_neg (not_or.mpr ⟨h1, h2⟩)]; rfl
  · rw [c8.ends e he v hv]; exact carries_forbid F C _ _
  · rw [d3] at he; rw [d2] at hv; rw [d4] at h1 h2
    rw [d13 e he v hv, if_neg (not_or.mpr ⟨h1, h2⟩)]; exact ⟨0, rfl⟩

end Verif.Proofs
