import Verif.Proofs.ExactTspCall
import Verif.Spec.TspBound

/-! The TSP functions of the augmentation rounds compute exactly on small multiples of a unit. -/

namespace Verif.Proofs
open Verif Num Spec Model

variable {r : ℚ → Num} {u : ℚ} {M : ℕ}

/-- A multiple of `u` of known magnitude. -/
theorem Small.shrink (hu : 0 < u) {c x : ℚ} {a : Num} (h : Small u c a) (hx : ∀ q, a = fin q → |q| ≤ x * u) : Small u x a := fun q hq => by
  obtain ⟨z, h1, h2⟩ := h q hq
  refine ⟨z, h1, ?_⟩
  have := hx q hq
  rw [h1, abs_mul, abs_of_pos hu] at this
  exact le_of_mul_le_mul_right this hu

theorem MatAll.pushRow {P : ℕ → ℕ → Num → Prop} {m m' : Mat Num} {row : Arr Num} (h : MatAll P m) (hrow : RowAll (P m.rows) row)
    (hp : m.pushRow row = some m') : MatAll P m' ∧ m'.rows = m.rows + 1 := by
  unfold Mat.pushRow at hp
  split at hp
  · next hs =>
    rw [← Option.some.inj hp]
    refine ⟨fun i hi j hj => ?_, rfl⟩
    simp only at hi hj ⊢
    split
    · next hk => rw [hk]; exact hrow j (by omega)
    · exact h i (by omega) j hj
  · cases hp

section
variable (hr : KeepsMultiples r u M) {X B : ℚ} (hX : 0 ≤ X)
include hr hX

theorem exact_addRows {m : Mat Num} (hm : MatAll (fun _ _ => Small u X) m) (hM : m.rows * X ≤ M) (n : ℕ) :
    Same (RowAll fun _ => Small u (m.rows * X)) (addRows m (Arr.fill n 0)) (Rounded.addRows r m (Arr.fill n 0)) := by
  refine Same.loopUp (fun k => RowAll fun _ => Small u (k * X)) (fun _ _ => Small.zero (by simp)) fun k hk a ha => Same.read fun row hrow => ?_
  have hk1 : ((k : ℚ) + 1) ≤ m.rows := by exact_mod_cast hk
  have hrs := hm.rdRow hrow
  by_cases hs : a.size ≤ row.size
  · refine Same.mono (exact_addTo hr (c := fun _ => (k + 1) * X) (fun _ _ => by nlinarith) fun i hi => ?_) fun o ho i hi => ?_
    · exact ((ha i hi).add (hrs i (by omega))).mono (by linarith)
    · rw [ho.2 i, if_pos (by omega)]
      exact ((ha i (by omega)).add (hrs i (by omega))).mono (by push_cast; linarith)
  · intro o ho
    rw [Arr.addTo, if_neg (by tauto)] at ho
    cases ho

theorem exact_addRowsTo {Z : ℚ} {m : Mat Num} (hm : MatAll (fun _ _ => Small u X) m) (hM : Z + m.rows * X ≤ M) {acc : Arr Num} 
    (hacc : RowAll (fun _ => Small u Z) acc) :
    Same (fun o => RowAll (fun _ => Small u (Z + m.rows * X)) o ∧ o.size = acc.size) (addRowsL m acc) (Rounded.addRowsL r m acc) := by
  refine Same.loopUp (fun k (o : Arr Num) => RowAll (fun _ => Small u (Z + k * X)) o ∧ o.size = acc.size) ⟨by simpa using hacc, rfl⟩ fun k hk a ha => Same.read fun row hrow => ?_
  have hk1 : ((k : ℚ) + 1) ≤ m.rows := by exact_mod_cast hk
  have hrs := hm.rdRow hrow
  by_cases hs : row.size ≤ a.size
  · refine Same.mono (exact_addTo hr (c := fun _ => Z + (k + 1) * X) (fun _ _ => by nlinarith) fun i hi => ?_) fun o ho => ⟨fun i hi => ?_, ho.1.trans ha.2⟩
    · exact ((hrs i hi).add (ha.1 i (by omega))).mono (by linarith)
    · rw [ho.2 i]
      split
      · next hi => exact ((hrs i hi).add (ha.1 i (by omega))).mono (by push_cast; linarith)
      · exact (ha.1 i (by omega)).mono (by push_cast; linarith)
  · intro o ho
    rw [Arr.addTo, if_neg (by tauto)] at ho
    cases ho

theorem exact_combine {E : ℕ} {edges : List (ℕ × ℕ)} {d : Mat Num} (hd : MatAll (fun _ _ => Small u X) d) (hM : 2 * X ≤ M) :
    Same (RowAll fun _ => Small u (2 * X)) (combineDegree E edges d) (Rounded.combineDegree r E edges d) := by
  refine Same.loopUp (fun _ => RowAll fun _ => Small u (2 * X)) (fun _ _ => Small.zero (by linarith)) fun k hk a ha => ?_
  refine Same.read fun e _ => Same.read fun x hx => Same.read fun y hy => ?_
  have h := ((hd.rd hx).add (hd.rd hy)).mono (d := 2 * X) (by linarith)
  simp only [h.rn hr hM]
  exact Same.of fun b hb => ha.wr (P := fun _ => Small u (2 * X)) h hb

theorem exact_edgeToSubtour (hB : 0 ≤ B) {E D : ℕ} {deltas : List (List ℕ)} {cost : Arr Num} {d s : Mat Num} {edges : List (ℕ × ℕ)}
    (hd : MatAll (fun _ _ => Small u X) d) (hs : MatAll (fun _ _ => Small u X) s) (hc : RowAll (fun _ => Small u B) cost) (hD : s.rows ≤ D)
    (hM : (D + 3) * X + B ≤ M) :
    Same (MatAll fun _ _ => Small u M) (edgeToSubtour E deltas cost d s edges) (Rounded.edgeToSubtour r E deltas cost d s edges) := by
  have hDq : (s.rows : ℚ) ≤ D := by exact_mod_cast hD
  have hDX : (s.rows : ℚ) * X ≤ D * X := by nlinarith
  have hDX0 : (0 : ℚ) ≤ D * X := by positivity
  have h0 : (0 : ℚ) ≤ M := by positivity
  unfold edgeToSubtour Rounded.edgeToSubtour
  split
  · refine (exact_combine hr hX hd (by linarith)).bind fun comb hcomb => Same.read fun l _ => ?_
    refine ((Same.loopList (i := 0) (fun _ => RowAll fun _ => Small u M) (fun _ _ => Small.zero h0) fun e _ k _ a ha => Same.read fun x hx => Same.read fun c hcc => ?_).bind
      fun row hrow => Same.of fun b hb => (MatAll.pushRow (fun i hi => by simp at hi) hrow hb).1)
    have h := ((hcomb.rd hx).add (hc.rd hcc)).mono (d := M) (by linarith)
    simp only [h.rn hr le_rfl]
    exact Same.of fun b hb => ha.wr (P := fun _ => Small u M) h hb
  · refine (exact_addRows hr hX hs (by linarith) E).bind fun sub hsub => (exact_combine hr hX hd (by linarith)).bind fun comb hcomb => ?_
    refine Same.loopUp (fun _ => MatAll fun _ _ => Small u M) (fun i hi => by simp at hi) fun i hi out hout => Same.read fun l _ => ?_
    refine ((Same.loopList (i := 0) (fun _ => RowAll fun _ => Small u M) (fun _ _ => Small.zero h0) fun e _ k _ a ha => Same.read fun t ht => Same.read fun x hx => Same.read fun c hcc =>
      Same.read fun own hown => ?_).bind fun row hrow => Same.of fun b hb => (hout.pushRow hrow hb).1)
    have h1 := (hsub.rd ht).add (hcomb.rd hx)
    have h2 := h1.add (hc.rd hcc)
    have h3 := (h2.sub (hs.rd hown)).mono (d := M) (by linarith)
    simp only [h1.rn hr (by linarith), h2.rn hr (by linarith), h3.rn hr le_rfl]
    exact Same.of fun b hb => ha.wr (P := fun _ => Small u M) h3 hb

theorem exact_edgeToDegreeAugmented (hB : 0 ≤ B) {E D : ℕ} {cost d s e2d : Mat Num} {edges : List (ℕ × ℕ)} (hd : MatAll (fun _ _ => Small u X) d)
    (hs : MatAll (fun _ _ => Small u X) s) (hc : MatAll (fun _ _ => Small u B) cost) (he : MatAll (fun _ _ => Small u M) e2d) (hD : s.rows ≤ D)
    (hM : (D + 3) * X + B ≤ M) :
    Same (MatAll fun _ _ => Small u M) (edgeToDegreeAugmented E d s edges cost e2d) (Rounded.edgeToDegreeAugmented r E d s edges cost e2d) := by
  have hDq : (s.rows : ℚ) ≤ D := by exact_mod_cast hD
  have hDX : (s.rows : ℚ) * X ≤ D * X := by nlinarith
  have hDX0 : (0 : ℚ) ≤ D * X := by positivity
  refine (exact_addRows hr hX hs (by linarith) E).bind fun sub hsub => ?_
  refine Same.loopUp (fun _ => MatAll fun _ _ => Small u M) he fun i hi out hout => ?_
  refine Same.read fun e _ => Same.read fun t ht => Same.read fun x hx => Same.read fun c hcc => ?_
  have h1 := (hsub.rd ht).add (hd.rd hx)
  have h2 := (h1.add (hc.rd hcc)).mono (d := M) (by linarith)
  simp only [h1.rn hr (by linarith), h2.rn hr le_rfl]
  refine Same.read fun out1 ho1 => Same.read fun y hy => Same.read fun c' hc' => ?_
  have h3 := (hsub.rd ht).add (hd.rd hy)
  have h4 := (h3.add (hc.rd hc')).mono (d := M) (by linarith)
  simp only [h3.rn hr (by linarith), h4.rn hr le_rfl]
  exact Same.of fun b hb => (hout.wr (P := fun _ _ => Small u M) h2 ho1).wr h4 hb

end

section subtour
variable {X : ℚ} {e2s : Mat Num} (he : MatAll (fun _ _ => Small u X) e2s)
include he

theorem small_subtourUpdate (hX : 0 ≤ X) {E : ℕ} {deltas : List (List ℕ)} {out S : Mat Num} (ho : MatAll (fun _ _ => Small u X) out)
    (h : subtourUpdate E e2s deltas out = some S) : MatAll (fun _ _ => Small u X) S := by
  obtain ⟨⟨f, b, o⟩, h1, h⟩ := Option.bind_eq_some_iff.mp h
  obtain rfl := Option.some.inj h
  refine (keepUp (fun _ (s : Arr Num × Arr Num × Mat Num) => RowAll (fun _ => Small u X) s.1 ∧ RowAll (fun _ => Small u X) s.2.1 ∧
    MatAll (fun _ _ => Small u X) s.2.2) ⟨small_fill hX _, small_fill hX _, ho⟩ (fun k _ a ha => Same.of fun s hs => ?_) h1).2.2
  obtain ⟨f0, b0, o0⟩ := a
  obtain ⟨l, -, hs⟩ := Option.bind_eq_some_iff.mp hs
  obtain ⟨f1, g1, hs⟩ := Option.bind_eq_some_iff.mp hs
  obtain ⟨b1, g2, hs⟩ := Option.bind_eq_some_iff.mp hs
  obtain ⟨o1, g3, hs⟩ := Option.bind_eq_some_iff.mp hs
  obtain rfl := Option.some.inj hs
  have k1 := small_scanFwd (fun e x hx => he.rd hx) ha.1 g1
  have k2 := small_scanBwd (fun e x hx => he.rd hx) ha.2.1 g2
  refine ⟨k1, k2, ?_⟩
  have := (Same.loopList (i := 0) (fun _ => MatAll fun _ _ => Small u X) (f := subtourOut f1 b1 k) (g := subtourOut f1 b1 k) ha.2.2
    (L := l) fun e hel j _ a ha => Same.read fun x hx => Same.read fun y hy => Same.of fun o ho => ?_) o1 g3
  · exact this.2
  · exact ha.wr (P := fun _ _ => Small u X) (((k1.rd hx).cmin (k2.rd hy)).neg.cmin (Small.zero hX)) ho

end subtour

/-- Every table holds multiples of `u` up to `M`; the degree messages have a row for every edge. -/
structure RoundSmall (u : ℚ) (M : ℕ) (inp : TspInputs) (m : TspMsgs) : Prop where
  e2d : MatAll (fun _ _ => Small u M) m.e2d
  dummy : MatAll (EndSmall u inp.edges M) m.degDummy
  deg : MatAll (EndSmall u inp.edges M) m.deg
  rows : m.deg.rows = inp.numEdges
  s2e : MatAll (fun _ _ => Small u M) m.s2e
  sub : MatAll (fun _ _ => Small u M) m.subDummy

theorem small_within (hu : 0 < u) {X : ℚ} {t : Mat Num} (h : MatAll (fun _ _ => Small u M) t) (hx : EntriesWithin (X * u) t) :
    MatAll (fun _ _ => Small u X) t := fun i hi j hj => (h i hi j hj).shrink hu (hx i hi j hj)

section
variable (hr : KeepsMultiples r u M) (hu : 0 < u) {inp : TspInputs} {B X : ℚ} (hB : 0 ≤ B) (hX : 0 ≤ X) (hd : inp.flag = false ∨ inp.alpha = 0)
  (hc : MatAll (fun _ _ => Small u B) inp.degCost) (hw : RowAll (fun _ => Small u B) inp.cost) {D : ℕ} (hM : (D + 3) * X + B ≤ M)
include hr hu hB hX hd hc hw hM

theorem exact_augmentedIter {deltas : List (List ℕ)} {i : ℕ} {m : TspMsgs} (h : RoundSmall u M inp m) (hin : MessagesWithin (X * u) m)
    (hrows : m.s2e.rows ≤ D) (hout : ∀ m', tspAugmentedIter inp deltas i m = some m' → MessagesWithin (X * u) m') :
    Same (fun m' => RoundSmall u M inp m' ∧ m'.s2e.rows ≤ D ∧ MessagesWithin (X * u) m') (tspAugmentedIter inp deltas i m)
      (Rounded.tspAugmentedIter r inp deltas i m) := by
  have h0 : (0 : ℚ) ≤ M := by positivity
  have hDX0 : (0 : ℚ) ≤ D * X := by positivity
  intro m' hm'
  have hw' := hout m' hm'
  unfold tspAugmentedIter at hm'
  simp only [Option.bind_eq_bind, Option.bind_eq_some_iff] at hm'
  obtain ⟨dd, g1, ⟨deg, old⟩, g2, e2s, g3, sd, g4, ⟨s2e, so⟩, g5, e2d, g6, g7⟩ := hm'
  obtain rfl := Option.some.inj g7
  have k1 := small_degreeUpdate h.e2d h0 h.dummy g1
  obtain ⟨k2, k2r⟩ := same_copy hd k1 h.deg g2
  have k2x : MatAll (fun _ _ => Small u X) deg := small_within hu (k2.mono fun _ _ _ hx => hx.1) hw'.2.1
  have hsx : MatAll (fun _ _ => Small u X) m.s2e := small_within hu h.s2e hin.2.2
  obtain ⟨k3, k3s⟩ := exact_edgeToSubtour hr hX hB k2x hsx hw hrows hM e2s g3
  have k4 := small_subtourUpdate k3s h0 h.sub g4
  obtain ⟨k5, k5r⟩ := same_copy hd k4 h.s2e g5
  have k5x : MatAll (fun _ _ => Small u X) s2e := small_within hu k5 hw'.2.2
  have k5D : s2e.rows ≤ D := by rw [k5r]; exact hrows
  obtain ⟨k6, k6s⟩ := exact_edgeToDegreeAugmented hr hX hB k2x k5x hc h.e2d k5D hM e2d g6
  refine ⟨?_, ⟨k6s, k1, k2, k2r.trans h.rows, k5, k4⟩, k5D, hw'⟩
  unfold Rounded.tspAugmentedIter
  simp only [g1, filtering_undamped hd, g2, k3, g4, g5, k6, Option.bind_eq_bind, Option.bind_some]

omit hB hX hc hM hu hd hw in
theorem exact_extrinsic_all {edges : List (ℕ × ℕ)} (hX : 0 ≤ X) (hM : 2 * X ≤ M) {m : Mat Num} (h : MatAll (EndSmall u edges X) m)
    (hl : m.rows ≤ edges.length) {ext : Arr Num} (he : ext.size = m.rows) :
    Same (fun o => RowAll (fun _ => Small u (2 * X)) o ∧ o.size = ext.size) (tspExtrinsicRelaxed m ext) (Rounded.tspExtrinsicRelaxed r m ext) := by
  refine Same.mono (Same.loopUp (fun k (o : Arr Num) => (∀ i < k, Small u (2 * X) (o.data i)) ∧ o.size = ext.size) ⟨fun i hi => by omega, rfl⟩ fun k hk a ha => ?_)
    fun o ho => ⟨fun i hi => ho.1 i (by rw [← he, ← ho.2]; exact hi), ho.2⟩
  refine (exact_rowSum hr hX hM h (List.getElem?_eq_getElem (by omega))).bind fun x hx => Same.of fun b hb => ?_
  obtain ⟨-, e1, e2⟩ := arr_wr hb
  refine ⟨fun i hi => ?_, e1.trans ha.2⟩
  rw [e2]
  simp only
  split
  · exact hx
  · exact ha.1 i (by omega)

omit hr hX hc hB hu hM hd hw in
theorem intrinsic_size {ext cost intr o : Arr Num} (h : tspIntrinsic ext cost intr = some o) : o.size = intr.size := by
  unfold tspIntrinsic Arr.addTo at h
  split at h
  · rw [← Option.some.inj h]
  · cases h

theorem exact_tspAugmented (hE : inp.numEdges ≤ inp.edges.length) {reset : Bool} {deltas : List (List ℕ)} {K : ℕ} {m : TspMsgs} (h : RoundSmall u M inp m)
    (hreset : ∀ c ∈ inp.edges, ∀ x, inp.costMatrix.rd c.1 c.2 = some x → Small u B x) (hrows : m.s2e.rows ≤ D)
    (hin : ∀ i ≤ K, ∀ m', roundMsgs inp reset deltas m i = some m' → MessagesWithin (X * u) m') {o : Arr Num × Arr Num} (ho : o.1.size = inp.numEdges) :
    Same (fun x => RoundSmall u M inp x.1 ∧ x.1.s2e.rows ≤ D ∧ RowAll (fun _ => Small u ((D + 2) * X)) x.2.1 ∧ x.2.1.size = inp.numEdges)
      (tspAugmented inp reset deltas K m o) (Rounded.tspAugmented r inp reset deltas K m o) := by
  have h0 : (0 : ℚ) ≤ M := by positivity
  have hDX0 : (0 : ℚ) ≤ D * X := by positivity
  intro x hx
  have hx' : ((if reset then tspReset inp m.e2d else some m.e2d).bind fun e2d =>
      (loopUp K (tspAugmentedIter inp deltas) { m with e2d := e2d, subOld := Mat.pushZeros deltas.length m.subOld }).bind fun m =>
        if anyNan m.e2d then none else (tspExtrinsicAugmented m.deg m.s2e o.1).bind fun ext => (tspIntrinsic ext inp.cost o.2).bind fun intr => some (m, ext, intr)) =
      some x := by
    rw [← hx]; cases reset <;> rfl
  clear hx
  have goal' : Rounded.tspAugmented r inp reset deltas K m o = (if reset then tspReset inp m.e2d else some m.e2d).bind fun e2d =>
      (loopUp K (Rounded.tspAugmentedIter r inp deltas) { m with e2d := e2d, subOld := Mat.pushZeros deltas.length m.subOld }).bind fun m =>
        if anyNan m.e2d then none else (Rounded.tspExtrinsicAugmented r m.deg m.s2e o.1).bind fun ext =>
          (Rounded.tspIntrinsic r ext inp.cost o.2).bind fun intr => some (m, ext, intr) := by cases reset <;> rfl
  obtain ⟨e2d, he2d, hx'⟩ := Option.bind_eq_some_iff.mp hx'
  obtain ⟨m1, hm1, hx⟩ := Option.bind_eq_some_iff.mp hx'
  have hE2 : MatAll (fun _ _ => Small u M) e2d := by
    split at he2d
    · refine keepUp (fun _ => MatAll fun _ _ => Small u M) h.e2d (fun k _ a ha => ?_) he2d
      refine Same.read fun c hcc => Same.read fun x hx => Same.read fun o1 ho1 => Same.of fun b hb => ?_
      have hs := (hreset c (List.mem_of_getElem? hcc) x hx).mono (d := M) (by linarith)
      exact (ha.wr (P := fun _ _ => Small u M) hs ho1).wr hs hb
    · rw [← Option.some.inj he2d]; exact h.e2d
  set m0 : TspMsgs := { m with e2d := e2d, subOld := Mat.pushZeros deltas.length m.subOld } with hm0
  have hstep : ∀ i ≤ K, Same (fun m' => RoundSmall u M inp m' ∧ m'.s2e.rows ≤ D ∧ MessagesWithin (X * u) m')
      (loopUp i (tspAugmentedIter inp deltas) m0) (loopUp i (Rounded.tspAugmentedIter r inp deltas) m0) := by
    intro i
    induction i with
    | zero => exact fun _ => Same.some ⟨⟨hE2, h.dummy, h.deg, h.rows, h.s2e, h.sub⟩, hrows, hin 0 (Nat.zero_le _) m0 (by rw [roundMsgs, he2d]; rfl)⟩
    | succ i ih =>
      intro hi a ha
      obtain ⟨b, hb, hba⟩ := Option.bind_eq_some_iff.mp ha
      obtain ⟨i1, i2, i3, i4⟩ := ih (by omega) b hb
      have := exact_augmentedIter hr hu hB hX hd hc hw hM (deltas := deltas) (i := i) i2 i4 i3 (fun m' hm' => by
        rw [hba] at hm'
        obtain rfl := Option.some.inj hm'
        exact hin (i + 1) hi _ (by rw [roundMsgs, he2d]; exact ha)) a hba
      exact ⟨Option.bind_eq_some_iff.mpr ⟨b, i1, this.1⟩, this.2⟩
  obtain ⟨j1, j2, j3, j4⟩ := hstep K le_rfl m1 hm1
  have hdegX : MatAll (EndSmall u inp.edges X) m1.deg := fun i hi j hj => ⟨(j2.deg i hi j hj).1.shrink hu (j4.2.1 i hi j hj), (j2.deg i hi j hj).2⟩
  have hsX := small_within hu j2.s2e j4.2.2
  have hDq : (m1.s2e.rows : ℚ) ≤ D := by exact_mod_cast j3
  have hDX : (m1.s2e.rows : ℚ) * X ≤ D * X := by nlinarith
  split at hx
  · cases hx
  · next hnan =>
    simp only [Option.bind_eq_some_iff] at hx
    obtain ⟨ext, hext, intr, hintr, hx⟩ := hx
    obtain rfl := Option.some.inj hx
    obtain ⟨e0, he0, he1⟩ := Option.bind_eq_some_iff.mp hext
    obtain ⟨p1, p2, p3⟩ := exact_extrinsic_all hr hX (by linarith) hdegX (by rw [j2.rows]; exact hE) (ho.trans j2.rows.symm) e0 he0
    obtain ⟨q1, q2, q3⟩ := exact_addRowsTo hr hX hsX (by linarith) p2 ext he1
    have hsm : RowAll (fun _ => Small u ((D + 2) * X)) ext := fun i hi => (q2 i hi).mono (by linarith)
    obtain ⟨s1, -⟩ := exact_intrinsic hr (by linarith) hsm hw intr hintr
    refine ⟨?_, j2, j3, hsm, by rw [q3, p3, ho]⟩
    rw [goal', he2d, Option.bind_some, j1]
    simp only [Option.bind_some, if_neg hnan]
    unfold Rounded.tspExtrinsicAugmented
    simp only [p1, q1, s1, Option.bind_eq_bind, Option.bind_some]

end

end Verif.Proofs
