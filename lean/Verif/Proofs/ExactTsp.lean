import Verif.Model.RoundedTsp
import Verif.Proofs.ExactKcStages
import Verif.Proofs.ExactKsat

/-! The TSP functions of the relaxed round compute exactly on small multiples of a unit. -/

namespace Verif.Proofs
open Verif Num Spec Model

/-- Every entry satisfies `P`. -/
def RowAll (P : ℕ → Num → Prop) (a : Arr Num) : Prop := ∀ i < a.size, P i (a.data i)

/-- Every entry satisfies `P`. -/
def MatAll (P : ℕ → ℕ → Num → Prop) (m : Mat Num) : Prop := ∀ i < m.rows, ∀ j < m.cols, P i j (m.data i j)

theorem RowAll.wr {P : ℕ → Num → Prop} {a b : Arr Num} {i : ℕ} {x : Num} (h : RowAll P a) (hx : P i x) (hw : a.wr i x = some b) : RowAll P b := by
  obtain ⟨-, e1, e2⟩ := arr_wr hw
  intro k hk
  rw [e2]
  simp only
  split
  · next hki => rw [hki]; exact hx
  · exact h k (e1 ▸ hk)

theorem RowAll.rd {P : ℕ → Num → Prop} {a : Arr Num} {i : ℕ} {x : Num} (h : RowAll P a) (hx : a.rd i = some x) : P i x := by
  obtain ⟨h1, h2⟩ := arr_rd hx
  rw [h2]; exact h i h1

theorem MatAll.wr {P : ℕ → ℕ → Num → Prop} {a b : Mat Num} {i j : ℕ} {x : Num} (h : MatAll P a) (hx : P i j x) (hw : a.wr i j x = some b) :
    MatAll P b := by
  obtain ⟨-, e1, e2, e3⟩ := mat_wr hw
  intro k hk l hl
  rw [e3]
  simp only
  split
  · next hki => rw [hki.1, hki.2]; exact hx
  · exact h k (e1 ▸ hk) l (e2 ▸ hl)

theorem MatAll.rd {P : ℕ → ℕ → Num → Prop} {a : Mat Num} {i j : ℕ} {x : Num} (h : MatAll P a) (hx : a.rd i j = some x) : P i j x := by
  obtain ⟨h1, h2⟩ := mat_rd hx
  rw [h2]; exact h i h1.1 j h1.2

theorem MatAll.rdRow {P : ℕ → ℕ → Num → Prop} {a : Mat Num} {i : ℕ} {x : Arr Num} (h : MatAll P a) (hx : a.rdRow i = some x) : RowAll (P i) x := by
  unfold Mat.rdRow at hx
  split at hx
  · next hi => rw [← Option.some.inj hx]; exact fun k hk => h i hi k hk
  · cases hx

theorem MatAll.wrRow {P : ℕ → ℕ → Num → Prop} {a b : Mat Num} {i : ℕ} {x : Arr Num} (h : MatAll P a) (hx : RowAll (P i) x)
    (hw : a.wrRow i x = some b) : MatAll P b := by
  unfold Mat.wrRow at hw
  split at hw
  · next hi =>
    rw [← Option.some.inj hw]
    intro k hk l hl
    simp only
    split
    · next hki => rw [hki]; exact hx l (by rw [hi.2]; exact hl)
    · exact h k hk l hl
  · cases hw

theorem keepUp {α : Type} (P : ℕ → α → Prop) {n : ℕ} {f : ℕ → α → Option α} {s s' : α} (h0 : P 0 s)
    (hf : ∀ k < n, ∀ a, P k a → Same (P (k + 1)) (f k a) (f k a)) (h : Verif.loopUp n f s = some s') : P n s' :=
  (Same.loopUp (g := f) P h0 hf s' h).2

theorem keepDown {α : Type} (P : ℕ → α → Prop) {n : ℕ} {f : ℕ → α → Option α} {s s' : α} (h0 : P n s)
    (hf : ∀ k < n, ∀ a, P (k + 1) a → Same (P k) (f k a) (f k a)) (h : Verif.loopDown n f s = some s') : P 0 s' :=
  (Same.loopDown (g := f) P h0 hf s' h).2

variable {r : ℚ → Num} {u : ℚ} {M : ℕ}

section scan
variable {X : ℚ} {msg : ℕ → Option Num} {l : List ℕ} (hm : ∀ e x, msg e = some x → Small u X x)
include hm

theorem small_scanFwd {f f' : Arr Num} (hf : RowAll (fun _ => Small u X) f) (h : scanFwd msg l f = some f') : RowAll (fun _ => Small u X) f' := by
  obtain ⟨h0, -, h⟩ := Option.bind_eq_some_iff.mp h
  obtain ⟨f1, hw, h⟩ := Option.bind_eq_some_iff.mp h
  refine keepUp (fun _ => RowAll (fun _ => Small u X)) (hf.wr Small.pinf hw) (fun k _ a ha => ?_) h
  refine Same.read fun cur _ => Same.read fun prev _ => Same.read fun g hg => Same.read fun x hx => Same.of fun b hb => ?_
  exact ha.wr ((ha.rd hg).cmin (hm _ x hx)) hb

theorem small_scanBwd {f f' : Arr Num} (hf : RowAll (fun _ => Small u X) f) (h : scanBwd msg l f = some f') : RowAll (fun _ => Small u X) f' := by
  obtain ⟨h0, -, h⟩ := Option.bind_eq_some_iff.mp h
  obtain ⟨f1, hw, h⟩ := Option.bind_eq_some_iff.mp h
  refine keepDown (fun _ => RowAll (fun _ => Small u X)) (hf.wr Small.pinf hw) (fun k _ a ha => ?_) h
  refine Same.read fun prev _ => Same.read fun cur _ => Same.read fun g hg => Same.read fun x hx => Same.of fun b hb => ?_
  exact ha.wr ((ha.rd hg).cmin (hm _ x hx)) hb

end scan

/-- A bounded message of edge `e` for node `v`; it is zero if `v` is not an end of the edge. -/
def EndSmall (u : ℚ) (edges : List (ℕ × ℕ)) (X : ℚ) (e v : ℕ) (x : Num) : Prop :=
  Small u X x ∧ ∀ c, edges[e]? = some c → v ≠ c.1 → v ≠ c.2 → x = 0

theorem EndSmall.mono {edges : List (ℕ × ℕ)} {X Y : ℚ} {e v : ℕ} {x : Num} (h : EndSmall u edges X e v x) (hXY : X ≤ Y) : EndSmall u edges Y e v x :=
  ⟨h.1.mono hXY, h.2⟩

theorem MatAll.mono {P Q : ℕ → ℕ → Num → Prop} {m : Mat Num} (h : MatAll P m) (hPQ : ∀ i j x, P i j x → Q i j x) : MatAll Q m :=
  fun i hi j hj => hPQ _ _ _ (h i hi j hj)

theorem small_fill {X : ℚ} (hX : 0 ≤ X) (n : ℕ) : RowAll (fun _ => Small u X) (Arr.fill n 0) := fun _ _ => Small.zero hX

section degree
variable {X : ℚ} {edges : List (ℕ × ℕ)} {e2d : Mat Num} (he : MatAll (fun _ _ => Small u X) e2d)
include he

theorem small_degreeGroup {node : ℕ} {l : List ℕ} (hl : ∀ e ∈ l, ∀ c, edges[e]? = some c → node = c.1 ∨ node = c.2)
    {s s' : Arr Num × Arr Num × Mat Num}
    (hs : RowAll (fun _ => Small u X) s.1 ∧ RowAll (fun _ => Small u X) s.2.1 ∧ MatAll (EndSmall u edges X) s.2.2)
    (h : degreeGroup e2d node l s = some s') :
    RowAll (fun _ => Small u X) s'.1 ∧ RowAll (fun _ => Small u X) s'.2.1 ∧ MatAll (EndSmall u edges X) s'.2.2 := by
  obtain ⟨f, b, out⟩ := s
  obtain ⟨f1, h1, h⟩ := Option.bind_eq_some_iff.mp h
  obtain ⟨b1, h2, h⟩ := Option.bind_eq_some_iff.mp h
  obtain ⟨out1, h3, h⟩ := Option.bind_eq_some_iff.mp h
  obtain rfl := Option.some.inj h
  have k1 := small_scanFwd (fun e x hx => he.rd hx) hs.1 h1
  have k2 := small_scanBwd (fun e x hx => he.rd hx) hs.2.1 h2
  refine ⟨k1, k2, ?_⟩
  have := (Same.loopList (i := 0) (fun _ => MatAll (EndSmall u edges X)) (f := degreeOut f1 b1 node) (g := degreeOut f1 b1 node) hs.2.2
    (L := l) fun e hel k _ a ha => Same.read fun x hx => Same.read fun y hy => Same.of fun o ho => ?_) out1 h3
  · exact this.2
  · refine ha.wr ⟨((k1.rd hx).cmin (k2.rd hy)).neg, fun c hc n1 n2 => ?_⟩ ho
    rcases hl e hel c hc with h | h
    · exact absurd h n1
    · exact absurd h n2

theorem small_degreeUpdate (hX : 0 ≤ X) {n E : ℕ} {out D : Mat Num} (ho : MatAll (EndSmall u edges X) out) (h : degreeUpdate n E e2d edges out = some D) :
    MatAll (EndSmall u edges X) D := by
  obtain ⟨⟨f, b, o⟩, h1, h⟩ := Option.bind_eq_some_iff.mp h
  obtain rfl := Option.some.inj h
  refine (keepUp (fun _ (s : Arr Num × Arr Num × Mat Num) => RowAll (fun _ => Small u X) s.1 ∧ RowAll (fun _ => Small u X) s.2.1 ∧
    MatAll (EndSmall u edges X) s.2.2) ⟨small_fill hX _, small_fill hX _, ho⟩ (fun k _ a ha => Same.of fun s hs => ?_) h1).2.2
  obtain ⟨⟨f1, b1, o1⟩, g1, g2⟩ := Option.bind_eq_some_iff.mp hs
  have k1 := small_degreeGroup he (fun e hel c hc => by
    have := (List.mem_filter.mp hel).2
    rw [hc] at this
    exact Or.inl (by simpa using this)) ha g1
  refine small_degreeGroup he (fun e hel c hc => ?_) (s := (Arr.fill f1.size 0, Arr.fill b1.size 0, o1)) ⟨small_fill hX _, small_fill hX _, k1.2.2⟩ g2
  have := (List.mem_filter.mp hel).2
  rw [hc] at this
  simp only [Bool.and_eq_true] at this
  exact Or.inr (by simpa using this.2)

end degree

theorem same_copy {P : ℕ → ℕ → Num → Prop} {flag : Bool} {alpha : ℚ} (hd : flag = false ∨ alpha = 0) {rows iter : ℕ} {d : Mat Num} {s s' : Mat Num × Mat Num}
    (hP : MatAll P d) (hs : MatAll P s.1) (h : processFiltering rows flag alpha iter d s = some s') : MatAll P s'.1 ∧ s'.1.rows = s.1.rows := by
  have hno : ¬ (flag = true ∧ alpha ≠ 0) := by
    rintro ⟨h1, h2⟩
    rcases hd with h | h
    · rw [h] at h1; cases h1
    · exact h2 h
  refine keepUp (fun _ (t : Mat Num × Mat Num) => MatAll P t.1 ∧ t.1.rows = s.1.rows) ⟨hs, rfl⟩ (fun k _ a ha => Same.of fun b hb => ?_) h
  unfold filterAt at hb
  simp only [filterRow, if_neg hno, Option.bind_eq_bind, Option.bind_eq_some_iff] at hb
  obtain ⟨x, h1, y, h2, z, h3, ⟨p, q⟩, ⟨o, h4, h5⟩, w, h6, v, h7, h8⟩ := hb
  obtain rfl := Option.some.inj h8
  obtain ⟨rfl, rfl⟩ := Prod.mk.inj (Option.some.inj h5)
  refine ⟨ha.1.wrRow ?_ h6, (mat_wrRow h6).1.trans ha.2⟩
  unfold Arr.copyTo at h4
  split at h4
  · next hle =>
    rw [← Option.some.inj h4]
    intro i hi
    simp only
    split
    · next hix => exact hP.rdRow h1 i hix
    · exact ha.1.rdRow h2 i hi
  · cases h4

section edge
variable (hr : KeepsMultiples r u M) {X : ℚ} {edges : List (ℕ × ℕ)}

theorem small_flip {m f f' : Mat Num} (hm : MatAll (fun _ _ => Small u X) m) (hf : MatAll (fun _ _ => Small u X) f)
    (h : flipMatrix m edges f = some f') : MatAll (fun _ _ => Small u X) f' := by
  refine keepUp (fun _ => MatAll (fun _ _ => Small u X)) hf (fun k _ a ha => ?_) h
  refine Same.read fun c _ => Same.read fun x hx => Same.read fun o ho => Same.read fun y hy => Same.of fun b hb => ?_
  exact (ha.wr (P := fun _ _ => Small u X) (hm.rd hx) ho).wr (hm.rd hy) hb

include hr

theorem exact_edgeToDegreeRelaxed {B : ℚ} {E : ℕ} {cost d e2d : Mat Num} (hM : X + B ≤ M) (hd : MatAll (fun _ _ => Small u X) d)
    (hc : MatAll (fun _ _ => Small u B) cost) (he : MatAll (fun _ _ => Small u (X + B)) e2d) :
    Same (MatAll (fun _ _ => Small u (X + B))) (edgeToDegreeRelaxed E edges cost d e2d) (Rounded.edgeToDegreeRelaxed r E edges cost d e2d) := by
  refine Same.read fun f hf => Same.loopUp (fun _ => MatAll (fun _ _ => Small u (X + B))) he fun k _ a ha => ?_
  have hF := small_flip hd hd hf
  refine Same.read fun x hx => Same.read fun c hcc => Same.read fun o ho => ?_
  unfold Arr.addTo Rounded.addTo
  split
  · next hsz =>
    have key : ∀ i < x.size, Small u (X + B) (x.data i + c.data i) := fun i hi => (hF.rdRow hx i hi).add (hc.rdRow hcc i (by omega))
    have : (fun i => if i < x.size then Rounded.rn r (x.data i + c.data i) else o.data i) = fun i => if i < x.size then x.data i + c.data i else o.data i := by
      funext i
      split
      · next hi => exact (key i hi).rn hr hM
      · rfl
    rw [this]
    refine Same.read fun row hrow => Same.of fun b hb => ha.wrRow ?_ hb
    obtain rfl := Option.some.inj hrow
    intro i hi
    simp only
    split
    · next hix => exact key i hix
    · exact ha.rdRow ho i hi
  · exact Same.none

end edge

end Verif.Proofs
