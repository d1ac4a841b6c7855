import Verif.Proofs.KnapDefined
import Verif.Proofs.Degree
import Verif.Proofs.Filter
import Verif.Proofs.TspTotal
import Verif.Proofs.InfRounds
import Verif.Spec.TspSafe

/-! The TSP solver stays inside its arrays, whatever the numbers are. -/

namespace Verif.Proofs
open Verif Num Model Spec

theorem loopUp_total {σ : Type} {P : σ → Prop} {n : ℕ} {body : ℕ → σ → Option σ} {s : σ} (h0 : P s)
    (hs : ∀ i < n, ∀ t, P t → ∃ t', body i t = some t' ∧ P t') : ∃ t, loopUp n body s = some t ∧ P t :=
  loopUp_inv (fun _ => P) h0 hs

theorem loopDown_total {σ : Type} {P : σ → Prop} {n : ℕ} {body : ℕ → σ → Option σ} {s : σ} (h0 : P s)
    (hs : ∀ i < n, ∀ t, P t → ∃ t', body i t = some t' ∧ P t') : ∃ t, loopDown n body s = some t ∧ P t :=
  loopDown_inv (fun _ => P) h0 hs

theorem loopList_total {σ β : Type} {P : σ → Prop} {l : List β} {body : β → σ → Option σ} {s : σ} (h0 : P s)
    (hs : ∀ b ∈ l, ∀ t, P t → ∃ t', body b t = some t' ∧ P t') : ∃ t, loopList l body s = some t ∧ P t :=
  loopList_inv_idx (fun _ => P) h0 (fun i hi t ht => hs _ (List.getElem_mem hi) t ht)

/-- A table of the given size. -/
def Shape (m : Mat Num) (r c : ℕ) : Prop := m.rows = r ∧ m.cols = c

theorem shape_rd {m : Mat Num} {r c i j : ℕ} (h : Shape m r c) (hi : i < r) (hj : j < c) : m.rd i j = some (m.data i j) :=
  Mat.rd_of_lt (by rw [h.1]; exact hi) (by rw [h.2]; exact hj)

theorem shape_wr {m : Mat Num} {r c i j : ℕ} (h : Shape m r c) (hi : i < r) (hj : j < c) (v : Num) : ∃ m', m.wr i j v = some m' ∧ Shape m' r c :=
  ⟨_, Mat.wr_of_lt (by rw [h.1]; exact hi) (by rw [h.2]; exact hj), h⟩

theorem size_rd {a : Arr Num} {r i : ℕ} (h : a.size = r) (hi : i < r) : a.rd i = some (a.data i) := Arr.rd_of_lt (by rw [h]; exact hi)

theorem size_wr {a : Arr Num} {r i : ℕ} (h : a.size = r) (hi : i < r) (v : Num) : ∃ a', a.wr i v = some a' ∧ a'.size = r :=
  ⟨_, Arr.wr_of_lt (by rw [h]; exact hi), h⟩

section scans
variable {msg : ℕ → Option Num} {l : List ℕ} {E : ℕ} {f b : Arr Num}

theorem scanFwd_safe (hne : l ≠ []) (hlt : ∀ e ∈ l, e < E) (hm : ∀ e ∈ l, ∃ x, msg e = some x) (hf : f.size = E + 1) :
    ∃ f', scanFwd msg l f = some f' ∧ f'.size = E + 1 := by
  have hpos : 0 < l.length := List.length_pos_of_ne_nil hne
  obtain ⟨f1, a1, a2⟩ := size_wr hf (show l[0] < E + 1 by have := hlt _ (List.getElem_mem hpos); omega) pinf
  obtain ⟨f', b1, b2⟩ := loopUp_total (P := fun f : Arr Num => f.size = E + 1) (n := l.length - 1) (body := fun i (fwd : Arr Num) => do
    let cur ← l[i + 1]?
    let prev ← l[i]?
    let f ← fwd.rd prev
    let m ← msg prev
    fwd.wr cur (cmin f m)) a2 (fun i hi t ht => by
      have h1 : i < l.length := by omega
      have h2 : i + 1 < l.length := by omega
      have l1 := hlt _ (List.getElem_mem h1)
      have l2 := hlt _ (List.getElem_mem h2)
      obtain ⟨x, hx⟩ := hm _ (List.getElem_mem h1)
      obtain ⟨t', c1, c2⟩ := size_wr ht (show l[i + 1] < E + 1 by omega) (cmin (t.data l[i]) x)
      refine ⟨t', ?_, c2⟩
      simp only [List.getElem?_eq_getElem h2, List.getElem?_eq_getElem h1, Option.bind_eq_bind, Option.bind_some,
        size_rd ht (show l[i] < E + 1 by omega), hx]
      exact c1)
  refine ⟨f', ?_, b2⟩
  unfold scanFwd
  simp only [List.getElem?_eq_getElem hpos, Option.bind_eq_bind, Option.bind_some, a1]
  exact b1

theorem scanBwd_safe (hne : l ≠ []) (hlt : ∀ e ∈ l, e < E) (hm : ∀ e ∈ l, ∃ x, msg e = some x) (hf : b.size = E + 1) :
    ∃ b', scanBwd msg l b = some b' ∧ b'.size = E + 1 := by
  have hpos : l.length - 1 < l.length := by have := List.length_pos_of_ne_nil hne; omega
  obtain ⟨f1, a1, a2⟩ := size_wr hf (show l[l.length - 1] + 1 < E + 1 by have := hlt _ (List.getElem_mem hpos); omega) pinf
  obtain ⟨f', b1, b2⟩ := loopDown_total (P := fun f : Arr Num => f.size = E + 1) (n := l.length - 1) (body := fun i (bwd : Arr Num) => do
    let prev ← l[i]?
    let cur ← l[i + 1]?
    let b ← bwd.rd (cur + 1)
    let m ← msg cur
    bwd.wr (prev + 1) (cmin b m)) a2 (fun i hi t ht => by
      have h1 : i < l.length := by omega
      have h2 : i + 1 < l.length := by omega
      have l1 := hlt _ (List.getElem_mem h1)
      have l2 := hlt _ (List.getElem_mem h2)
      obtain ⟨x, hx⟩ := hm _ (List.getElem_mem h2)
      obtain ⟨t', c1, c2⟩ := size_wr ht (show l[i] + 1 < E + 1 by omega) (cmin (t.data (l[i + 1] + 1)) x)
      refine ⟨t', ?_, c2⟩
      simp only [List.getElem?_eq_getElem h2, List.getElem?_eq_getElem h1, Option.bind_eq_bind, Option.bind_some,
        size_rd ht (show l[i + 1] + 1 < E + 1 by omega), hx]
      exact c1)
  refine ⟨f', ?_, b2⟩
  unfold scanBwd
  simp only [List.getElem?_eq_getElem hpos, Option.bind_eq_bind, Option.bind_some, a1]
  exact b1

end scans

theorem mem_connFirst {edges : List (ℕ × ℕ)} {v e : ℕ} : e ∈ connFirst edges v ↔ ∃ c, edges[e]? = some c ∧ c.1 = v := by
  unfold connFirst
  rw [List.mem_filter, List.mem_range]
  constructor
  · rintro ⟨h1, h2⟩
    rw [List.getElem?_eq_getElem h1] at h2
    exact ⟨_, List.getElem?_eq_getElem h1, by simpa using (beq_iff_eq.mp h2).symm⟩
  · rintro ⟨c, h1, h2⟩
    exact ⟨(List.getElem?_eq_some_iff.mp h1).1, by rw [h1]; simp [h2]⟩

theorem mem_connSecond {edges : List (ℕ × ℕ)} {v e : ℕ} : e ∈ connSecond edges v ↔ ∃ c, edges[e]? = some c ∧ c.1 ≠ v ∧ c.2 = v := by
  unfold connSecond
  rw [List.mem_filter, List.mem_range]
  constructor
  · rintro ⟨h1, h2⟩
    rw [List.getElem?_eq_getElem h1] at h2
    refine ⟨_, List.getElem?_eq_getElem h1, ?_⟩
    simp only [Bool.and_eq_true, Bool.not_eq_true', beq_eq_false_iff_ne, beq_iff_eq] at h2
    exact ⟨fun h => h2.1 h.symm, h2.2.symm⟩
  · rintro ⟨c, h1, h2, h3⟩
    refine ⟨(List.getElem?_eq_some_iff.mp h1).1, ?_⟩
    rw [h1]
    simp only [Bool.and_eq_true, Bool.not_eq_true', beq_eq_false_iff_ne, beq_iff_eq]
    exact ⟨fun h => h2 h.symm, h3.symm⟩

theorem connFirst_ne {edges : List (ℕ × ℕ)} {v : ℕ} : connFirst edges v ≠ [] ↔ ∃ c ∈ edges, c.1 = v := by
  constructor
  · intro h
    obtain ⟨e, he⟩ := List.exists_mem_of_ne_nil _ h
    obtain ⟨c, h1, h2⟩ := mem_connFirst.mp he
    exact ⟨c, List.mem_of_getElem? h1, h2⟩
  · rintro ⟨c, h1, h2⟩
    obtain ⟨i, hi, rfl⟩ := List.mem_iff_getElem.mp h1
    exact List.ne_nil_of_mem (mem_connFirst.mpr ⟨_, List.getElem?_eq_getElem hi, h2⟩)

theorem connSecond_ne {edges : List (ℕ × ℕ)} {v : ℕ} : connSecond edges v ≠ [] ↔ ∃ c ∈ edges, c.1 ≠ v ∧ c.2 = v := by
  constructor
  · intro h
    obtain ⟨e, he⟩ := List.exists_mem_of_ne_nil _ h
    obtain ⟨c, h1, h2⟩ := mem_connSecond.mp he
    exact ⟨c, List.mem_of_getElem? h1, h2⟩
  · rintro ⟨c, h1, h2⟩
    obtain ⟨i, hi, rfl⟩ := List.mem_iff_getElem.mp h1
    exact List.ne_nil_of_mem (mem_connSecond.mpr ⟨_, List.getElem?_eq_getElem hi, h2⟩)

section tables
variable {n E : ℕ} {edges : List (ℕ × ℕ)} {M out : Mat Num}

theorem degreeGroup_safe (hM : Shape M E n) {v : ℕ} (hv : v < n) {l : List ℕ} (hne : l ≠ []) (hlt : ∀ e ∈ l, e < E) {f b : Arr Num} (hf : f.size = E + 1)
    (hb : b.size = E + 1) (ho : Shape out E n) :
    ∃ f' b' out', degreeGroup M v l (f, b, out) = some (f', b', out') ∧ f'.size = E + 1 ∧ b'.size = E + 1 ∧ Shape out' E n := by
  have hm : ∀ e ∈ l, ∃ x, M.rd e v = some x := fun e he => ⟨_, shape_rd hM (hlt e he) hv⟩
  obtain ⟨f', f1, f2⟩ := scanFwd_safe (msg := fun e => M.rd e v) hne hlt hm hf
  obtain ⟨b', b1, b2⟩ := scanBwd_safe (msg := fun e => M.rd e v) hne hlt hm hb
  obtain ⟨o', o1, o2⟩ := loopList_total (P := fun o => Shape o E n) (l := l) (body := degreeOut f' b' v) ho (fun e he o ho => by
    have := hlt e he
    obtain ⟨o', c1, c2⟩ := shape_wr ho this hv (-(cmin (f'.data e) (b'.data (e + 1))))
    refine ⟨o', ?_, c2⟩
    unfold degreeOut
    simp only [size_rd f2 (show e < E + 1 by omega), size_rd b2 (show e + 1 < E + 1 by omega), Option.bind_eq_bind, Option.bind_some]
    exact c1)
  exact ⟨f', b', o', by simp [degreeGroup, f1, b1, o1], f2, b2, o2⟩

theorem degreeUpdate_safe (hE : edges.length = E) (hl : LeftAndEntered n edges) (hM : Shape M E n) (ho : Shape out E n) :
    ∃ out', degreeUpdate n E M edges out = some out' ∧ Shape out' E n := by
  obtain ⟨⟨f, b, o⟩, h1, h2⟩ := loopUp_total (P := fun st : Arr Num × Arr Num × Mat Num => st.1.size = E + 1 ∧ st.2.1.size = E + 1 ∧ Shape st.2.2 E n)
    (n := n) (body := degreeNode M edges) (s := (Arr.fill (E + 1) 0, Arr.fill (E + 1) 0, out)) ⟨rfl, rfl, ho⟩ (by
      rintro v hv ⟨f, b, o⟩ ⟨s1, s2, s3⟩
      obtain ⟨f1, b1, o1, a1, a2, a3, a4⟩ := degreeGroup_safe hM hv (connFirst_ne.mpr (hl v hv).1) (by rw [← hE]; exact connFirst_lt edges v) s1 s2 s3
      obtain ⟨f2, b2, o2, c1, c2, c3, c4⟩ := degreeGroup_safe (f := Arr.fill f1.size 0) (b := Arr.fill b1.size 0) hM hv (connSecond_ne.mpr (hl v hv).2)
        (by rw [← hE]; exact connSecond_lt edges v) a2 a3 a4
      exact ⟨(f2, b2, o2), by simp [degreeNode, a1, c1], c2, c3, c4⟩)
  exact ⟨o, by simp only [degreeUpdate]; rw [h1]; rfl, h2.2.2⟩

theorem flipMatrix_safe (hE : edges.length = E) (he : EndsExist n edges) {D : Mat Num} (hD : Shape D E n) : ∃ F, flipMatrix D edges D = some F ∧ Shape F E n := by
  refine loopUp_total (P := fun F => Shape F E n) hD (fun i hi F hF => ?_)
  obtain ⟨h1, h2⟩ := he _ (List.getElem_mem hi)
  obtain ⟨F1, a1, a2⟩ := shape_wr hF (show i < E by omega) h1 (D.data i edges[i].2)
  obtain ⟨F2, b1, b2⟩ := shape_wr a2 (show i < E by omega) h2 (D.data i edges[i].1)
  refine ⟨F2, ?_, b2⟩
  simp only [List.getElem?_eq_getElem hi, shape_rd hD (show i < E by omega) h1, shape_rd hD (show i < E by omega) h2, Option.bind_eq_bind, Option.bind_some, a1]
  exact b1

theorem edgeToDegreeRelaxed_safe (hE : edges.length = E) (he : EndsExist n edges) {cost D : Mat Num} (hD : Shape D E n) (hc : Shape cost E n) (ho : Shape out E n) :
    ∃ r, edgeToDegreeRelaxed E edges cost D out = some r ∧ Shape r E n := by
  obtain ⟨F, f1, f2⟩ := flipMatrix_safe hE he hD
  obtain ⟨r, h1, h2⟩ := loopUp_total (P := fun r => Shape r E n) (n := E) (body := fun e (out : Mat Num) => do
      let x ← F.rdRow e
      let c ← cost.rdRow e
      let o ← out.rdRow e
      let row ← x.addTo c o
      out.wrRow e row) ho (fun k hk r hr => by
      obtain ⟨r1, r2⟩ := hr
      obtain ⟨c1, c2⟩ := hc
      obtain ⟨f3, f4⟩ := f2
      refine ⟨⟨r.rows, r.cols, fun i l => if i = k then (if l < F.cols then F.data k l + cost.data k l else r.data k l) else r.data i l⟩, ?_, r1, r2⟩
      · simp only [Mat.rdRow_of_lt (show k < F.rows by omega), Mat.rdRow_of_lt (show k < cost.rows by omega),
          Mat.rdRow_of_lt (show k < r.rows by omega), Arr.addTo, if_pos (show F.cols ≤ cost.cols ∧ F.cols ≤ r.cols by omega),
          Option.bind_eq_bind, Option.bind_some]
        exact Mat.wrRow_of_lt (by omega) rfl)
  refine ⟨r, ?_, h2⟩
  simp only [edgeToDegreeRelaxed, f1, Option.bind_eq_bind, Option.bind_some]
  exact h1

theorem filter_safe {rows : ℕ} {flag : Bool} {alpha : ℚ} {iter c r r' : ℕ} {dummy u o : Mat Num} (hd : Shape dummy rows c) (hu : Shape u r c) (ho : Shape o r' c)
    (h1 : rows ≤ r) (h2 : rows ≤ r') :
    ∃ u' o', processFiltering rows flag alpha iter dummy (u, o) = some (u', o') ∧ Shape u' r c ∧ Shape o' r' c := by
  obtain ⟨⟨u', o'⟩, a1, a2, a3, a4, a5, -⟩ := processFiltering_spec (rows := rows) (flag := flag) (alpha := alpha) (iter := iter) (dummy := dummy) (s := (u, o)) (n := c)
    (by rw [hd.1]) (by show rows ≤ u.rows; rw [hu.1]; exact h1) (by show rows ≤ o.rows; rw [ho.1]; exact h2) hd.2 hu.2 ho.2
  exact ⟨u', o', a1, ⟨a2.trans hu.1, a3⟩, ⟨a4.trans ho.1, a5⟩⟩

theorem addRows_safe {r c : ℕ} {m : Mat Num} (h : Shape m r c) {acc : Arr Num} (ha : acc.size = c) : ∃ a, addRows m acc = some a ∧ a.size = c := by
  refine loopUp_total (P := fun a : Arr Num => a.size = c) ha (fun i hi a ha => ?_)
  simp only [Mat.rdRow_of_lt hi, Option.bind_eq_bind, Option.bind_some, Arr.addTo, h.2, ha, le_refl, and_self, if_true]
  exact ⟨_, rfl, rfl⟩

theorem addRowsL_safe {r c : ℕ} {m : Mat Num} (h : Shape m r c) {acc : Arr Num} (ha : acc.size = c) : ∃ a, addRowsL m acc = some a ∧ a.size = c := by
  refine loopUp_total (P := fun a : Arr Num => a.size = c) ha (fun i hi a ha => ?_)
  simp only [Mat.rdRow_of_lt hi, Option.bind_eq_bind, Option.bind_some, Arr.addTo, h.2, ha, le_refl, and_self, if_true]
  exact ⟨_, rfl, rfl⟩

theorem combineDegree_safe (hE : edges.length = E) (he : EndsExist n edges) {D : Mat Num} (hD : Shape D E n) :
    ∃ a, combineDegree E edges D = some a ∧ a.size = E := by
  refine loopUp_total (P := fun a : Arr Num => a.size = E) rfl (fun i hi a ha => ?_)
  have hi' : i < edges.length := by omega
  obtain ⟨h1, h2⟩ := he _ (List.getElem_mem hi')
  obtain ⟨a', b1, b2⟩ := size_wr ha hi (D.data i edges[i].1 + D.data i edges[i].2)
  refine ⟨a', ?_, b2⟩
  simp only [List.getElem?_eq_getElem hi', shape_rd hD hi h1, shape_rd hD hi h2, Option.bind_eq_bind, Option.bind_some]
  exact b1

theorem pushRow_safe {m : Mat Num} {r c : ℕ} (h : Shape m r c) {row : Arr Num} (hr : row.size = c) : ∃ m', m.pushRow row = some m' ∧ Shape m' (r + 1) c := by
  unfold Mat.pushRow
  rw [if_pos (by rw [hr, h.2])]
  exact ⟨_, rfl, by show m.rows + 1 = _; rw [h.1], h.2⟩

/-- The cuts name edges that exist. -/
def CutsExist (E : ℕ) (deltas : List (List ℕ)) : Prop := ∀ d ∈ deltas, d ≠ [] ∧ ∀ e ∈ d, e < E

theorem edgeToSubtour_safe (hE : edges.length = E) (he : EndsExist n edges) {deltas : List (List ℕ)} (hd : CutsExist E deltas) {cost : Arr Num} (hc : cost.size = E)
    {D S : Mat Num} (hD : Shape D E n) (hS : Shape S deltas.length E) : ∃ r, edgeToSubtour E deltas cost D S edges = some r ∧ Shape r deltas.length E := by
  obtain ⟨comb, c1, c2⟩ := combineDegree_safe hE he hD
  unfold edgeToSubtour
  split_ifs with h1
  · have h0 : 0 < deltas.length := by omega
    obtain ⟨row, r1, r2⟩ := loopList_total (P := fun a : Arr Num => a.size = E) (l := deltas[0]) (body := fun e (row : Arr Num) => do
      let x ← comb.rd e
      let c ← cost.rd e
      row.wr e (x + c)) (s := Arr.fill E 0) rfl (fun e he' a ha => by
        have := (hd _ (List.getElem_mem h0)).2 e he'
        obtain ⟨a', b1, b2⟩ := size_wr ha this (comb.data e + cost.data e)
        exact ⟨a', by simp only [size_rd c2 this, size_rd hc this, Option.bind_eq_bind, Option.bind_some]; exact b1, b2⟩)
    obtain ⟨m', p1, p2⟩ := pushRow_safe (m := ⟨0, E, fun _ _ => 0⟩) (r := 0) ⟨rfl, rfl⟩ r2
    refine ⟨m', ?_, by rw [h1]; exact p2⟩
    simp only [c1, List.getElem?_eq_getElem h0, Option.bind_eq_bind, Option.bind_some]
    simp only [Option.bind_eq_bind] at r1
    rw [r1]; exact p1
  · obtain ⟨sub, s1, s2⟩ := addRows_safe hS (acc := Arr.fill E 0) rfl
    simp only [s1, c1, Option.bind_eq_bind, Option.bind_some]
    obtain ⟨r, r1, r2⟩ := loopUp_inv (n := deltas.length) (fun k (m : Mat Num) => Shape m k E) (s := ⟨0, E, fun _ _ => 0⟩) (body := fun i (out : Mat Num) =>
      (deltas[i]?).bind fun l => (loopList l (fun e (row : Arr Num) => (sub.rd e).bind fun s => (comb.rd e).bind fun x => (cost.rd e).bind fun c =>
        (S.rd i e).bind fun own => row.wr e (s + x + c - own)) (Arr.fill E 0)).bind fun row => out.pushRow row) ⟨rfl, rfl⟩ (fun i hi m hm => by
        obtain ⟨row, q1, q2⟩ := loopList_total (P := fun a : Arr Num => a.size = E) (l := deltas[i]) (body := fun e (row : Arr Num) => (sub.rd e).bind fun s =>
          (comb.rd e).bind fun x => (cost.rd e).bind fun c => (S.rd i e).bind fun own => row.wr e (s + x + c - own)) (s := Arr.fill E 0) rfl (fun e he' a ha => by
          have := (hd _ (List.getElem_mem hi)).2 e he'
          obtain ⟨a', b1, b2⟩ := size_wr ha this (sub.data e + comb.data e + cost.data e - S.data i e)
          exact ⟨a', by simp only [size_rd s2 this, size_rd c2 this, size_rd hc this, shape_rd hS hi this, Option.bind_some]; exact b1, b2⟩)
        obtain ⟨m', p1, p2⟩ := pushRow_safe hm q2
        exact ⟨m', by simp only [List.getElem?_eq_getElem hi, Option.bind_some, q1, p1], p2⟩)
    exact ⟨r, r1, r2⟩

theorem subtourUpdate_safe {deltas : List (List ℕ)} (hd : CutsExist E deltas) {e2s : Mat Num} (hM : Shape e2s deltas.length E) (ho : Shape out deltas.length E) :
    ∃ r, subtourUpdate E e2s deltas out = some r ∧ Shape r deltas.length E := by
  obtain ⟨⟨f, b, o⟩, h1, h2⟩ := loopUp_total (P := fun st : Arr Num × Arr Num × Mat Num => st.1.size = E + 1 ∧ st.2.1.size = E + 1 ∧ Shape st.2.2 deltas.length E)
    (n := deltas.length) (body := subtourBody e2s deltas) (s := (Arr.fill (E + 1) 0, Arr.fill (E + 1) 0, out)) ⟨rfl, rfl, ho⟩ (by
      rintro v hv ⟨f, b, o⟩ ⟨s1, s2, s3⟩
      obtain ⟨hne, hlt⟩ := hd _ (List.getElem_mem hv)
      have hm : ∀ e ∈ deltas[v], ∃ x, e2s.rd v e = some x := fun e he => ⟨_, shape_rd hM hv (hlt e he)⟩
      obtain ⟨f', f1, f2⟩ := scanFwd_safe (msg := fun e => e2s.rd v e) hne hlt hm s1
      obtain ⟨b', b1, b2⟩ := scanBwd_safe (msg := fun e => e2s.rd v e) hne hlt hm s2
      obtain ⟨o', o1, o2⟩ := loopList_total (P := fun o => Shape o deltas.length E) (l := deltas[v]) (body := subtourOut f' b' v) s3 (fun e he o ho => by
        have := hlt e he
        obtain ⟨o', c1, c2⟩ := shape_wr ho hv this (cmin (-(cmin (f'.data e) (b'.data (e + 1)))) 0)
        refine ⟨o', ?_, c2⟩
        unfold subtourOut
        simp only [size_rd f2 (show e < E + 1 by omega), size_rd b2 (show e + 1 < E + 1 by omega), Option.bind_eq_bind, Option.bind_some]
        exact c1)
      exact ⟨(f', b', o'), by simp [subtourBody, List.getElem?_eq_getElem hv, f1, b1, o1], f2, b2, o2⟩)
  exact ⟨o, by simp only [subtourUpdate]; rw [h1]; rfl, h2.2.2⟩

theorem edgeToDegreeAugmented_safe (hE : edges.length = E) (he : EndsExist n edges) {r : ℕ} {D S cost : Mat Num} (hD : Shape D E n) (hS : Shape S r E) (hc : Shape cost E n)
    (ho : Shape out E n) : ∃ o, edgeToDegreeAugmented E D S edges cost out = some o ∧ Shape o E n := by
  obtain ⟨sub, s1, s2⟩ := addRows_safe hS (acc := Arr.fill E 0) rfl
  unfold edgeToDegreeAugmented
  simp only [s1, Option.bind_eq_bind, Option.bind_some]
  refine loopUp_total (P := fun F => Shape F E n) ho (fun i hi F hF => ?_)
  obtain ⟨h1, h2⟩ := he _ (List.getElem_mem hi)
  have hi' : i < E := by omega
  obtain ⟨F1, a1, a2⟩ := shape_wr hF hi' h1 (sub.data i + D.data i edges[i].2 + cost.data i edges[i].1)
  obtain ⟨F2, b1, b2⟩ := shape_wr a2 hi' h2 (sub.data i + D.data i edges[i].1 + cost.data i edges[i].2)
  refine ⟨F2, ?_, b2⟩
  simp only [List.getElem?_eq_getElem hi, size_rd s2 hi', shape_rd hD hi' h1, shape_rd hD hi' h2, shape_rd hc hi' h1, shape_rd hc hi' h2, Option.bind_some, a1]
  exact b1

end tables

section run
variable {inp : TspInputs} {e2d : Mat Num}

/-- The message tables have the right sizes for `deltas` cuts. -/
structure MsgsShape (inp : TspInputs) (C : ℕ) (m : TspMsgs) : Prop where
  e2d : Shape m.e2d inp.numEdges inp.numNodes
  dummy : Shape m.degDummy inp.numEdges inp.numNodes
  deg : Shape m.deg inp.numEdges inp.numNodes
  old : Shape m.degOld inp.numEdges inp.numNodes
  s2e : Shape m.s2e C inp.numEdges
  sub : Shape m.subDummy C inp.numEdges
  subOld : m.subOld.cols = inp.numEdges

theorem relaxedIter_safe (h : TspShapes inp e2d) (he : EndsExist inp.numNodes inp.edges) (hl : LeftAndEntered inp.numNodes inp.edges) {C j : ℕ} {m : TspMsgs}
    (hm : MsgsShape inp C m) : ∃ m', tspRelaxedIter inp j m = some m' ∧ MsgsShape inp C m' := by
  obtain ⟨d, d1, d2⟩ := degreeUpdate_safe h.len hl hm.e2d hm.dummy
  obtain ⟨u, o, u1, u2, u3⟩ := filter_safe (flag := inp.flag) (alpha := inp.alpha) (iter := j) d2 hm.deg hm.old le_rfl le_rfl
  obtain ⟨r, r1, r2⟩ := edgeToDegreeRelaxed_safe h.len he u2 h.degCost hm.e2d
  exact ⟨{ m with e2d := r, degDummy := d, deg := u, degOld := o }, by simp only [tspRelaxedIter, d1, u1, r1, Option.bind_eq_bind, Option.bind_some], r2, d2, u2, u3, hm.s2e, hm.sub, hm.subOld⟩

theorem augmentedIter_safe (h : TspShapes inp e2d) (he : EndsExist inp.numNodes inp.edges) (hl : LeftAndEntered inp.numNodes inp.edges) {deltas : List (List ℕ)}
    (hd : CutsExist inp.numEdges deltas) {j : ℕ} {m : TspMsgs} (hm : MsgsShape inp deltas.length m) (hold : deltas.length ≤ m.subOld.rows) :
    ∃ m', tspAugmentedIter inp deltas j m = some m' ∧ MsgsShape inp deltas.length m' ∧ deltas.length ≤ m'.subOld.rows := by
  obtain ⟨d, d1, d2⟩ := degreeUpdate_safe h.len hl hm.e2d hm.dummy
  obtain ⟨u, o, u1, u2, u3⟩ := filter_safe (flag := inp.flag) (alpha := inp.alpha) (iter := j) d2 hm.deg hm.old le_rfl le_rfl
  obtain ⟨s, s1, s2⟩ := edgeToSubtour_safe h.len he hd h.cost u2 hm.s2e
  obtain ⟨t, t1, t2⟩ := subtourUpdate_safe hd s2 hm.sub
  obtain ⟨v, w, v1, v2, v3⟩ := filter_safe (flag := inp.flag) (alpha := inp.alpha) (iter := j) t2 hm.s2e (o := m.subOld) ⟨rfl, hm.subOld⟩ le_rfl hold
  obtain ⟨r, r1, r2⟩ := edgeToDegreeAugmented_safe h.len he u2 v2 h.degCost hm.e2d
  exact ⟨⟨r, d, u, o, s, v, t, w⟩, by simp only [tspAugmentedIter, d1, u1, s1, t1, v1, r1, Option.bind_eq_bind, Option.bind_some], ⟨r2, d2, u2, u3, v2, t2, v3.2⟩, by rw [v3.1]; exact hold⟩

theorem intrinsic_safe (h : TspShapes inp e2d) {ext intr : Arr Num} (hx : ext.size = inp.numEdges) (hi : intr.size = inp.numEdges) :
    ∃ r, tspIntrinsic ext inp.cost intr = some r ∧ r.size = inp.numEdges := by
  unfold tspIntrinsic Arr.addTo
  rw [if_pos ⟨by rw [hx, h.cost], by rw [hx, hi]⟩]
  exact ⟨_, rfl, hi⟩

theorem relaxed_safe (h : TspShapes inp e2d) (he : EndsExist inp.numNodes inp.edges) (hl : LeftAndEntered inp.numNodes inp.edges) {C : ℕ} {m : TspMsgs}
    (hm : MsgsShape inp C m) (K : ℕ) {o : Arr Num × Arr Num} (h1 : o.1.size = inp.numEdges) (h2 : o.2.size = inp.numEdges) :
    ∃ m' ext intr, tspRelaxed inp K m o = some (m', ext, intr) ∧ MsgsShape inp C m' ∧ ext.size = inp.numEdges ∧ intr.size = inp.numEdges := by
  obtain ⟨m', a1, a2⟩ := loopUp_total (P := MsgsShape inp C) (n := K) (body := tspRelaxedIter inp) hm (fun j _ m hm => relaxedIter_safe h he hl hm)
  obtain ⟨ext, x1, x2, -⟩ := tspExtrinsicRelaxed_num a2.deg.1 a2.deg.2 h1
  obtain ⟨intr, i1, i2⟩ := intrinsic_safe h x2 h2
  exact ⟨m', ext, intr, by simp only [tspRelaxed, a1, x1, i1, Option.bind_eq_bind, Option.bind_some], a2, x2, i2⟩

theorem reset_safe (h : TspShapes inp e2d) (he : EndsExist inp.numNodes inp.edges) {M : Mat Num} (hM : Shape M inp.numEdges inp.numNodes) :
    ∃ R, tspReset inp M = some R ∧ Shape R inp.numEdges inp.numNodes := by
  refine loopUp_total (P := fun R => Shape R inp.numEdges inp.numNodes) hM (fun i hi F hF => ?_)
  obtain ⟨h1, h2⟩ := he _ (List.getElem_mem hi)
  have hi' : i < inp.numEdges := by rw [← h.len]; exact hi
  obtain ⟨F1, a1, a2⟩ := shape_wr hF hi' h1 (inp.costMatrix.data inp.edges[i].1 inp.edges[i].2)
  obtain ⟨F2, b1, b2⟩ := shape_wr a2 hi' h2 (inp.costMatrix.data inp.edges[i].1 inp.edges[i].2)
  refine ⟨F2, ?_, b2⟩
  simp only [List.getElem?_eq_getElem hi, shape_rd h.matrix h1 h2, Option.bind_eq_bind, Option.bind_some, a1]
  exact b1

theorem anyNan_iff {M : Mat Num} {r c : ℕ} (h : Shape M r c) : anyNan M = true ↔ ∃ e < r, ∃ v < c, M.data e v = nan := by
  simp only [anyNan, List.any_eq_true, List.mem_range, beq_iff_eq, h.1, h.2]

/-- The messages of an augmented round are computed; the round then returns or ends the program because one of them is not a number. -/
theorem augmented_safe (h : TspShapes inp e2d) (he : EndsExist inp.numNodes inp.edges) (hl : LeftAndEntered inp.numNodes inp.edges) {deltas : List (List ℕ)}
    (hd : CutsExist inp.numEdges deltas) {m : TspMsgs} (hm : MsgsShape inp deltas.length m) (reset : Bool) (K : ℕ) {o : Arr Num × Arr Num}
    (h1 : o.1.size = inp.numEdges) (h2 : o.2.size = inp.numEdges) :
    ∃ R m', (if reset then tspReset inp m.e2d else some m.e2d) = some R ∧
      loopUp K (tspAugmentedIter inp deltas) { m with e2d := R, subOld := Mat.pushZeros deltas.length m.subOld } = some m' ∧
      MsgsShape inp deltas.length m' ∧
      ((∃ e < inp.numEdges, ∃ v < inp.numNodes, m'.e2d.data e v = nan) ∧ tspAugmented inp reset deltas K m o = none ∨
        (¬ ∃ e < inp.numEdges, ∃ v < inp.numNodes, m'.e2d.data e v = nan) ∧ ∃ ext intr, tspAugmented inp reset deltas K m o = some (m', ext, intr) ∧
          ext.size = inp.numEdges ∧ intr.size = inp.numEdges) := by
  obtain ⟨R, r1, r2⟩ : ∃ R, (if reset then tspReset inp m.e2d else some m.e2d) = some R ∧ Shape R inp.numEdges inp.numNodes := by
    cases reset
    · exact ⟨_, rfl, hm.e2d⟩
    · exact reset_safe h he hm.e2d
  obtain ⟨m', a1, a2, a3⟩ := loopUp_total (n := K) (body := tspAugmentedIter inp deltas) (s := { m with e2d := R, subOld := Mat.pushZeros deltas.length m.subOld })
    (P := fun m => MsgsShape inp deltas.length m ∧ deltas.length ≤ m.subOld.rows)
    ⟨⟨r2, hm.dummy, hm.deg, hm.old, hm.s2e, hm.sub, hm.subOld⟩, by show _ ≤ m.subOld.rows + _; omega⟩
    (fun j _ m ⟨hm, hle⟩ => augmentedIter_safe h he hl hd hm hle)
  refine ⟨R, m', r1, a1, a2, ?_⟩
  obtain ⟨ext0, x1, x2, -⟩ := tspExtrinsicRelaxed_num a2.deg.1 a2.deg.2 h1
  obtain ⟨ext, y1, y2⟩ := addRowsL_safe a2.s2e x2
  obtain ⟨intr, i1, i2⟩ := intrinsic_safe h y2 h2
  have hrun : tspAugmented inp reset deltas K m o = if anyNan m'.e2d then none else some (m', ext, intr) := by
    cases reset <;> simp only [Bool.false_eq_true, if_false, if_true, Option.some.injEq] at r1
    · subst r1
      simp only [tspAugmented, a1, tspExtrinsicAugmented, x1, y1, i1, Option.bind_eq_bind, Option.bind_some, Bool.false_eq_true, if_false]
    · simp only [tspAugmented, if_true, r1, a1, tspExtrinsicAugmented, x1, y1, i1, Option.bind_eq_bind, Option.bind_some]
  by_cases hn : anyNan m'.e2d = true
  · exact Or.inl ⟨(anyNan_iff a2.e2d).mp hn, by rw [hrun, if_pos hn]⟩
  · exact Or.inr ⟨fun h' => hn ((anyNan_iff a2.e2d).mpr h'), ext, intr, by rw [hrun, if_neg hn], y2, i2⟩

/-- What holds of the state between rounds. -/
structure StateShape (inp : TspInputs) (st : TspState) : Prop where
  msgs : MsgsShape inp st.an.deltas.length st.msgs
  cuts : CutsExist inp.numEdges st.an.deltas
  ext : st.ext.size = inp.numEdges
  intr : st.intr.size = inp.numEdges

theorem addCuts_shape {C : ℕ} {m : TspMsgs} (hm : MsgsShape inp C m) (k : ℕ) : MsgsShape inp (C + k) (tspAddCuts k m) := by
  have hp : Shape (Mat.pushZeros k m.s2e) (C + k) inp.numEdges := ⟨by rw [← hm.s2e.1]; rfl, hm.s2e.2⟩
  exact ⟨hm.e2d, hm.dummy, hm.deg, hm.old, hp, hp, hm.subOld⟩

theorem analyse_cuts (h : TspShapes inp e2d) {maxCount : ℕ} {sel : List (ℕ × ℕ)} {order : List ℕ} (ho : StartOrder sel order) {s s' : TspAnalysis}
    (ha : analyse inp.numNodes maxCount inp.edges sel order s = some s') (hd : CutsExist inp.numEdges s.deltas) :
    s.deltas.length ≤ s'.deltas.length ∧ CutsExist inp.numEdges s'.deltas := by
  obtain ⟨⟨more, h1⟩, -, h3, -⟩ := Properties.C19_round ho ha
  refine ⟨by rw [← h1, List.length_append]; omega, fun d hdm => ?_⟩
  rcases h3 d hdm with h' | ⟨hne, l, -, -, hc⟩
  · exact hd d h'
  · refine ⟨hne, fun e he => ?_⟩
    obtain ⟨c, hc1, -⟩ := (hc.2 e).mp he
    rw [← h.len]
    exact (List.getElem?_eq_some_iff.mp hc1).1

variable {numIter : ℕ} {reset augmentation : Bool} {thr : Num} {maxCount : ℕ} {maxAugm : ℤ} {order : ℕ → List (ℕ × ℕ) → List ℕ}

theorem first_safe (h : TspShapes inp e2d) (he : EndsExist inp.numNodes inp.edges) (hl : LeftAndEntered inp.numNodes inp.edges)
    (ho : ∀ k sel, StartOrder sel (order k sel)) :
    ∃ st, iterateRelaxed (tspSetup inp numIter reset augmentation thr maxCount maxAugm order) (tspStart inp e2d) = some st ∧ StateShape inp (addFirstRows st) ∧
      st.intr.size = inp.numEdges := by
  obtain ⟨m', ext, intr, r1, r2, r4, r5⟩ := relaxed_safe (C := 0) (m := tspInit inp e2d) h he hl
    ⟨h.e2d, ⟨rfl, rfl⟩, ⟨rfl, rfl⟩, ⟨rfl, rfl⟩, ⟨rfl, rfl⟩, ⟨rfl, rfl⟩, rfl⟩ numIter (o := (Arr.fill inp.numEdges 0, Arr.fill inp.numEdges 0)) rfl rfl
  have hh := hardDecision_eq (thr := thr) r5 h.len h.cost
  set sel := (chosen inp.numEdges thr intr).map (fun e => inp.edges.getD e (0, 0)) with hsel
  obtain ⟨an, han⟩ := analyse_some (n := inp.numNodes) (mc := maxCount) (edges := inp.edges) (ho 0 sel) {}
  obtain ⟨-, hcut⟩ := analyse_cuts h (ho _ _) han (fun d hd => by simp at hd)
  refine ⟨{ tspStart inp e2d with msgs := m', ext := ext, intr := intr, cost := (chosen inp.numEdges thr intr).foldl (fun acc e => acc + inp.cost.data e) 0, an := an, selected := sel }, ?_, ?_, r5⟩
  · unfold iterateRelaxed
    have e1 : (tspSetup inp numIter reset augmentation thr maxCount maxAugm order).relaxed [] (tspStart inp e2d).msgs ((tspStart inp e2d).ext, (tspStart inp e2d).intr) = some (m', ext, intr) := r1
    simp only [e1, Option.bind_eq_bind, Option.bind_some]
    simp only [tspSetup, hh, Option.bind_some]
    have e2 : analyse inp.numNodes maxCount inp.edges sel (order (tspStart inp e2d).numAugm sel) (tspStart inp e2d).an = some an := han
    rw [e2]; rfl
  · unfold addFirstRows
    simp only
    split_ifs with hd
    · have := addCuts_shape r2 an.deltas.length
      rw [Nat.zero_add] at this
      exact ⟨this, hcut, r4, r5⟩
    · have hd' : an.deltas = [] := List.eq_nil_of_length_eq_zero (by omega)
      exact ⟨by show MsgsShape inp an.deltas.length m'; rw [hd']; exact r2, hcut, r4, r5⟩

/-- A round returns and the rows for the new cuts can be added, or the program ends because a message is not a number. -/
theorem round_safe (h : TspShapes inp e2d) (he : EndsExist inp.numNodes inp.edges) (hl : LeftAndEntered inp.numNodes inp.edges)
    (ho : ∀ k sel, StartOrder sel (order k sel)) {st : TspState} (hi : StateShape inp st) :
    (iterateAugmented (tspSetup inp numIter reset augmentation thr maxCount maxAugm order) st = none ∧ NanSeen inp reset numIter st) ∨
      ∃ st1 st2, iterateAugmented (tspSetup inp numIter reset augmentation thr maxCount maxAugm order) st = some st1 ∧ st1.intr.size = inp.numEdges ∧
        addMissingRows st1 = some st2 ∧ StateShape inp st2 := by
  obtain ⟨R, m', q1, q2, q3, q4⟩ := augmented_safe h he hl hi.cuts hi.msgs reset numIter (o := (st.ext, st.intr)) hi.ext hi.intr
  rcases q4 with ⟨n1, n2⟩ | ⟨-, ext, intr, r1, r4, r5⟩
  · refine Or.inl ⟨?_, R, m', q1, q2, n1⟩
    unfold iterateAugmented
    simp only [tspSetup, n2, Option.bind_eq_bind, Option.bind_none]
  right
  have hh := hardDecision_eq (thr := thr) r5 h.len h.cost
  set sel := (chosen inp.numEdges thr intr).map (fun e => inp.edges.getD e (0, 0)) with hsel
  obtain ⟨an, han⟩ := analyse_some (n := inp.numNodes) (mc := maxCount) (edges := inp.edges) (ho (st.numAugm + 1) sel) st.an
  have hsome : ∃ st1, iterateAugmented (tspSetup inp numIter reset augmentation thr maxCount maxAugm order) st = some st1 := by
    have key : ∀ s0 : TspState, s0.an = st.an → s0.numAugm = st.numAugm + 1 →
        (checkOscillation maxCount sel (checkImprovement maxCount sel s0)).an = st.an ∧
        (checkOscillation maxCount sel (checkImprovement maxCount sel s0)).numAugm = st.numAugm + 1 := by
      intro s0 a1 a2
      obtain ⟨i1, i2⟩ := checkImprovement_same maxCount sel s0
      obtain ⟨o1, o2⟩ := checkOscillation_same maxCount sel (checkImprovement maxCount sel s0)
      exact ⟨by rw [o1, i1, a1], by rw [o2, i2, a2]⟩
    unfold iterateAugmented
    simp only [tspSetup, r1, Option.bind_eq_bind, Option.bind_some, hh]
    obtain ⟨k1, k2⟩ := key { st with numAugm := st.numAugm + 1, msgs := m', ext := ext, intr := intr, cost := (chosen inp.numEdges thr intr).foldl (fun acc e => acc + inp.cost.data e) 0 } rfl rfl
    by_cases hold : (checkOscillation maxCount sel (checkImprovement maxCount sel { st with numAugm := st.numAugm + 1, msgs := m', ext := ext, intr := intr, cost := (chosen inp.numEdges thr intr).foldl (fun acc e => acc + inp.cost.data e) 0 })).old ≠ []
    · simp only [if_pos hold, k1, k2, han]; exact ⟨_, rfl⟩
    · simp only [if_neg hold, k1, k2, han]; exact ⟨_, rfl⟩
  obtain ⟨st1, h1⟩ := hsome
  obtain ⟨intr', f1, f2, f3, f4, -⟩ := iterateAugmented_facts h1
  simp only [tspSetup] at f1 f3 f4
  rw [r1] at f1
  simp only [Option.some.injEq, Prod.mk.injEq] at f1
  obtain ⟨g1, g2, g3⟩ := f1
  obtain ⟨hle, hcut⟩ := analyse_cuts h (ho _ _) f4 hi.cuts
  have hok : MsgsShape inp st.an.deltas.length st1.msgs := g1 ▸ q3
  have e1 : st1.ext.size = inp.numEdges := by rw [← g2]; exact r4
  have e2 : st1.intr.size = inp.numEdges := by rw [f2, ← g3]; exact r5
  have hrows : st1.msgs.s2e.rows = st.an.deltas.length := hok.s2e.1
  by_cases hmore : st1.an.deltas.length = st.an.deltas.length
  · refine ⟨st1, st1, h1, e2, ?_, ⟨hmore ▸ hok, hcut, e1, e2⟩⟩
    unfold addMissingRows
    rw [if_pos (by rw [hrows, hmore])]
  · refine ⟨st1, { st1 with msgs := tspAddCuts (st1.an.deltas.length - st.an.deltas.length) st1.msgs }, h1, e2, ?_, ⟨?_, hcut, e1, e2⟩⟩
    · unfold addMissingRows
      rw [if_neg (by omega), if_neg (by omega), hrows]
    · show MsgsShape inp st1.an.deltas.length _
      have := addCuts_shape hok (st1.an.deltas.length - st.an.deltas.length)
      rwa [show st.an.deltas.length + (st1.an.deltas.length - st.an.deltas.length) = st1.an.deltas.length by omega] at this

theorem loop_safe (h : TspShapes inp e2d) (he : EndsExist inp.numNodes inp.edges) (hl : LeftAndEntered inp.numNodes inp.edges)
    (ho : ∀ k sel, StartOrder sel (order k sel)) (fuel : ℕ) : ∀ {st : TspState}, StateShape inp st →
      (∀ st', augmentLoop (tspSetup inp numIter reset augmentation thr maxCount maxAugm order) fuel st = some (some st') → st'.intr.size = inp.numEdges) ∧
      (augmentLoop (tspSetup inp numIter reset augmentation thr maxCount maxAugm order) fuel st = some none →
        ∃ k f, f 0 = st ∧ AugRun (tspSetup inp numIter reset augmentation thr maxCount maxAugm order) f k ∧ ((f k).cost = 0 ∨ NanSeen inp reset numIter (f k))) := by
  induction fuel with
  | zero => intro st _; exact ⟨fun st' hl => by simp [augmentLoop] at hl, fun hl => by simp [augmentLoop] at hl⟩
  | succ fuel ih =>
    intro st hinv
    rw [augmentLoop]
    by_cases h1 : (!st.an.satisfied && (tspSetup inp numIter reset augmentation thr maxCount maxAugm order).augmentation && !st.an.tourFlag) = true
    · rw [if_pos h1]
      by_cases h2 : (st.an.noConsFlag || st.noImprovFlag || st.solOscFlag) = true
      · rw [if_pos h2]
        refine ⟨fun st' hl => ?_, fun hl => by simp at hl⟩
        simp only [Option.some.injEq] at hl
        subst hl
        exact hinv.intr
      · rw [if_neg h2]
        by_cases h3 : st.cost = 0
        · rw [if_pos h3]
          exact ⟨fun st' hl => by simp at hl, fun _ => ⟨0, fun _ => st, rfl, augRun_zero st, Or.inl h3⟩⟩
        · rw [if_neg h3]
          rcases round_safe (numIter := numIter) (reset := reset) (augmentation := augmentation) (thr := thr) (maxCount := maxCount) (maxAugm := maxAugm) h he hl ho hinv with
            ⟨s1, s2⟩ | ⟨st1, st2, s1, s2, s3, s4⟩
          · rw [s1]
            exact ⟨fun st' hl => by simp at hl, fun _ => ⟨0, fun _ => st, rfl, augRun_zero st, Or.inr s2⟩⟩
          · rw [s1]
            simp only
            by_cases h4 : (st1.numAugm : ℤ) = (tspSetup inp numIter reset augmentation thr maxCount maxAugm order).maxAugm
            · rw [if_pos h4]
              refine ⟨fun st' hl => ?_, fun hl => by simp at hl⟩
              simp only [Option.some.injEq] at hl
              subst hl
              exact s2
            · rw [if_neg h4, s3]
              simp only
              refine ⟨(ih s4).1, fun hl => ?_⟩
              obtain ⟨k, f, f0, hr, hz⟩ := (ih s4).2 hl
              have hgo : st.an.tourFlag = false ∧ st.an.satisfied = false ∧ st.an.noConsFlag = false ∧ st.noImprovFlag = false ∧
                  st.solOscFlag = false ∧ st.cost ≠ 0 := by
                simp only [Bool.and_eq_true, Bool.not_eq_true', Bool.or_eq_true, not_or, Bool.not_eq_true] at h1 h2
                exact ⟨h1.2, h1.1.1, h2.1.1, h2.1.2, h2.2, h3⟩
              refine ⟨k + 1, _, rfl, augRun_cons hgo s1 h4 s3 f0 hr, ?_⟩
              simp only [Nat.add_one_ne_zero, if_false, Nat.add_sub_cancel]
              exact hz
    · rw [if_neg h1]
      refine ⟨fun st' hl => ?_, fun hl => by simp at hl⟩
      simp only [Option.some.injEq] at hl
      subst hl
      exact hinv.intr

end run

section needs
variable {n E : ℕ} {edges : List (ℕ × ℕ)} {M out r : Mat Num}

theorem wr_shape {m m' : Mat Num} {i j a b : ℕ} {v : Num} (hs : Shape m a b) (h : m.wr i j v = some m') : Shape m' a b := by
  unfold Mat.wr at h
  split at h
  · obtain rfl := Option.some.inj h; exact hs
  · cases h

theorem degreeGroup_needs {a c v : ℕ} {l : List ℕ} {f b : Arr Num} {st : Arr Num × Arr Num × Mat Num} (hs : Shape out a c)
    (h : degreeGroup M v l (f, b, out) = some st) : l ≠ [] ∧ Shape st.2.2 a c := by
  simp only [degreeGroup, Option.bind_eq_bind, Option.bind_eq_some_iff] at h
  obtain ⟨f', h1, b', -, o', h3, h4⟩ := h
  obtain rfl := Option.some.inj h4
  refine ⟨?_, loopList_keeps (P := fun o => Shape o a c) hs (fun e _ t t' ht h' => ?_) h3⟩
  · rintro rfl
    simp [scanFwd] at h1
  · simp only [degreeOut, Option.bind_eq_bind, Option.bind_eq_some_iff] at h'
    obtain ⟨x, -, y, -, h'⟩ := h'
    exact wr_shape ht h'

theorem degreeNode_needs {a c v : ℕ} {st st' : Arr Num × Arr Num × Mat Num} (hs : Shape st.2.2 a c) (h : degreeNode M edges v st = some st') :
    connFirst edges v ≠ [] ∧ connSecond edges v ≠ [] ∧ Shape st'.2.2 a c := by
  simp only [degreeNode, Option.bind_eq_bind, Option.bind_eq_some_iff] at h
  obtain ⟨⟨f, b, o⟩, h1, h2⟩ := h
  obtain ⟨a1, a2⟩ := degreeGroup_needs (st := (f, b, o)) hs h1
  obtain ⟨b1, b2⟩ := degreeGroup_needs a2 h2
  exact ⟨a1, b1, b2⟩

theorem degreeUpdate_needs {a c : ℕ} (hs : Shape out a c) (h : degreeUpdate n E M edges out = some r) : LeftAndEntered n edges ∧ Shape r a c := by
  simp only [degreeUpdate, Option.bind_eq_bind, Option.bind_eq_some_iff] at h
  obtain ⟨⟨f, b, o⟩, h1, h2⟩ := h
  obtain rfl := Option.some.inj h2
  have keep : ∀ k ≤ n, ∀ st, loopUp k (degreeNode M edges) (Arr.fill (E + 1) 0, Arr.fill (E + 1) 0, out) = some st → Shape st.2.2 a c := fun k _ st hk =>
    loopUp_keeps (P := fun st : Arr Num × Arr Num × Mat Num => Shape st.2.2 a c) hs (fun _ _ t t' ht h' => (degreeNode_needs ht h').2.2) hk
  refine ⟨fun v hv => ?_, keep n le_rfl _ h1⟩
  obtain ⟨t, t', h3, h4⟩ := loopUp_step h1 hv
  obtain ⟨p, q, -⟩ := degreeNode_needs (keep v hv.le t h3) h4
  exact ⟨connFirst_ne.mp p, connSecond_ne.mp q⟩

theorem flipMatrix_needs {D F : Mat Num} {a : ℕ} (hD : Shape D a n) (h : flipMatrix D edges D = some F) : EndsExist n edges := by
  intro c hc
  obtain ⟨i, hi, rfl⟩ := List.mem_iff_getElem.mp hc
  obtain ⟨t, t', -, h2⟩ := loopUp_step h hi
  simp only [List.getElem?_eq_getElem hi, Option.bind_eq_bind, Option.bind_some, Option.bind_eq_some_iff] at h2
  obtain ⟨x, hx, o, -, y, hy, -⟩ := h2
  unfold Mat.rd at hx hy
  split at hx
  · split at hy
    · rename_i h1 h2
      rw [hD.2] at h1 h2
      exact ⟨h2.2, h1.2⟩
    · cases hy
  · cases hx

theorem relaxedIter_needs {inp : TspInputs} {j : ℕ} {m m' : TspMsgs} (h1 : Shape m.degDummy inp.numEdges inp.numNodes) (h2 : Shape m.deg inp.numEdges inp.numNodes)
    (h3 : Shape m.degOld inp.numEdges inp.numNodes) (h : tspRelaxedIter inp j m = some m') :
    EndsExist inp.numNodes inp.edges ∧ LeftAndEntered inp.numNodes inp.edges := by
  simp only [tspRelaxedIter, Option.bind_eq_bind, Option.bind_eq_some_iff] at h
  obtain ⟨d, a1, ⟨u, o⟩, a2, r, a3, -⟩ := h
  obtain ⟨hl, hd⟩ := degreeUpdate_needs h1 a1
  obtain ⟨u', o', b1, b2, b3⟩ := filter_safe (flag := inp.flag) (alpha := inp.alpha) (iter := j) hd h2 h3 le_rfl le_rfl
  rw [a2] at b1
  obtain ⟨rfl, rfl⟩ := Prod.mk.inj (Option.some.inj b1)
  simp only [edgeToDegreeRelaxed, Option.bind_eq_bind, Option.bind_eq_some_iff] at a3
  obtain ⟨F, c1, -⟩ := a3
  exact ⟨flipMatrix_needs b2 c1, hl⟩

end needs

end Verif.Proofs
