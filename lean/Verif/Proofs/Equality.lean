import Verif.Model.Equality
import Verif.Spec.Tsp
import Mathlib.Algebra.BigOperators.Group.Finset.Basic
import Mathlib.Algebra.BigOperators.Intervals
import Mathlib.Algebra.BigOperators.Ring.Finset
import Mathlib.Algebra.Order.Field.Rat
import Mathlib.Tactic.Ring
import Mathlib.Tactic.Linarith

/-! # Equality (variable) nodes -/

namespace Verif
open Num

theorem Arr.Is.addTo {a b d : Arr Num} {n : ℕ} {x y : ℕ → ℚ} (ha : a.Is n x) (hb : b.Is n y) (hd : d.size = n) :
    ∃ r, a.addTo b d = some r ∧ r.Is n (fun i => x i + y i) := by
  refine ⟨⟨d.size, fun i => if i < a.size then a.data i + b.data i else d.data i⟩, ?_, hd, ?_⟩
  · unfold Arr.addTo; rw [if_pos]; rw [ha.1, hb.1, hd]; exact ⟨le_rfl, le_rfl⟩
  · intro i hi
    simp only
    rw [if_pos (by rw [ha.1]; exact hi), ha.2 i hi, hb.2 i hi, fin_add]

theorem Mat.Is.rdRow {m : Mat Num} {r c : ℕ} {x : ℕ → ℕ → ℚ} (h : m.Is r c x) {i : ℕ} (hi : i < r) :
    ∃ row, m.rdRow i = some row ∧ row.Is c (x i) := by
  refine ⟨⟨m.cols, m.data i⟩, Mat.rdRow_of_lt (by rw [h.1]; exact hi), h.2.1, fun j hj => h.2.2 i hi j hj⟩

theorem Arr.fill_is (n : ℕ) (q : ℚ) : (Arr.fill n (fin q)).Is n (fun _ => q) := ⟨rfl, fun _ _ => rfl⟩

theorem Arr.Is.wr {a : Arr Num} {n : ℕ} {x : ℕ → ℚ} (h : a.Is n x) {i : ℕ} (hi : i < n) (q : ℚ) :
    ∃ r, a.wr i (fin q) = some r ∧ r.Is n (fun k => if k = i then q else x k) := by
  refine ⟨_, Arr.wr_of_lt (by rw [h.1]; exact hi), h.1, ?_⟩
  intro k hk
  simp only
  split_ifs
  · rfl
  · exact h.2 k hk

theorem Mat.Is.wr {a : Mat Num} {m n : ℕ} {x : ℕ → ℕ → ℚ} (h : a.Is m n x) {i j : ℕ} (hi : i < m) (hj : j < n) (q : ℚ) :
    ∃ r, a.wr i j (fin q) = some r ∧ r.Is m n (fun k l => if k = i ∧ l = j then q else x k l) := by
  refine ⟨_, Mat.wr_of_lt (by rw [h.1]; exact hi) (by rw [h.2.1]; exact hj), h.1, h.2.1, ?_⟩
  intro k hk l hl
  simp only
  split_ifs
  · rfl
  · exact h.2.2 k hk l hl

theorem Mat.Is.wrRow {a : Mat Num} {m n : ℕ} {x : ℕ → ℕ → ℚ} (h : a.Is m n x) {i : ℕ} (hi : i < m) {row : Arr Num}
    {y : ℕ → ℚ} (hr : row.Is n y) :
    ∃ r, a.wrRow i row = some r ∧ r.Is m n (fun k l => if k = i then y l else x k l) := by
  refine ⟨_, Mat.wrRow_of_lt (by rw [h.1]; exact hi) (by rw [h.2.1]; exact hr.1), h.1, h.2.1, ?_⟩
  intro k hk l hl
  simp only
  split_ifs
  · exact hr.2 l hl
  · exact h.2.2 k hk l hl

end Verif

namespace Verif.Proofs
open Verif Num Spec Model

theorem addRows_is {m : Mat Num} {r c : ℕ} {x : ℕ → ℕ → ℚ} (h : m.Is r c x) {acc : Arr Num} {y : ℕ → ℚ} (ha : acc.Is c y) :
    ∃ out, addRows m acc = some out ∧ out.Is c (fun i => y i + (Finset.range r).sum fun k => x k i) := by
  have := loopUp_inv (n := m.rows) (body := fun c (acc : Arr Num) => do
      let row ← m.rdRow c
      acc.addTo row acc) (s := acc) (fun k out => out.Is c (fun i => y i + (Finset.range k).sum fun k => x k i))
    (by simpa using ha)
    (by
      intro k hk out ho
      rw [h.1] at hk
      obtain ⟨row, e1, e2⟩ := h.rdRow hk
      obtain ⟨res, e3, e4⟩ := ho.addTo e2 ho.1
      refine ⟨res, by simp [e1, e3], e4.congr fun i _ => ?_⟩
      rw [Finset.sum_range_succ, add_assoc])
  rw [h.1] at this
  obtain ⟨out, h1, h2⟩ := this
  exact ⟨out, by rw [addRows, h.1]; exact h1, h2⟩

theorem addRowsL_is {m : Mat Num} {r c : ℕ} {x : ℕ → ℕ → ℚ} (h : m.Is r c x) {acc : Arr Num} {y : ℕ → ℚ} (ha : acc.Is c y) :
    ∃ out, addRowsL m acc = some out ∧ out.Is c (fun i => y i + (Finset.range r).sum fun k => x k i) := by
  have := loopUp_inv (n := m.rows) (body := fun c (acc : Arr Num) => do
      let row ← m.rdRow c
      row.addTo acc acc) (s := acc) (fun k out => out.Is c (fun i => y i + (Finset.range k).sum fun k => x k i))
    (by simpa using ha)
    (by
      intro k hk out ho
      rw [h.1] at hk
      obtain ⟨row, e1, e2⟩ := h.rdRow hk
      obtain ⟨res, e3, e4⟩ := e2.addTo ho ho.1
      refine ⟨res, by simp [e1, e3], e4.congr fun i _ => ?_⟩
      rw [Finset.sum_range_succ]; ring)
  rw [h.1] at this
  obtain ⟨out, h1, h2⟩ := this
  exact ⟨out, by rw [addRowsL, h.1]; exact h1, h2⟩

/-- Team node towards the coupling constraint. -/
theorem teamToOric_is {D T : ℕ} {dept : Mat Num} {x : ℕ → ℕ → ℚ} {out rew : Arr Num} {w : ℕ → ℚ} (h : dept.Is D T x)
    (ho : out.size = T) (hr : rew.Is T w) :
    ∃ r, teamToOric T dept out rew = some r ∧ r.Is T (fun t => w t + (Finset.range D).sum fun d => x d t) := by
  obtain ⟨s, h1, h2⟩ := addRowsL_is h (Arr.fill_is T 0)
  obtain ⟨r, h3, h4⟩ := h2.addTo hr ho
  refine ⟨r, ?_, h4.congr fun i _ => by ring⟩
  simp only [teamToOric, Option.bind_eq_bind]
  rw [show (0 : Num) = fin 0 from rfl, h1, Option.bind_some, h3]

/-- Project edge node towards the coupling constraint. -/
theorem projectToOric_is {P T : ℕ} {p2e e2o rew : Mat Num} {x w : ℕ → ℕ → ℚ} (h : p2e.Is P T x) (ho : e2o.rows = P)
    (hc : e2o.cols = T) (hr : rew.Is P T w) :
    ∃ r, projectToOric p2e e2o rew = some r ∧ r.Is P T (fun p t => w p t + x p t) := by
  have := loopUp_inv (n := p2e.rows) (body := fun p (out : Mat Num) => do
      let x ← p2e.rdRow p
      let r ← rew.rdRow p
      let o ← out.rdRow p
      let row ← x.addTo r o
      out.wrRow p row) (s := e2o)
    (fun k out => out.rows = P ∧ out.cols = T ∧ ∀ p < k, ∀ t < T, out.data p t = fin (w p t + x p t))
    ⟨ho, hc, fun p hp => absurd hp (by omega)⟩
    (by
      rintro k hk out ⟨o1, o2, o3⟩
      rw [h.1] at hk
      obtain ⟨xr, e1, e2⟩ := h.rdRow hk
      obtain ⟨wr, e3, e4⟩ := hr.rdRow hk
      obtain ⟨row, e5, e6⟩ := e2.addTo e4 (d := ⟨out.cols, out.data k⟩) o2
      refine ⟨⟨out.rows, out.cols, fun i l => if i = k then row.data l else out.data i l⟩, ?_, o1, o2, ?_⟩
      · simp only [e1, e3, Mat.rdRow_of_lt (show k < out.rows by omega), e5, Option.bind_eq_bind, Option.bind_some]
        exact Mat.wrRow_of_lt (by omega) (by rw [e6.1, o2])
      · intro p hp t ht
        simp only
        split_ifs with e
        · subst e; rw [e6.2 t ht, add_comm]
        · exact o3 p (by omega) t ht)
  rw [h.1] at this
  obtain ⟨out, h1, h2, h3, h4⟩ := this
  exact ⟨out, by rw [projectToOric, h.1]; exact h1, h2, h3, h4⟩

section edges
variable {n E : ℕ} {edges : List (ℕ × ℕ)}

theorem EdgesOk.get (hok : EdgesOk n edges) {e : ℕ} (he : e < edges.length) :
    edges[e].1 < n ∧ edges[e].2 < n ∧ edges[e].1 ≠ edges[e].2 := hok _ (List.getElem_mem he)

/-- The two ends of an edge swap their entries; other entries are untouched. -/
theorem flipMatrix_is (hok : EdgesOk n edges) (hE : edges.length = E) {D : Mat Num} {x : ℕ → ℕ → ℚ} (h : D.Is E n x) :
    ∃ F, flipMatrix D edges D = some F ∧ F.rows = E ∧ F.cols = n ∧
      ∀ e, ∀ he : e < edges.length, ∀ v < n, F.data e v =
        fin (if v = edges[e].1 then x e edges[e].2 else if v = edges[e].2 then x e edges[e].1 else x e v) := by
  obtain ⟨F, h1, h2, h3, h4, h5⟩ := loopUp_inv (n := edges.length) (body := fun l (out : Mat Num) => do
      let e ← edges[l]?
      let x ← D.rd l e.2
      let out ← out.wr l e.1 x
      let y ← D.rd l e.1
      out.wr l e.2 y) (s := D)
    (fun k F => F.rows = E ∧ F.cols = n ∧
      (∀ e, ∀ he : e < edges.length, e < k → ∀ v < n, F.data e v =
        fin (if v = edges[e].1 then x e edges[e].2 else if v = edges[e].2 then x e edges[e].1 else x e v)) ∧
      ∀ e, k ≤ e → ∀ v, F.data e v = D.data e v)
    ⟨h.1, h.2.1, fun e _ hk => absurd hk (by omega), fun _ _ _ => rfl⟩
    (by
      rintro k hk F ⟨f1, f2, f3, f4⟩
      obtain ⟨a, b, c⟩ := EdgesOk.get hok hk
      refine ⟨⟨F.rows, F.cols, fun i l => if i = k ∧ l = edges[k].2 then fin (x k edges[k].1) else
        if i = k ∧ l = edges[k].1 then fin (x k edges[k].2) else F.data i l⟩, ?_, f1, f2, ?_, ?_⟩
      · simp only [List.getElem?_eq_getElem hk, Option.bind_eq_bind, Option.bind_some, h.rd (show k < E by omega) b,
          h.rd (show k < E by omega) a, Mat.wr_of_lt (show k < F.rows by omega) (show edges[k].1 < F.cols by omega)]
        exact Mat.wr_of_lt (show k < F.rows by omega) (show edges[k].2 < F.cols by omega)
      · intro e he hek v hv
        simp only
        by_cases e' : e = k
        · subst e'
          by_cases hb : v = edges[e].2
          · subst hb; simp [c.symm]
          · by_cases ha : v = edges[e].1
            · subst ha; simp [c]
            · simp [ha, hb, f4 e le_rfl v, h.2.2 e (by omega) v hv]
        · simp only [e', false_and, if_false]; exact f3 e he (by omega) v hv
      · intro e he v
        simp only [show e ≠ k by omega, false_and, if_false]
        exact f4 e (by omega) v)
  exact ⟨F, h1, h2, h3, fun e he v hv => h4 e he he v hv⟩

theorem edgeToDegreeRelaxed_is (hok : EdgesOk n edges) (hE : edges.length = E) {D cost out : Mat Num} {x c : ℕ → ℕ → ℚ}
    (h : D.Is E n x) (hc : cost.Is E n c) (hor : out.rows = E) (hoc : out.cols = n) :
    ∃ r, edgeToDegreeRelaxed E edges cost D out = some r ∧ r.rows = E ∧ r.cols = n ∧
      ∀ e, ∀ he : e < edges.length, ∀ v < n, r.data e v =
        fin ((if v = edges[e].1 then x e edges[e].2 else if v = edges[e].2 then x e edges[e].1 else x e v) + c e v) := by
  obtain ⟨F, f1, f2, f3, f4⟩ := flipMatrix_is hok hE h
  obtain ⟨r, h1, h2, h3, h4⟩ := loopUp_inv (n := E) (body := fun e (out : Mat Num) => do
      let x ← F.rdRow e
      let c ← cost.rdRow e
      let o ← out.rdRow e
      let row ← x.addTo c o
      out.wrRow e row) (s := out)
    (fun k r => r.rows = E ∧ r.cols = n ∧ ∀ e, ∀ he : e < edges.length, e < k → ∀ v < n, r.data e v =
        fin ((if v = edges[e].1 then x e edges[e].2 else if v = edges[e].2 then x e edges[e].1 else x e v) + c e v))
    ⟨hor, hoc, fun e _ hk => absurd hk (by omega)⟩
    (by
      rintro k hk r ⟨r1, r2, r3⟩
      obtain ⟨cr, e3, e4⟩ := hc.rdRow hk
      have hF : (⟨F.cols, F.data k⟩ : Arr Num).Is n (fun v => (if v = (edges[k]'(by omega)).1 then x k (edges[k]'(by omega)).2 else
          if v = (edges[k]'(by omega)).2 then x k (edges[k]'(by omega)).1 else x k v)) := ⟨f3, fun v hv => f4 k (by omega) v hv⟩
      obtain ⟨row, e5, e6⟩ := hF.addTo e4 (d := ⟨r.cols, r.data k⟩) r2
      refine ⟨⟨r.rows, r.cols, fun i l => if i = k then row.data l else r.data i l⟩, ?_, r1, r2, ?_⟩
      · simp only [Mat.rdRow_of_lt (show k < F.rows by omega), e3, Mat.rdRow_of_lt (show k < r.rows by omega), e5,
          Option.bind_eq_bind, Option.bind_some]
        exact Mat.wrRow_of_lt (by omega) (by rw [e6.1, r2])
      · intro e he hek v hv
        simp only
        by_cases e' : e = k
        · subst e'; rw [if_pos rfl]; exact e6.2 v hv
        · rw [if_neg e']; exact r3 e he (by omega) v hv)
  refine ⟨r, ?_, h2, h3, fun e he v hv => h4 e he (by omega) v hv⟩
  simp only [edgeToDegreeRelaxed, f1, Option.bind_eq_bind, Option.bind_some]
  exact h1

theorem combineDegree_is (hok : EdgesOk n edges) (hE : edges.length = E) {D : Mat Num} {x : ℕ → ℕ → ℚ} (h : D.Is E n x) :
    ∃ r, combineDegree E edges D = some r ∧ r.size = E ∧
      ∀ e, ∀ he : e < edges.length, r.data e = fin (x e edges[e].1 + x e edges[e].2) := by
  obtain ⟨r, h1, h2, h3⟩ := loopUp_inv (n := E) (body := fun i (out : Arr Num) => do
      let e ← edges[i]?
      let x ← D.rd i e.1
      let y ← D.rd i e.2
      out.wr i (x + y)) (s := Arr.fill E 0)
    (fun k r => r.size = E ∧ ∀ e, ∀ he : e < edges.length, e < k → r.data e = fin (x e edges[e].1 + x e edges[e].2))
    ⟨rfl, fun e _ hk => absurd hk (by omega)⟩
    (by
      rintro k hk r ⟨r1, r2⟩
      obtain ⟨a, b, -⟩ := EdgesOk.get hok (show k < edges.length by omega)
      refine ⟨⟨r.size, fun i => if i = k then fin (x k (edges[k]'(by omega)).1) + fin (x k (edges[k]'(by omega)).2) else r.data i⟩, ?_, r1, ?_⟩
      · simp only [List.getElem?_eq_getElem (show k < edges.length by omega), Option.bind_eq_bind, Option.bind_some,
          h.rd (show k < E by omega) b, h.rd (show k < E by omega) a]
        exact Arr.wr_of_lt (by omega)
      · intro e he hek
        simp only
        split_ifs with e'
        · subst e'; rw [fin_add]
        · exact r2 e he (by omega))
  exact ⟨r, h1, h2, fun e he => h3 e he (by omega)⟩

/-- Writing `f e` at the positions of a list into a zero row. -/
theorem writeList {f : ℕ → ℚ} {body : ℕ → Arr Num → Option (Arr Num)} {l : List ℕ} (hl : ∀ e ∈ l, e < E)
    (hb : ∀ e < E, ∀ row : Arr Num, body e row = row.wr e (fin (f e))) :
    ∃ r, loopList l body (Arr.fill E 0) = some r ∧ r.Is E (fun e => if e ∈ l then f e else 0) := by
  obtain ⟨r, h1, h2, h3⟩ := loopList_inv_idx (l := l) (body := body) (s := Arr.fill E 0)
    (fun k r => r.size = E ∧ ∀ e < E, r.data e = fin (if e ∈ l.take k then f e else 0))
    ⟨rfl, fun e _ => by simp [Arr.fill]; rfl⟩
    (by
      rintro k hk r ⟨r1, r2⟩
      have hlk : l[k] < E := hl _ (List.getElem_mem hk)
      refine ⟨⟨r.size, fun i => if i = l[k] then fin (f l[k]) else r.data i⟩, ?_, r1, ?_⟩
      · rw [hb _ hlk]; exact Arr.wr_of_lt (by omega)
      · intro e he
        simp only [List.take_succ_eq_append_getElem hk, List.mem_append, List.mem_singleton]
        split_ifs with h1 h2 h2
        · rw [h1]
        · exact absurd (Or.inr h1) h2
        · rw [r2 e he]; simp [h2.resolve_right h1]
        · rw [r2 e he]; simp only [not_or] at h2; simp [h2.1])
  refine ⟨r, h1, h2, fun e he => ?_⟩
  rw [h3 e he, List.take_length]

theorem pushRow_is {A : Mat Num} {m n : ℕ} {x : ℕ → ℕ → ℚ} {row : Arr Num} {y : ℕ → ℚ} (h : A.Is m n x) (hr : row.Is n y) :
    ∃ r, A.pushRow row = some r ∧ r.Is (m + 1) n (fun i j => if i = m then y j else x i j) := by
  refine ⟨⟨A.rows + 1, A.cols, fun k l => if k = A.rows then row.data l else A.data k l⟩, ?_, ?_, h.2.1, ?_⟩
  · unfold Mat.pushRow; rw [if_pos (by rw [hr.1, h.2.1])]
  · simp [h.1]
  · intro i hi j hj
    simp only [h.1]
    split_ifs with e
    · exact hr.2 j hj
    · exact h.2.2 i (by omega) j hj

/-- Edge node towards the subtour constraints, both code paths. -/
theorem edgeToSubtour_is (hok : EdgesOk n edges) (hE : edges.length = E) {deltas : List (List ℕ)} {C : ℕ}
    (hC : deltas.length = C) (hd : ∀ l ∈ deltas, ∀ e ∈ l, e < E) {cost : Arr Num} {D S : Mat Num} {c : ℕ → ℚ}
    {x s : ℕ → ℕ → ℚ} (hcost : cost.Is E c) (hD : D.Is E n x) (hS : S.Is C E s) :
    ∃ r, edgeToSubtour E deltas cost D S edges = some r ∧ r.rows = C ∧ r.cols = E ∧
      ∀ k, ∀ hk : k < deltas.length, ∀ e, ∀ he : e < edges.length, r.data k e =
        fin (if e ∈ deltas[k] then c e + x e edges[e].1 + x e edges[e].2 +
          ((Finset.range C).erase k).sum (fun j => s j e) else 0) := by
  obtain ⟨comb, k1, k2, k3⟩ := combineDegree_is hok hE hD
  by_cases h1 : deltas.length = 1
  · obtain ⟨row, r1, r2⟩ := writeList (E := E) (l := deltas[0])
      (f := fun e => if h : e < edges.length then x e edges[e].1 + x e edges[e].2 + c e else 0)
      (body := fun e (row : Arr Num) => do
        let x ← comb.rd e
        let c ← cost.rd e
        row.wr e (x + c)) (fun e he => hd _ (List.getElem_mem (by omega)) e he)
      (fun e he row => by
        simp only [Arr.rd_of_lt (show e < comb.size by omega), hcost.rd he, Option.bind_eq_bind, Option.bind_some,
          k3 e (by omega), dif_pos (show e < edges.length by omega), fin_add])
    obtain ⟨r, p1, p2⟩ := pushRow_is (A := ⟨0, E, fun _ _ => 0⟩) (m := 0) (n := E) (x := fun _ _ => 0)
      ⟨rfl, rfl, fun _ h => absurd h (by omega)⟩ r2
    refine ⟨r, ?_, by rw [p2.1]; omega, p2.2.1, ?_⟩
    · simp only [edgeToSubtour, if_pos h1, k1, Option.bind_eq_bind, Option.bind_some,
        List.getElem?_eq_getElem (show 0 < deltas.length by omega)]
      simp only [Option.bind_eq_bind] at r1
      rw [r1, Option.bind_some]
      exact p1
    · intro k hk e he
      obtain rfl : k = 0 := by omega
      rw [p2.2.2 0 (by omega) e (by omega)]
      obtain rfl : C = 1 := by omega
      simp only [if_true, Finset.range_one, Finset.erase_singleton, Finset.sum_empty, dif_pos he]
      split_ifs
      · congr 1; ring
      · rfl
  · obtain ⟨sub, s1, s2⟩ := addRows_is hS (Arr.fill_is E 0)
    obtain ⟨r, q1, q2, q3, q4⟩ := loopUp_inv (n := deltas.length) (body := fun i (out : Mat Num) => do
      let l ← deltas[i]?
      let row ← loopList l (fun e row => do
        let s ← sub.rd e
        let x ← comb.rd e
        let c ← cost.rd e
        let own ← S.rd i e
        row.wr e (s + x + c - own)) (Arr.fill E 0)
      out.pushRow row) (s := (⟨0, E, fun _ _ => 0⟩ : Mat Num))
      (fun i r => r.rows = i ∧ r.cols = E ∧ ∀ k, ∀ hk : k < deltas.length, k < i → ∀ e, ∀ he : e < edges.length, r.data k e =
        fin (if e ∈ deltas[k] then c e + x e edges[e].1 + x e edges[e].2 +
          ((Finset.range C).erase k).sum (fun j => s j e) else 0))
      ⟨rfl, rfl, fun k _ h => absurd h (by omega)⟩
      (by
        rintro i hi r ⟨p1, p2, p3⟩
        obtain ⟨row, r1, r2⟩ := writeList (E := E) (l := deltas[i])
          (f := fun e => if h : e < edges.length then ((Finset.range C).sum fun k => s k e) +
            (x e edges[e].1 + x e edges[e].2) + c e - s i e else 0)
          (body := fun e (row : Arr Num) => do
            let s ← sub.rd e
            let x ← comb.rd e
            let c ← cost.rd e
            let own ← S.rd i e
            row.wr e (s + x + c - own)) (fun e he => hd _ (List.getElem_mem hi) e he)
          (fun e he row => by
            simp only [Arr.rd_of_lt (show e < comb.size by omega), hcost.rd he, s2.rd he, hS.rd (show i < C by omega) he,
              Option.bind_eq_bind, Option.bind_some, k3 e (by omega), dif_pos (show e < edges.length by omega), fin_add,
              fin_sub, zero_add])
        refine ⟨⟨r.rows + 1, r.cols, fun k l => if k = r.rows then row.data l else r.data k l⟩, ?_, by simp [p1], p2, ?_⟩
        · simp only [List.getElem?_eq_getElem hi, Option.bind_eq_bind, Option.bind_some]
          simp only [Option.bind_eq_bind] at r1
          rw [r1, Option.bind_some]
          unfold Mat.pushRow
          rw [if_pos (by rw [r2.1, p2])]
        · intro k hk hki e he
          simp only [p1]
          by_cases h : k = i
          · subst h
            rw [if_pos rfl, r2.2 e (by omega)]
            simp only [dif_pos he]
            rw [← Finset.add_sum_erase _ _ (Finset.mem_range.mpr (show k < C by omega))]
            split_ifs
            · congr 1; ring
            · rfl
          · rw [if_neg h]; exact p3 k hk (by omega) e he)
    refine ⟨r, ?_, by omega, q3, fun k hk e he => q4 k hk hk e he⟩
    simp only [edgeToSubtour, if_neg h1, show (0 : Num) = fin 0 from rfl, s1, k1, Option.bind_eq_bind, Option.bind_some]
    simp only [show (0 : Num) = fin 0 from rfl, Option.bind_eq_bind] at q1
    exact q1

/-- Edge node towards the degree constraints in the augmented graph. -/
theorem edgeToDegreeAugmented_is (hok : EdgesOk n edges) (hE : edges.length = E) {C : ℕ} {D S cost out : Mat Num}
    {x s c o : ℕ → ℕ → ℚ} (hD : D.Is E n x) (hS : S.Is C E s) (hc : cost.Is E n c) (ho : out.Is E n o) :
    ∃ r, edgeToDegreeAugmented E D S edges cost out = some r ∧ r.rows = E ∧ r.cols = n ∧
      ∀ e, ∀ he : e < edges.length, ∀ v < n, r.data e v =
        fin (if v = edges[e].1 then c e v + x e edges[e].2 + (Finset.range C).sum (fun j => s j e)
          else if v = edges[e].2 then c e v + x e edges[e].1 + (Finset.range C).sum (fun j => s j e) else o e v) := by
  obtain ⟨sub, s1, s2⟩ := addRows_is hS (Arr.fill_is E 0)
  obtain ⟨F, h1, h2, h3, h4, h5⟩ := loopUp_inv (n := edges.length) (body := fun i (out : Mat Num) => do
    let e ← edges[i]?
    let s ← sub.rd i
    let x ← D.rd i e.2
    let c ← cost.rd i e.1
    let out ← out.wr i e.1 (s + x + c)
    let y ← D.rd i e.1
    let c' ← cost.rd i e.2
    out.wr i e.2 (s + y + c')) (s := out)
    (fun k F => F.rows = E ∧ F.cols = n ∧
      (∀ e, ∀ he : e < edges.length, e < k → ∀ v < n, F.data e v =
        fin (if v = edges[e].1 then c e v + x e edges[e].2 + (Finset.range C).sum (fun j => s j e)
          else if v = edges[e].2 then c e v + x e edges[e].1 + (Finset.range C).sum (fun j => s j e) else o e v)) ∧
      ∀ e, k ≤ e → ∀ v, F.data e v = out.data e v)
    ⟨ho.1, ho.2.1, fun e _ hk => absurd hk (by omega), fun _ _ _ => rfl⟩
    (by
      rintro k hk F ⟨f1, f2, f3, f4⟩
      obtain ⟨a, b, d⟩ := EdgesOk.get hok hk
      refine ⟨⟨F.rows, F.cols, fun i l =>
        if i = k ∧ l = edges[k].2 then
          fin (0 + (Finset.range C).sum (fun j => s j k)) + fin (x k edges[k].1) + fin (c k edges[k].2) else
        if i = k ∧ l = edges[k].1 then
          fin (0 + (Finset.range C).sum (fun j => s j k)) + fin (x k edges[k].2) + fin (c k edges[k].1) else F.data i l⟩,
        ?_, f1, f2, ?_, ?_⟩
      · simp only [List.getElem?_eq_getElem hk, Option.bind_eq_bind, Option.bind_some, hD.rd (show k < E by omega) b,
          hD.rd (show k < E by omega) a, hc.rd (show k < E by omega) b, hc.rd (show k < E by omega) a,
          s2.rd (show k < E by omega), Mat.wr_of_lt (show k < F.rows by omega) (show edges[k].1 < F.cols by omega)]
        exact Mat.wr_of_lt (show k < F.rows by omega) (show edges[k].2 < F.cols by omega)
      · intro e he hek v hv
        simp only
        by_cases e' : e = k
        · subst e'
          by_cases hb : v = edges[e].2
          · subst hb
            simp only [true_and, if_true, if_neg d.symm, fin_add]
            congr 1; ring
          · by_cases ha : v = edges[e].1
            · subst ha
              simp only [true_and, if_true, if_neg d, fin_add]
              congr 1; ring
            · simp [ha, hb, f4 e le_rfl v, ho.2.2 e (by omega) v hv]
        · simp only [e', false_and, if_false]; exact f3 e he (by omega) v hv
      · intro e he v
        simp only [show e ≠ k by omega, false_and, if_false]
        exact f4 e (by omega) v)
  refine ⟨F, ?_, h2, h3, fun e he v hv => h4 e he he v hv⟩
  simp only [edgeToDegreeAugmented, show (0 : Num) = fin 0 from rfl, s1, Option.bind_eq_bind, Option.bind_some]
  simp only [Option.bind_eq_bind] at h1
  exact h1

end edges

/-! ### k-SAT variable nodes -/

section ksat
variable {nv C : ℕ}

theorem usedCosts_is {used : List ℕ} (hu : ∀ v ∈ used, v < nv) {cost : Arr Num} {c : ℕ → ℚ} (hc : cost.Is nv c) :
    ∃ r, usedCosts nv used cost = some r ∧ r.Is nv (fun v => if v ∈ used then c v else 0) :=
  writeList (f := c) hu (fun e he row => by simp only [hc.rd he, Option.bind_eq_bind, Option.bind_some])

theorem sumList {K : Mat Num} {x : ℕ → ℕ → ℚ} (hK : K.Is C nv x) {i : ℕ} (hi : i < nv) (l : List ℕ) (hl : ∀ c ∈ l, c < C)
    {a : Arr Num} {y : ℕ → ℚ} (ha : a.Is nv y) :
    ∃ r, loopList l (fun c (sums : Arr Num) => do
      let s ← sums.rd i
      let x ← K.rd c i
      sums.wr i (s + x)) a = some r ∧ r.Is nv (fun k => if k = i then y i + (l.map fun c => x c i).sum else y k) := by
  induction l generalizing a y with
  | nil =>
    refine ⟨a, rfl, ha.congr fun k _ => ?_⟩
    split_ifs with h
    · rw [h]; simp
    · rfl
  | cons c l ih =>
    obtain ⟨r, h1, h2⟩ := ha.wr hi (y i + x c i)
    obtain ⟨r', h3, h4⟩ := ih (fun c hc => hl c (List.mem_cons_of_mem _ hc)) h2
    refine ⟨r', ?_, h4.congr fun k _ => ?_⟩
    · simp only [loopList, ha.rd hi, hK.rd (hl c (by simp)) hi, Option.bind_eq_bind, Option.bind_some, fin_add, h1]
      exact h3
    · simp only [List.map_cons, List.sum_cons, if_true]
      split_ifs
      · ring
      · rfl

theorem variableSums_is {K : Mat Num} {x : ℕ → ℕ → ℚ} (hK : K.Is C nv x) {conns : List (List ℕ)} (hlen : conns.length = nv)
    (hcl : ∀ l ∈ conns, ∀ c ∈ l, c < C) {costs : Arr Num} {w : ℕ → ℚ} (hw : costs.Is nv w) :
    ∃ r, variableSums nv K conns costs = some r ∧ r.Is nv (fun v => ((conns.getD v []).map fun c => x c v).sum + w v) := by
  obtain ⟨r, h1, h2⟩ := loopUp_inv (n := nv) (body := fun i (sums : Arr Num) => do
    let l ← conns[i]?
    let sums ← loopList l (fun c sums => do
      let s ← sums.rd i
      let x ← K.rd c i
      sums.wr i (s + x)) sums
    let s ← sums.rd i
    let c ← costs.rd i
    sums.wr i (s + c)) (s := Arr.fill nv 0)
    (fun k r => r.Is nv (fun v => if v < k then ((conns.getD v []).map fun c => x c v).sum + w v else 0))
    ((Arr.fill_is nv 0).congr fun v _ => by simp)
    (by
      intro k hk r hr
      have hk' : k < conns.length := by omega
      obtain ⟨r1, p1, p2⟩ := sumList hK hk conns[k] (hcl _ (List.getElem_mem hk')) hr
      obtain ⟨r2, p3, p4⟩ := p2.wr hk (((conns.getD k []).map fun c => x c k).sum + w k)
      have hgd : conns.getD k [] = conns[k] := by simp [hk']
      refine ⟨r2, ?_, p4.congr fun v _ => ?_⟩
      · simp only [List.getElem?_eq_getElem hk', Option.bind_eq_bind, Option.bind_some]
        simp only [Option.bind_eq_bind] at p1
        rw [p1]
        simp only [Option.bind_some, p2.rd hk, hw.rd hk, fin_add, if_true, lt_irrefl, if_false, zero_add]
        rw [hgd] at p3
        exact p3
      · by_cases h : v = k
        · subst h; simp
        · simp only [h, if_false]
          by_cases h' : v < k
          · rw [if_pos h', if_pos (by omega)]
          · rw [if_neg h', if_neg (by omega)])
  refine ⟨r, h1, h2.congr fun v hv => by simp [hv]⟩

theorem variableOut_is {K : Mat Num} {x : ℕ → ℕ → ℚ} (hK : K.Is C nv x) {conns : List (List ℕ)} (hlen : conns.length = nv)
    (hcl : ∀ l ∈ conns, ∀ c ∈ l, c < C) {sums : Arr Num} {y : ℕ → ℚ} (hs : sums.Is nv y) {v : ℕ} (hv : v < nv)
    {out : Mat Num} {o : ℕ → ℕ → ℚ} (ho : out.Is C nv o) (ho' : ∀ c < C, o c v = 0 ∨ o c v = y v - x c v) :
    ∃ r, variableOut sums K conns v out = some r ∧
      r.Is C nv (fun c u => if u = v ∧ c ∈ conns.getD v [] then y v - x c v else o c u) := by
  have hv' : v < conns.length := by omega
  have hgd : conns.getD v [] = conns[v] := by simp [hv']
  rw [hgd]
  obtain ⟨r, h1, h2⟩ := loopList_inv_idx (l := conns[v]) (body := fun c (out : Mat Num) => do
    let o ← out.rd c v
    let s ← sums.rd v
    let x ← K.rd c v
    if lt (abs o) (abs (s - x)) then out.wr c v (s - x) else some out) (s := out)
    (fun k r => r.Is C nv (fun c u => if u = v ∧ c ∈ conns[v].take k then y v - x c v else o c u))
    (ho.congr fun c _ u _ => by simp)
    (by
      intro k hk r hr
      have hc : conns[v][k] < C := hcl _ (List.getElem_mem hv') _ (List.getElem_mem hk)
      set c := conns[v][k] with hcdef
      have hmem : ∀ c', c' ∈ conns[v].take (k + 1) ↔ c' ∈ conns[v].take k ∨ c' = c := by
        intro c'; rw [List.take_succ_eq_append_getElem hk, List.mem_append, List.mem_singleton]
      obtain ⟨r', p1, p2⟩ := hr.wr hc hv (y v - x c v)
      obtain ⟨q, hq, hq0⟩ : ∃ q, r.rd c v = some (fin q) ∧ (q = 0 ∨ q = y v - x c v) := by
        refine ⟨_, hr.rd hc hv, ?_⟩
        by_cases hm : c ∈ conns[v].take k
        · rw [if_pos ⟨rfl, hm⟩]; exact Or.inr rfl
        · rw [if_neg (fun h => hm h.2)]; exact ho' c hc
      have hqe : q = if v = v ∧ c ∈ conns[v].take k then y v - x c v else o c v := by
        have := (hr.rd hc hv).symm.trans hq
        simpa using this.symm
      by_cases hlt : |q| < |y v - x c v|
      · refine ⟨r', ?_, p2.congr fun c' _ u _ => ?_⟩
        · simp only [hq, hs.rd hv, hK.rd hc hv, Option.bind_eq_bind, Option.bind_some, fin_sub, abs_fin, lt_fin,
            hlt, decide_true, if_true]
          exact p1
        · by_cases hu : u = v
          · subst hu
            simp only [true_and, and_true, hmem]
            by_cases h1 : c' = c
            · simp [h1]
            · simp [h1]
          · simp [hu]
      · refine ⟨r, ?_, hr.congr fun c' _ u _ => ?_⟩
        · simp only [hq, hs.rd hv, hK.rd hc hv, Option.bind_eq_bind, Option.bind_some, fin_sub, abs_fin, lt_fin,
            hlt, decide_false, Bool.false_eq_true, if_false]
        · have heq : q = y v - x c v := by
            rcases hq0 with h | h
            · rw [h, abs_zero] at hlt
              have : y v - x c v = 0 := by
                by_contra hne
                exact hlt (abs_pos.mpr hne)
              rw [this, h]
            · exact h
          by_cases hu : u = v
          · subst hu
            simp only [true_and, hmem]
            by_cases h1 : c' = c
            · rw [h1]
              simp only [true_and] at hqe
              rw [← hqe, heq]; simp
            · simp [h1]
          · simp [hu])
  refine ⟨r, ?_, h2.congr fun c _ u _ => by rw [List.take_length]⟩
  simp only [variableOut, List.getElem?_eq_getElem hv', Option.bind_eq_bind, Option.bind_some]
  simp only [Option.bind_eq_bind] at h1
  exact h1

/-- Variable node towards the clauses. -/
theorem variableToKsat_is {K V : Mat Num} {x : ℕ → ℕ → ℚ} (hK : K.Is C nv x) (hVr : V.rows = C) (hVc : V.cols = nv)
    {used : List ℕ} (hu : ∀ v ∈ used, v < nv) {conns : List (List ℕ)} (hlen : conns.length = nv)
    (hcl : ∀ l ∈ conns, ∀ c ∈ l, c < C) {cost : Arr Num} {w : ℕ → ℚ} (hw : cost.Is nv w) :
    ∃ r, variableToKsat nv K V used cost conns = some r ∧ r.Is C nv (fun c v =>
      if v ∈ used ∧ c ∈ conns.getD v [] then ((conns.getD v []).map fun c => x c v).sum + w v - x c v else 0) := by
  obtain ⟨costs, c1, c2⟩ := usedCosts_is hu hw
  obtain ⟨sums, s1, s2⟩ := variableSums_is hK hlen hcl c2
  obtain ⟨r, h1, h2⟩ := loopList_inv_idx (l := used) (body := variableOut sums K conns) (s := Mat.fill V.rows V.cols 0)
    (fun k r => r.Is C nv (fun c v => if v ∈ used.take k ∧ c ∈ conns.getD v [] then
      ((conns.getD v []).map fun c => x c v).sum + w v - x c v else 0))
    ⟨hVr, hVc, fun _ _ _ _ => by simp [Mat.fill]; rfl⟩
    (by
      intro k hk r hr
      have hv : used[k] < nv := hu _ (List.getElem_mem hk)
      set v := used[k] with hvdef
      have hvu : v ∈ used := List.getElem_mem hk
      have hy : (fun v => ((conns.getD v []).map fun c => x c v).sum + if v ∈ used then w v else 0) v =
        ((conns.getD v []).map fun c => x c v).sum + w v := by simp only [if_pos hvu]
      obtain ⟨r', p1, p2⟩ := variableOut_is hK hlen hcl s2 hv hr (fun c _ => by
        simp only [if_pos hvu]
        split_ifs
        · exact Or.inr rfl
        · exact Or.inl rfl)
      refine ⟨r', p1, p2.congr fun c _ u _ => ?_⟩
      simp only [if_pos hvu, List.take_succ_eq_append_getElem hk, List.mem_append, List.mem_singleton, ← hvdef]
      by_cases hu' : u = v
      · rw [hu']
        by_cases hc : c ∈ conns.getD v []
        · rw [if_pos ⟨rfl, hc⟩, if_pos ⟨Or.inr rfl, hc⟩]
        · rw [if_neg (fun h => hc h.2), if_neg (fun h => hc h.2), if_neg (fun h => hc h.2)]
      · simp [hu'])
  refine ⟨r, ?_, h2.congr fun c _ u _ => by rw [List.take_length]⟩
  simp only [variableToKsat, c1, s1, Option.bind_eq_bind, Option.bind_some]
  exact h1

end ksat

end Verif.Proofs
