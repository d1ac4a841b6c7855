import Verif.Proofs.InfScan
import Verif.Proofs.Degree
import Verif.Proofs.Filter
import Verif.Proofs.Equality
import Verif.Model.TspRun

/-! One relaxed iteration of the TSP solver on numbers that may be infinite. -/

namespace Verif.Proofs
open Verif Num Model Spec

section
variable {n E : ℕ} {M : Mat Num}

/-- One group of edges of one node. -/
theorem degreeGroup_num (hMr : M.rows = E) (hMc : M.cols = n) {v : ℕ} (hv : v < n) {l : List ℕ} (hn : l.Nodup) (hne : l ≠ [])
    (hlt : ∀ e ∈ l, e < E) (hnn : ∀ e ∈ l, M.data e v ≠ nan) {f b : Arr Num} {out : Mat Num} (hf : f.size = E + 1) (hb : b.size = E + 1)
    (hr : out.rows = E) (hc : out.cols = n) :
    ∃ f' b' out', degreeGroup M v l (f, b, out) = some (f', b', out') ∧ f'.size = E + 1 ∧ b'.size = E + 1 ∧
      out'.rows = E ∧ out'.cols = n ∧
      (∀ e ∈ l, ∃ w, MinN {q | ∃ e' ∈ l, e' ≠ e ∧ M.data e' v = q} w ∧ out'.data e v = -w) ∧
      ∀ e w, ¬ (e ∈ l ∧ w = v) → out'.data e w = out.data e w := by
  obtain ⟨f', b', h1, h2, h3, h4, h5⟩ := scan_num (msg := fun e => M.rd e v) (m := fun e => M.data e v) hn hne hlt
    (fun e he => Mat.rd_of_lt (by rw [hMr]; exact hlt e he) (by rw [hMc]; exact hv)) hnn hf hb
  obtain ⟨out', g1, g2, g3, g4, g5⟩ := loopList_inv_idx (l := l) (body := degreeOut f' b' v) (s := out)
    (fun i o => o.rows = E ∧ o.cols = n ∧
      (∀ j, ∀ h : j < l.length, j < i → o.data l[j] v = -(cmin (f'.data l[j]) (b'.data (l[j] + 1)))) ∧
      ∀ e w, ¬ (e ∈ l ∧ w = v) → o.data e w = out.data e w)
    ⟨hr, hc, fun j hj h => absurd h (by omega), fun _ _ _ => rfl⟩
    (by
      rintro i hi o ⟨o1, o2, o3, o4⟩
      have a := hlt _ (List.getElem_mem hi)
      refine ⟨⟨o.rows, o.cols, fun k w => if k = l[i] ∧ w = v then -(cmin (f'.data l[i]) (b'.data (l[i] + 1))) else
        o.data k w⟩, ?_, o1, o2, ?_, ?_⟩
      · simp [degreeOut, Arr.rd, Mat.wr, h3, h4, o1, o2, a, hv, show l[i] < E + 1 by omega]
      · intro j hj hji
        by_cases e : j = i
        · subst e; simp
        · have : l[j] ≠ l[i] := fun e' => e ((hn.getElem_inj_iff).mp e')
          simp only [this, false_and, if_false]
          exact o3 j hj (by omega)
      · intro e w h
        have : ¬ (e = l[i] ∧ w = v) := by
          rintro ⟨rfl, rfl⟩; exact h ⟨List.getElem_mem hi, rfl⟩
        simp only [this, if_false]
        exact o4 e w h)
  refine ⟨f', b', out', by simp [degreeGroup, h1, h2, g1], h3, h4, g2, g3, ?_, g5⟩
  intro e he
  obtain ⟨i, hi, rfl⟩ := List.mem_iff_getElem.mp he
  exact ⟨_, h5 _ he, g4 i hi hi⟩

/-- Closed form of the degree update. -/
theorem degreeUpdate_num {edges : List (ℕ × ℕ)} (hok : EdgesOk n edges) (hE : edges.length = E)
    (ho : ∀ v < n, (outEdges edges v).Nonempty) (hi : ∀ v < n, (inEdges edges v).Nonempty) (hMr : M.rows = E) (hMc : M.cols = n)
    (hnn : ∀ v < n, ∀ e, e ∈ outEdges edges v ∨ e ∈ inEdges edges v → M.data e v ≠ nan) {old : Mat Num} (hr : old.rows = E) (hc : old.cols = n) :
    ∃ out, degreeUpdate n E M edges old = some out ∧ out.rows = E ∧ out.cols = n ∧
      ∀ v < n,
        (∀ e ∈ outEdges edges v, ∃ w, MinN {q | ∃ e' ∈ outEdges edges v, e' ≠ e ∧ M.data e' v = q} w ∧ out.data e v = -w) ∧
        (∀ e ∈ inEdges edges v, ∃ w, MinN {q | ∃ e' ∈ inEdges edges v, e' ≠ e ∧ M.data e' v = q} w ∧ out.data e v = -w) ∧
        ∀ e, e ∉ outEdges edges v → e ∉ inEdges edges v → out.data e v = old.data e v := by
  obtain ⟨⟨f, b, out⟩, h1, h2, h3, h4, h5, h6, h7⟩ := loopUp_inv (n := n) (body := degreeNode M edges)
    (s := (Arr.fill (E + 1) 0, Arr.fill (E + 1) 0, old))
    (fun i st => st.1.size = E + 1 ∧ st.2.1.size = E + 1 ∧ st.2.2.rows = E ∧ st.2.2.cols = n ∧
      (∀ v < i,
        (∀ e ∈ outEdges edges v, ∃ w, MinN {q | ∃ e' ∈ outEdges edges v, e' ≠ e ∧ M.data e' v = q} w ∧ st.2.2.data e v = -w) ∧
        (∀ e ∈ inEdges edges v, ∃ w, MinN {q | ∃ e' ∈ inEdges edges v, e' ≠ e ∧ M.data e' v = q} w ∧ st.2.2.data e v = -w) ∧
        ∀ e, e ∉ outEdges edges v → e ∉ inEdges edges v → st.2.2.data e v = old.data e v) ∧
      ∀ v, i ≤ v → ∀ e, st.2.2.data e v = old.data e v)
    ⟨rfl, rfl, hr, hc, fun v hv => absurd hv (by omega), fun _ _ _ => rfl⟩
    (by
      rintro i hin ⟨f, b, out⟩ ⟨s1, s2, s3, s4, s5, s6⟩
      simp only at s1 s2 s3 s4 s5 s6
      have hne1 : connFirst edges i ≠ [] := by
        intro h; have := ho i hin; rw [← connFirst_toFinset, h] at this; simp at this
      have hne2 : connSecond edges i ≠ [] := by
        intro h; have := hi i hin; rw [← connSecond_toFinset hok, h] at this; simp at this
      have m1 : ∀ e, e ∈ connFirst edges i ↔ e ∈ outEdges edges i := by
        intro e; rw [← connFirst_toFinset, List.mem_toFinset]
      have m2 : ∀ e, e ∈ connSecond edges i ↔ e ∈ inEdges edges i := by
        intro e; rw [← connSecond_toFinset hok, List.mem_toFinset]
      obtain ⟨f1, b1, o1, a1, a2, a3, a4, a5, a6, a7⟩ := degreeGroup_num hMr hMc hin (connFirst_nodup edges i) hne1
        (by rw [← hE]; exact connFirst_lt edges i) (fun e he => hnn i hin e (Or.inl ((m1 e).mp he))) s1 s2 s3 s4
      obtain ⟨f2, b2, o2, c1, c2, c3, c4, c5, c6, c7⟩ := degreeGroup_num (f := Arr.fill f1.size 0)
        (b := Arr.fill b1.size 0) hMr hMc hin (connSecond_nodup edges i) hne2
        (by rw [← hE]; exact connSecond_lt edges i) (fun e he => hnn i hin e (Or.inr ((m2 e).mp he))) a2 a3 a4 a5
      simp only [m1] at a6
      simp only [m2] at c6
      have hdis : ∀ e, e ∈ outEdges edges i → e ∉ inEdges edges i := by
        intro e he he'
        rw [outEdges_dec] at he; rw [inEdges_dec] at he'
        obtain ⟨hl, e1⟩ := he; obtain ⟨_, e2⟩ := he'
        exact (hok _ (List.getElem_mem hl)).2.2 (e1.trans e2.symm)
      refine ⟨(f2, b2, o2), by simp [degreeNode, a1, c1], c2, c3, c4, c5, ?_, ?_⟩
      · intro v hv
        by_cases hvi : v = i
        · subst hvi
          refine ⟨?_, ?_, ?_⟩
          · intro e he
            obtain ⟨w, w1, w2⟩ := a6 e he
            refine ⟨w, w1, ?_⟩
            rw [← w2]; exact c7 e v (fun h => hdis e he ((m2 e).mp h.1))
          · intro e he; exact c6 e he
          · intro e h1 h2
            rw [← s6 v (le_refl _) e, ← a7 e v (fun h => h1 ((m1 e).mp h.1))]
            exact c7 e v (fun h => h2 ((m2 e).mp h.1))
        · have hd : ∀ e, o2.data e v = out.data e v := fun e => by
            rw [c7 e v (fun h => hvi h.2), a7 e v (fun h => hvi h.2)]
          simp only [hd]
          exact s5 v (by omega)
      · intro v hv e
        rw [← s6 v (by omega) e, ← a7 e v (fun h => absurd h.2 (by omega))]
        exact c7 e v (fun h => absurd h.2 (by omega)))
  exact ⟨out, by simp only [degreeUpdate]; rw [h1]; rfl, h4, h5, h6⟩

end

section
variable {n E : ℕ} {edges : List (ℕ × ℕ)}

/-- The two ends of an edge swap their entries; other entries are untouched. -/
theorem flipMatrix_num (hok : EdgesOk n edges) (hE : edges.length = E) {D : Mat Num} (hr : D.rows = E) (hc : D.cols = n) :
    ∃ F, flipMatrix D edges D = some F ∧ F.rows = E ∧ F.cols = n ∧
      ∀ e, ∀ he : e < edges.length, ∀ v < n, F.data e v =
        (if v = edges[e].1 then D.data e edges[e].2 else if v = edges[e].2 then D.data e edges[e].1 else D.data e v) := by
  obtain ⟨F, h1, h2, h3, h4, h5⟩ := loopUp_inv (n := edges.length) (body := fun l (out : Mat Num) => do
      let e ← edges[l]?
      let x ← D.rd l e.2
      let out ← out.wr l e.1 x
      let y ← D.rd l e.1
      out.wr l e.2 y) (s := D)
    (fun k F => F.rows = E ∧ F.cols = n ∧
      (∀ e, ∀ he : e < edges.length, e < k → ∀ v < n, F.data e v =
        (if v = edges[e].1 then D.data e edges[e].2 else if v = edges[e].2 then D.data e edges[e].1 else D.data e v)) ∧
      ∀ e, k ≤ e → ∀ v, F.data e v = D.data e v)
    ⟨hr, hc, fun e _ hk => absurd hk (by omega), fun _ _ _ => rfl⟩
    (by
      rintro k hk F ⟨f1, f2, f3, f4⟩
      obtain ⟨a, b, c⟩ := EdgesOk.get hok hk
      refine ⟨⟨F.rows, F.cols, fun i l => if i = k ∧ l = edges[k].2 then D.data k edges[k].1 else
        if i = k ∧ l = edges[k].1 then D.data k edges[k].2 else F.data i l⟩, ?_, f1, f2, ?_, ?_⟩
      · simp only [List.getElem?_eq_getElem hk, Option.bind_eq_bind, Option.bind_some, Mat.rd_of_lt (show k < D.rows by omega) (show edges[k].2 < D.cols by omega),
          Mat.rd_of_lt (show k < D.rows by omega) (show edges[k].1 < D.cols by omega), Mat.wr_of_lt (show k < F.rows by omega) (show edges[k].1 < F.cols by omega)]
        exact Mat.wr_of_lt (show k < F.rows by omega) (show edges[k].2 < F.cols by omega)
      · intro e he hek v hv
        simp only
        by_cases e' : e = k
        · subst e'
          by_cases hb : v = edges[e].2
          · subst hb; simp [c.symm]
          · by_cases ha : v = edges[e].1
            · subst ha; simp [c]
            · simp [ha, hb, f4 e le_rfl v]
        · simp only [e', false_and, if_false]; exact f3 e he (by omega) v hv
      · intro e he v
        simp only [show e ≠ k by omega, false_and, if_false]
        exact f4 e (by omega) v)
  exact ⟨F, h1, h2, h3, fun e he v hv => h4 e he he v hv⟩

theorem edgeToDegreeRelaxed_num (hok : EdgesOk n edges) (hE : edges.length = E) {D cost out : Mat Num}
    (hr : D.rows = E) (hc : D.cols = n) (hcr : cost.rows = E) (hcc : cost.cols = n) (hor : out.rows = E) (hoc : out.cols = n) :
    ∃ r, edgeToDegreeRelaxed E edges cost D out = some r ∧ r.rows = E ∧ r.cols = n ∧
      ∀ e, ∀ he : e < edges.length, ∀ v < n, r.data e v =
        (if v = edges[e].1 then D.data e edges[e].2 else if v = edges[e].2 then D.data e edges[e].1 else D.data e v) + cost.data e v := by
  obtain ⟨F, f1, f2, f3, f4⟩ := flipMatrix_num hok hE hr hc
  obtain ⟨r, h1, h2, h3, h4⟩ := loopUp_inv (n := E) (body := fun e (out : Mat Num) => do
      let x ← F.rdRow e
      let c ← cost.rdRow e
      let o ← out.rdRow e
      let row ← x.addTo c o
      out.wrRow e row) (s := out)
    (fun k r => r.rows = E ∧ r.cols = n ∧ ∀ e, ∀ he : e < edges.length, e < k → ∀ v < n, r.data e v =
        (if v = edges[e].1 then D.data e edges[e].2 else if v = edges[e].2 then D.data e edges[e].1 else D.data e v) + cost.data e v)
    ⟨hor, hoc, fun e _ hk => absurd hk (by omega)⟩
    (by
      rintro k hk r ⟨r1, r2, r3⟩
      refine ⟨⟨r.rows, r.cols, fun i l => if i = k then (if l < F.cols then F.data k l + cost.data k l else r.data k l) else r.data i l⟩, ?_, r1, r2, ?_⟩
      · simp only [Mat.rdRow_of_lt (show k < F.rows by omega), Mat.rdRow_of_lt (show k < cost.rows by omega),
          Mat.rdRow_of_lt (show k < r.rows by omega), Arr.addTo, if_pos (show F.cols ≤ cost.cols ∧ F.cols ≤ r.cols by omega),
          Option.bind_eq_bind, Option.bind_some]
        exact Mat.wrRow_of_lt (by omega) rfl
      · intro e he hek v hv
        simp only
        by_cases e' : e = k
        · subst e'; rw [if_pos rfl, if_pos (by omega), f4 e he v hv]
        · rw [if_neg e']; exact r3 e he (by omega) v hv)
  refine ⟨r, ?_, h2, h3, fun e he v hv => h4 e he (by omega) v hv⟩
  simp only [edgeToDegreeRelaxed, f1, Option.bind_eq_bind, Option.bind_some]
  exact h1

theorem tspExtrinsicRelaxed_num {m : Mat Num} (hr : m.rows = E) (hc : m.cols = n) {ext : Arr Num} (hs : ext.size = E) :
    ∃ r, tspExtrinsicRelaxed m ext = some r ∧ r.size = E ∧
      ∀ e < E, r.data e = (List.range n).foldl (fun acc v => acc + m.data e v) 0 := by
  have hrow : ∀ e < E, rowSum m e = some ((List.range n).foldl (fun acc v => acc + m.data e v) 0) := by
    intro e he
    obtain ⟨a, h1, h2⟩ := loopUp_inv (n := n) (body := fun j acc => do
      let x ← m.rd e j
      some (acc + x)) (s := (0 : Num)) (fun k acc => acc = (List.range k).foldl (fun acc v => acc + m.data e v) 0) (by simp)
      (by
        rintro k hk acc rfl
        refine ⟨_, by rw [Mat.rd_of_lt (show e < m.rows by omega) (show k < m.cols by omega)]; rfl, ?_⟩
        rw [List.range_succ, List.foldl_append]; rfl)
    unfold rowSum; rw [hc, h1, h2]
  obtain ⟨r, h1, h2, h3⟩ := loopUp_inv (n := E) (body := fun e (ext : Arr Num) => do
      let s ← rowSum m e
      ext.wr e s) (s := ext) (fun k r => r.size = E ∧ ∀ e < k, r.data e = (List.range n).foldl (fun acc v => acc + m.data e v) 0)
    ⟨hs, fun e he => absurd he (by omega)⟩
    (by
      rintro k hk r ⟨r1, r2⟩
      refine ⟨⟨r.size, fun i => if i = k then (List.range n).foldl (fun acc v => acc + m.data k v) 0 else r.data i⟩,
        by rw [hrow k hk]; exact Arr.wr_of_lt (show k < r.size by omega), r1, fun e he => ?_⟩
      simp only
      split_ifs with h
      · rw [h]
      · exact r2 e (by omega))
  exact ⟨r, by unfold tspExtrinsicRelaxed; rw [hr]; exact h1, h2, h3⟩

end

end Verif.Proofs
