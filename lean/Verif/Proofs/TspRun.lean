import Verif.Model.TspRun
import Verif.Spec.TspTables
import Verif.Proofs.Runs
import Verif.Proofs.Degree
import Verif.Proofs.Subtour
import Verif.Proofs.Equality

/-! # Whole runs of the TSP message passing -/

namespace Verif.Proofs
open Verif Num Spec Model

theorem src_eq {edges : List (ℕ × ℕ)} {e : ℕ} (h : e < edges.length) : src edges e = edges[e].1 := by
  simp [src, h]
theorem dst_eq {edges : List (ℕ × ℕ)} {e : ℕ} (h : e < edges.length) : dst edges e = edges[e].2 := by
  simp [dst, h]

theorem src_lt {n : ℕ} {edges : List (ℕ × ℕ)} (hok : EdgesOk n edges) {e : ℕ} (h : e < edges.length) : src edges e < n := by
  rw [src_eq h]; exact (hok _ (List.getElem_mem h)).1
theorem dst_lt {n : ℕ} {edges : List (ℕ × ℕ)} (hok : EdgesOk n edges) {e : ℕ} (h : e < edges.length) : dst edges e < n := by
  rw [dst_eq h]; exact (hok _ (List.getElem_mem h)).2.1
theorem src_ne_dst {n : ℕ} {edges : List (ℕ × ℕ)} (hok : EdgesOk n edges) {e : ℕ} (h : e < edges.length) :
    src edges e ≠ dst edges e := by
  rw [src_eq h, dst_eq h]; exact (hok _ (List.getElem_mem h)).2.2

theorem mem_outEdges {edges : List (ℕ × ℕ)} {v e : ℕ} : e ∈ outEdges edges v ↔ e < edges.length ∧ src edges e = v := by
  rw [outEdges_dec]
  exact ⟨fun ⟨h, e⟩ => ⟨h, by rw [src_eq h, e]⟩, fun ⟨h, e⟩ => ⟨h, by rw [← e, src_eq h]⟩⟩
theorem mem_inEdges {edges : List (ℕ × ℕ)} {v e : ℕ} : e ∈ inEdges edges v ↔ e < edges.length ∧ dst edges e = v := by
  rw [inEdges_dec]
  exact ⟨fun ⟨h, e⟩ => ⟨h, by rw [dst_eq h, e]⟩, fun ⟨h, e⟩ => ⟨h, by rw [← e, dst_eq h]⟩⟩

/-- A minimum over a finite nonempty set of other candidates is finite. -/
theorem others_fin {vars : Finset ℕ} {x : ℕ → ℚ} {t : ℕ} (h2 : 2 ≤ vars.card) {w : Num} (hw : IsMin (others vars x t) w) :
    ∃ q, w = fin q := by
  rcases hw with ⟨he, -⟩ | ⟨q, rfl, -⟩
  · exfalso
    obtain ⟨s, hs, hne⟩ := Finset.exists_mem_ne (s := vars) (by omega) t
    have : x s ∈ others vars x t := ⟨s, hs, hne, rfl⟩
    rw [he] at this; exact this
  · exact ⟨q, rfl⟩

theorem mem_cuts {deltas : List (List ℕ)} {e k : ℕ} : k ∈ cuts deltas e ↔ k < deltas.length ∧ e ∈ deltas.getD k [] := by
  simp [cuts]

section
variable {inp : TspInputs} {w : ℕ → ℚ} {c : ℕ → ℕ → ℚ} {deltas : List (List ℕ)}

/-- What holds at the start of iteration `j`. -/
structure TspInv (inp : TspInputs) (deltas : List (List ℕ)) (j : ℕ) (m : TspMsgs) : Prop extends TspMsgsOk inp deltas m where
  subOld_rows : deltas.length ≤ m.subOld.rows
  deg_mem : j ≠ 0 → inp.flag = true ∧ inp.alpha ≠ 0 → ∀ e < inp.numEdges, ∀ v < inp.numNodes,
    m.degOld.data e v = fin (m.deg.val e v)
  sub_mem : j ≠ 0 → inp.flag = true ∧ inp.alpha ≠ 0 → ∀ k < deltas.length, ∀ e < inp.numEdges,
    m.subOld.data k e = fin (m.s2e.val k e)

/-- What one iteration does. -/
structure TspStep (inp : TspInputs) (w : ℕ → ℚ) (c : ℕ → ℕ → ℚ) (deltas : List (List ℕ)) (j : ℕ) (m m' : TspMsgs) : Prop where
  out : ∀ v < inp.numNodes, ∀ e ∈ outEdges inp.edges v,
    IsMessage (outEdges inp.edges v) ExactlyOne (fun e => m.e2d.val e v) e (fin (m'.degDummy.val e v))
  inn : ∀ v < inp.numNodes, ∀ e ∈ inEdges inp.edges v,
    IsMessage (inEdges inp.edges v) ExactlyOne (fun e => m.e2d.val e v) e (fin (m'.degDummy.val e v))
  damp : ∀ e < inp.numEdges, ∀ v < inp.numNodes,
    m'.deg.val e v = dampStep inp.flag inp.alpha j (m'.degDummy.val e v) (m.deg.val e v)
  to_cut : ∀ k < deltas.length, ∀ e ∈ deltas.getD k [],
    m'.e2s.val k e = w e + m'.deg.val e (src inp.edges e) + m'.deg.val e (dst inp.edges e) +
      ∑ k' ∈ (cuts deltas e).erase k, m.s2e.val k' e
  cut : ∀ k < deltas.length, ∀ e ∈ deltas.getD k [],
    IsMessage (deltas.getD k []).toFinset AtLeastOne (m'.e2s.val k) e (fin (m'.subDummy.val k e))
  sdamp : ∀ k < deltas.length, ∀ e < inp.numEdges,
    m'.s2e.val k e = dampStep inp.flag inp.alpha j (m'.subDummy.val k e) (m.s2e.val k e)
  var_src : ∀ e < inp.numEdges, m'.e2d.val e (src inp.edges e) = c e (src inp.edges e) + m'.deg.val e (dst inp.edges e) +
    ∑ k ∈ cuts deltas e, m'.s2e.val k e
  var_dst : ∀ e < inp.numEdges, m'.e2d.val e (dst inp.edges e) = c e (dst inp.edges e) + m'.deg.val e (src inp.edges e) +
    ∑ k ∈ cuts deltas e, m'.s2e.val k e

/-- The degree half of an iteration. -/
theorem tsp_degree (h : TspOk inp w c) {j : ℕ} {m : TspMsgs} (hm : TspInv inp deltas j m) :
    ∃ D u o, degreeUpdate inp.numNodes inp.numEdges m.e2d inp.edges m.degDummy = some D ∧
      processFiltering inp.numEdges inp.flag inp.alpha j D (m.deg, m.degOld) = some (u, o) ∧
      D.rows = inp.numEdges ∧ D.cols = inp.numNodes ∧
      (∀ e < inp.numEdges, ∀ v < inp.numNodes, v ≠ src inp.edges e → v ≠ dst inp.edges e → D.data e v = fin 0) ∧
      u.Is inp.numEdges inp.numNodes u.val ∧
      (∀ e < inp.numEdges, ∀ v < inp.numNodes, v ≠ src inp.edges e → v ≠ dst inp.edges e → u.val e v = 0) ∧
      o.rows = inp.numEdges ∧ o.cols = inp.numNodes ∧
      (inp.flag = true ∧ inp.alpha ≠ 0 → ∀ e < inp.numEdges, ∀ v < inp.numNodes, o.data e v = fin (u.val e v)) ∧
      (∀ v < inp.numNodes, ∀ e ∈ outEdges inp.edges v,
        IsMessage (outEdges inp.edges v) ExactlyOne (fun e => m.e2d.val e v) e (fin (D.val e v))) ∧
      (∀ v < inp.numNodes, ∀ e ∈ inEdges inp.edges v,
        IsMessage (inEdges inp.edges v) ExactlyOne (fun e => m.e2d.val e v) e (fin (D.val e v))) ∧
      ∀ e < inp.numEdges, ∀ v < inp.numNodes, u.val e v = dampStep inp.flag inp.alpha j (D.val e v) (m.deg.val e v) := by
  have ho : ∀ v < inp.numNodes, (outEdges inp.edges v).Nonempty := fun v hv =>
    Finset.card_pos.mp (by have := (h.two v hv).1; omega)
  have hi : ∀ v < inp.numNodes, (inEdges inp.edges v).Nonempty := fun v hv =>
    Finset.card_pos.mp (by have := (h.two v hv).2; omega)
  obtain ⟨D, d1, d2, d3, d4⟩ := degreeUpdate_eq h.edges h.len ho hi hm.e2d hm.dummy_rows hm.dummy_cols
  have hoff : ∀ e < inp.numEdges, ∀ v < inp.numNodes, v ≠ src inp.edges e → v ≠ dst inp.edges e → D.data e v = fin 0 := by
    intro e he v hv h1 h2
    rw [(d4 v hv).2.2 e (fun hh => h1 (mem_outEdges.mp hh).2.symm) (fun hh => h2 (mem_inEdges.mp hh).2.symm)]
    exact hm.dummy_off e he v hv h1 h2
  have hout : ∀ v < inp.numNodes, ∀ e ∈ outEdges inp.edges v, (∃ q, D.data e v = fin q) ∧
      IsMessage (outEdges inp.edges v) ExactlyOne (fun e => m.e2d.val e v) e (D.data e v) := by
    intro v hv e he
    obtain ⟨z, hz, hd⟩ := (d4 v hv).1 e he
    obtain ⟨q, rfl⟩ := others_fin (h.two v hv).1 hz
    exact ⟨⟨-q, by rw [hd]; rfl⟩, by rw [hd]; exact exactlyOne_message he hz⟩
  have hin : ∀ v < inp.numNodes, ∀ e ∈ inEdges inp.edges v, (∃ q, D.data e v = fin q) ∧
      IsMessage (inEdges inp.edges v) ExactlyOne (fun e => m.e2d.val e v) e (D.data e v) := by
    intro v hv e he
    obtain ⟨z, hz, hd⟩ := (d4 v hv).2.1 e he
    obtain ⟨q, rfl⟩ := others_fin (h.two v hv).2 hz
    exact ⟨⟨-q, by rw [hd]; rfl⟩, by rw [hd]; exact exactlyOne_message he hz⟩
  have hD : D.Is inp.numEdges inp.numNodes D.val := Mat.isFin d2 d3 fun e he v hv => by
    by_cases h1 : v = src inp.edges e
    · exact (hout v hv e (mem_outEdges.mpr ⟨by rw [h.len]; exact he, h1.symm⟩)).1
    by_cases h2 : v = dst inp.edges e
    · exact (hin v hv e (mem_inEdges.mpr ⟨by rw [h.len]; exact he, h2.symm⟩)).1
    · exact ⟨0, hoff e he v hv h1 h2⟩
  obtain ⟨⟨u, o⟩, f1, f2, f3, f4, f5⟩ := processFiltering_step (flag := inp.flag) (alpha := inp.alpha) (k := j)
    (s := (m.deg, m.degOld)) hD hm.deg.1 hm.deg.2.1 (by rw [hm.old_rows]) hm.old_cols (p := m.deg.val)
    (fun a b e he v hv => hm.deg_mem a b e he v hv)
  simp only at f2 f3 f4 f5
  have hval : ∀ {e v}, (∃ q, D.data e v = fin q) → fin (D.val e v) = D.data e v := by
    rintro e v ⟨q, hq⟩; rw [Mat.val, hq]; rfl
  refine ⟨D, u, o, d1, f1, d2, d3, hoff, f2.self, ?_, by rw [f3, hm.old_rows], f4, ?_, ?_, ?_, ?_⟩
  · intro e he v hv h1 h2
    rw [f2.val he hv, hm.deg_off e he v hv h1 h2, Mat.val, hoff e he v hv h1 h2]
    simp [dampStep]
  · intro hf e he v hv; rw [f5 hf e he v hv]; exact f2.self.2.2 e he v hv
  · intro v hv e he
    rw [hval (hout v hv e he).1]; exact (hout v hv e he).2
  · intro v hv e he
    rw [hval (hin v hv e he).1]; exact (hin v hv e he).2
  · intro e he v hv; exact f2.val he hv

/-- One iteration on the relaxed graph. -/
theorem tspRelaxedIter_step (h : TspOk inp w c) {j : ℕ} {m : TspMsgs} (hm : TspInv inp [] j m) :
    ∃ m', tspRelaxedIter inp j m = some m' ∧ TspInv inp [] (j + 1) m' ∧ TspStep inp w c [] j m m' := by
  obtain ⟨D, u, o, d1, d2, d3, d4, d5, d6, d7, d8, d9, d10, d11, d12, d13⟩ := tsp_degree h hm
  obtain ⟨r, r1, r2, r3, r4⟩ := edgeToDegreeRelaxed_is (out := m.e2d) h.edges h.len d6 h.deg hm.e2d.1 hm.e2d.2.1
  have hr : r.Is inp.numEdges inp.numNodes r.val := Mat.isFin r2 r3 fun e he v hv =>
    ⟨_, r4 e (by rw [h.len]; exact he) v hv⟩
  refine ⟨{ m with e2d := r, degDummy := D, deg := u, degOld := o }, ?_,
    ⟨⟨hr, d3, d4, d5, d6, d7, d8, d9, hm.s2e, ?_, hm.sub_rows, hm.sub_cols, ?_, hm.subOld_cols⟩, hm.subOld_rows, ?_, ?_⟩,
    ⟨d11, d12, d13, ?_, ?_, ?_, ?_, ?_⟩⟩
  · simp only [tspRelaxedIter, d1, d2, r1, Option.bind_eq_bind, Option.bind_some]
  · intro k hk; simp at hk
  · intro k hk; simp at hk
  · intro _ hf; exact d10 hf
  · intro _ _ k hk; simp at hk
  · intro k hk; simp at hk
  · intro k hk; simp at hk
  · intro k hk; simp at hk
  · intro e he
    have he' : e < inp.edges.length := by rw [h.len]; exact he
    show (r.data e _).val = _
    rw [r4 e he' _ (src_lt h.edges he'), src_eq he', dst_eq he', if_pos rfl]
    simp [cuts]; ring
  · intro e he
    have he' : e < inp.edges.length := by rw [h.len]; exact he
    show (r.data e _).val = _
    have hne := src_ne_dst h.edges he'
    rw [r4 e he' _ (dst_lt h.edges he'), dst_eq he', src_eq he', if_neg, if_pos rfl]
    · simp [cuts]; ring
    · rw [src_eq he', dst_eq he'] at hne; exact fun hh => hne hh.symm

/-- One iteration on the augmented graph. -/
theorem tspAugmentedIter_step (h : TspOk inp w c) (hd : CutsOk inp.numEdges deltas) {j : ℕ} {m : TspMsgs}
    (hm : TspInv inp deltas j m) :
    ∃ m', tspAugmentedIter inp deltas j m = some m' ∧ TspInv inp deltas (j + 1) m' ∧ TspStep inp w c deltas j m m' := by
  obtain ⟨D, u, o, d1, d2, d3, d4, d5, d6, d7, d8, d9, d10, d11, d12, d13⟩ := tsp_degree h hm
  have hgd : ∀ {k}, (hk : k < deltas.length) → deltas.getD k [] = deltas[k] := fun hk => by simp [hk]
  have hlt : ∀ {k e}, k < deltas.length → e ∈ deltas.getD k [] → e < inp.numEdges := fun {k e} hk he => by
    rw [hgd hk] at he; exact (hd _ (List.getElem_mem hk)).2.2 e he
  obtain ⟨Y, y1, y2, y3, y4⟩ := edgeToSubtour_is h.edges h.len rfl (fun l hl => (hd l hl).2.2) h.cost d6 hm.s2e
  have hY : Y.Is deltas.length inp.numEdges Y.val := Mat.isFin y2 y3 fun k hk e he =>
    ⟨_, y4 k hk e (by rw [h.len]; exact he)⟩
  obtain ⟨Q, q1, q2, q3, q4⟩ := subtourUpdate_eq (old := m.subDummy) (E := inp.numEdges) rfl (fun l hl =>
    ⟨(hd l hl).1, by rintro rfl; have := (hd _ hl).2.1; simp at this, (hd l hl).2.2⟩) hY hm.sub_rows hm.sub_cols
  have hmsg : ∀ k (hk : k < deltas.length), ∀ e ∈ deltas.getD k [], (∃ z, Q.data k e = fin z) ∧
      IsMessage (deltas.getD k []).toFinset AtLeastOne (Y.val k) e (Q.data k e) := by
    intro k hk e he
    rw [hgd hk] at he ⊢
    obtain ⟨z, hz, hq⟩ := (q4 k hk).1 e he
    have hl := hd _ (List.getElem_mem hk)
    obtain ⟨q, rfl⟩ := others_fin (by rw [List.toFinset_card_of_nodup hl.1]; exact hl.2.1) hz
    refine ⟨?_, by rw [hq]; exact atLeastOne_message (List.mem_toFinset.mpr he) hz⟩
    rw [hq, show -fin q = fin (-q) from rfl, cmin_fin]
    exact ⟨_, rfl⟩
  have hqoff : ∀ k < deltas.length, ∀ e < inp.numEdges, e ∉ deltas.getD k [] → Q.data k e = fin 0 := by
    intro k hk e he hn
    rw [(q4 k hk).2 e (by rw [hgd hk] at hn; exact hn)]
    exact hm.sub_off k hk e he hn
  have hQ : Q.Is deltas.length inp.numEdges Q.val := Mat.isFin q2 q3 fun k hk e he => by
    by_cases hin : e ∈ deltas.getD k []
    · exact (hmsg k hk e hin).1
    · exact ⟨0, hqoff k hk e he hin⟩
  obtain ⟨⟨S, so⟩, f1, f2, f3, f4, f5⟩ := processFiltering_step (flag := inp.flag) (alpha := inp.alpha) (k := j)
    (s := (m.s2e, m.subOld)) hQ hm.s2e.1 hm.s2e.2.1 hm.subOld_rows hm.subOld_cols (p := m.s2e.val)
    (fun a b k hk e he => hm.sub_mem a b k hk e he)
  simp only at f2 f3 f4 f5
  have hsoff : ∀ k < deltas.length, ∀ e < inp.numEdges, e ∉ deltas.getD k [] → S.val k e = 0 := by
    intro k hk e he hn
    rw [f2.val hk he, hm.s2e_off k hk e he hn, Mat.val, hqoff k hk e he hn]
    simp [dampStep]
  obtain ⟨r, r1, r2, r3, r4⟩ := edgeToDegreeAugmented_is h.edges h.len d6 f2.self h.deg hm.e2d
  have hr : r.Is inp.numEdges inp.numNodes r.val := Mat.isFin r2 r3 fun e he v hv =>
    ⟨_, r4 e (by rw [h.len]; exact he) v hv⟩
  have hsum : ∀ (f : ℕ → ℕ → ℚ), (∀ k < deltas.length, ∀ e < inp.numEdges, e ∉ deltas.getD k [] → f k e = 0) →
      ∀ e < inp.numEdges, ∑ k ∈ Finset.range deltas.length, f k e = ∑ k ∈ cuts deltas e, f k e := by
    intro f hf e he
    rw [cuts, Finset.sum_filter]
    refine Finset.sum_congr rfl fun k hk => ?_
    by_cases hin : e ∈ deltas.getD k []
    · rw [if_pos hin]
    · rw [if_neg hin, hf k (Finset.mem_range.mp hk) e he hin]
  refine ⟨⟨r, D, u, o, Y, S, Q, so⟩, ?_,
    ⟨⟨hr, d3, d4, d5, d6, d7, d8, d9, f2.self, hsoff, q2, q3, hqoff, f4⟩, by rw [f3]; exact hm.subOld_rows, ?_, ?_⟩,
    ⟨d11, d12, d13, ?_, ?_, fun k hk e he => f2.val hk he, ?_, ?_⟩⟩
  · simp only [tspAugmentedIter, d1, d2, y1, q1, f1, r1, Option.bind_eq_bind, Option.bind_some]
  · intro _ hf; exact d10 hf
  · intro _ hf k hk e he; rw [f5 hf k hk e he]; exact f2.self.2.2 k hk e he
  · intro k hk e he
    have he1 := hlt hk he
    have he' : e < inp.edges.length := by rw [h.len]; exact he1
    show (Y.data k e).val = _
    rw [y4 k hk e he', if_pos (by rw [hgd hk] at he; exact he), src_eq he', dst_eq he', Num.val_fin]
    congr 1
    have hk' : k ∈ cuts deltas e := mem_cuts.mpr ⟨hk, he⟩
    have h1 := Finset.add_sum_erase (Finset.range deltas.length) (fun k => m.s2e.val k e) (Finset.mem_range.mpr hk)
    have h2 := Finset.add_sum_erase (cuts deltas e) (fun k => m.s2e.val k e) hk'
    rw [hsum _ hm.s2e_off e he1] at h1
    linarith
  · intro k hk e he
    have : fin (Q.val k e) = Q.data k e := by
      obtain ⟨q, hq⟩ := (hmsg k hk e he).1; rw [Mat.val, hq]; rfl
    show IsMessage _ _ _ _ (fin (Q.val k e))
    rw [this]; exact (hmsg k hk e he).2
  · intro e he
    have he' : e < inp.edges.length := by rw [h.len]; exact he
    show (r.data e _).val = _
    rw [r4 e he' _ (src_lt h.edges he'), src_eq he', dst_eq he', if_pos rfl, hsum _ hsoff e he, Num.val_fin]
  · intro e he
    have he' : e < inp.edges.length := by rw [h.len]; exact he
    show (r.data e _).val = _
    have hne := src_ne_dst h.edges he'
    rw [r4 e he' _ (dst_lt h.edges he'), dst_eq he', src_eq he', if_neg, if_pos rfl, hsum _ hsoff e he, Num.val_fin]
    rw [src_eq he', dst_eq he'] at hne; exact fun hh => hne hh.symm

/-- A run of iterations, on the relaxed or on the augmented graph. -/
theorem tsp_run (h : TspOk inp w c) (hd : CutsOk inp.numEdges deltas) {body : ℕ → TspMsgs → Option TspMsgs}
    (hb : ∀ j m, TspInv inp deltas j m → ∃ m', body j m = some m' ∧ TspInv inp deltas (j + 1) m' ∧
      TspStep inp w c deltas j m m') {m : TspMsgs} (hm : TspMsgsOk inp deltas m)
    (hold : deltas.length ≤ m.subOld.rows) :
    ∃ x r y q, IsTspTrace inp.numNodes inp.edges deltas w c inp.flag inp.alpha m.e2d.val m.s2e.val x r y q ∧
      ∀ K, ∃ m', loopUp K body m = some m' ∧ TspMsgsOk inp deltas m' ∧ deltas.length ≤ m'.subOld.rows ∧
        (∀ e < inp.numEdges, m'.e2d.val e (src inp.edges e) = x K e (src inp.edges e) ∧
          m'.e2d.val e (dst inp.edges e) = x K e (dst inp.edges e)) ∧
        (∀ e < inp.numEdges, ∀ v, v = src inp.edges e ∨ v = dst inp.edges e →
          m'.deg.val e v = prev inp.flag inp.alpha (m.deg.val e v) (fun i => r i e v) K) ∧
        ∀ k < deltas.length, ∀ e ∈ deltas.getD k [],
          m'.s2e.val k e = prev inp.flag inp.alpha (m.s2e.val k e) (fun i => q i k e) K := by
  obtain ⟨st, s0, hst⟩ := loop_trace (body := body) (s0 := m) (TspInv inp deltas) (TspStep inp w c deltas)
    ⟨hm, hold, fun hh => absurd rfl hh, fun hh => absurd rfl hh⟩ hb
  have hlt : ∀ {k e}, k < deltas.length → e ∈ deltas.getD k [] → e < inp.numEdges := fun {k e} hk he => by
    have hgd : deltas.getD k [] = deltas[k] := by simp [hk]
    rw [hgd] at he; exact (hd _ (List.getElem_mem hk)).2.2 e he
  have hdeg : ∀ e < inp.numEdges, ∀ v < inp.numNodes, ∀ j,
      (st (j + 1)).deg.val e v = damped inp.flag inp.alpha (fun i => (st (i + 1)).degDummy.val e v) j := by
    intro e he v hv j
    refine damped_of_step (d := fun j => (st (j + 1)).deg.val e v) (r := fun i => (st (i + 1)).degDummy.val e v) ?_ ?_ j
    · intro p
      have := (hst 0).2.2.damp e he v hv
      simp only [dampStep] at this ⊢
      simpa using this
    · intro j; exact (hst (j + 1)).2.2.damp e he v hv
  have hsub : ∀ k < deltas.length, ∀ e < inp.numEdges, ∀ j,
      (st (j + 1)).s2e.val k e = damped inp.flag inp.alpha (fun i => (st (i + 1)).subDummy.val k e) j := by
    intro k hk e he j
    refine damped_of_step (d := fun j => (st (j + 1)).s2e.val k e) (r := fun i => (st (i + 1)).subDummy.val k e) ?_ ?_ j
    · intro p
      have := (hst 0).2.2.sdamp k hk e he
      simp only [dampStep] at this ⊢
      simpa using this
    · intro j; exact (hst (j + 1)).2.2.sdamp k hk e he
  have hprev : ∀ k < deltas.length, ∀ e < inp.numEdges, ∀ j, (st j).s2e.val k e =
      prev inp.flag inp.alpha (m.s2e.val k e) (fun i => (st (i + 1)).subDummy.val k e) j := by
    intro k hk e he j
    cases j with
    | zero => rw [s0]; rfl
    | succ j => exact hsub k hk e he j
  have hE : ∀ {e}, e < inp.edges.length → e < inp.numEdges := fun he => by rw [← h.len]; exact he
  have hE' : ∀ {e}, e < inp.numEdges → e < inp.edges.length := fun he => by rw [h.len]; exact he
  refine ⟨fun j => (st j).e2d.val, fun j => (st (j + 1)).degDummy.val, fun j => (st (j + 1)).e2s.val,
    fun j => (st (j + 1)).subDummy.val, ⟨?_, ?_, ?_, ?_, ?_, ?_, ?_, ?_⟩, fun K => ?_⟩
  · intro e he; simp only [s0]
  · intro e he; simp only [s0]
  · intro j; exact (hst j).2.2.out
  · intro j; exact (hst j).2.2.inn
  · intro j k hk e he
    have he1 := hlt hk he
    rw [(hst j).2.2.to_cut k hk e he, hdeg e he1 _ (src_lt h.edges (hE' he1)), hdeg e he1 _ (dst_lt h.edges (hE' he1))]
    congr 1
    exact Finset.sum_congr rfl fun k' hk' => hprev k' (mem_cuts.mp (Finset.mem_of_mem_erase hk')).1 e he1 j
  · intro j; exact (hst j).2.2.cut
  · intro j e he
    rw [(hst j).2.2.var_src e (hE he), hdeg e (hE he) _ (dst_lt h.edges he)]
    congr 1
    exact Finset.sum_congr rfl fun k hk => hsub k (mem_cuts.mp hk).1 e (hE he) j
  · intro j e he
    rw [(hst j).2.2.var_dst e (hE he), hdeg e (hE he) _ (src_lt h.edges he)]
    congr 1
    exact Finset.sum_congr rfl fun k hk => hsub k (mem_cuts.mp hk).1 e (hE he) j
  · refine ⟨st K, (hst K).1, (hst K).2.1.toTspMsgsOk, (hst K).2.1.subOld_rows, fun e he => ⟨rfl, rfl⟩, fun e he v hv => ?_, fun k hk e he =>
      hprev k hk e (hlt hk he) K⟩
    have hvn : v < inp.numNodes := by
      rcases hv with rfl | rfl
      · exact src_lt h.edges (hE' he)
      · exact dst_lt h.edges (hE' he)
    cases K with
    | zero => rw [s0]; rfl
    | succ j => exact hdeg e he v hvn j

theorem rowSum_is {m : Mat Num} {r n : ℕ} {x : ℕ → ℕ → ℚ} (h : m.Is r n x) {e : ℕ} (he : e < r) :
    rowSum m e = some (fin (∑ v ∈ Finset.range n, x e v)) := by
  obtain ⟨t, t1, t2⟩ := loopUp_inv (n := n) (body := fun j (acc : Num) => do
      let x ← m.rd e j
      some (acc + x)) (s := fin 0) (fun k t => t = fin (∑ v ∈ Finset.range k, x e v)) (by simp)
    (by
      intro k hk t ht
      refine ⟨fin (∑ v ∈ Finset.range (k + 1), x e v), ?_, rfl⟩
      simp only [h.rd he hk, Option.bind_eq_bind, Option.bind_some, ht, fin_add, Finset.sum_range_succ])
  unfold rowSum
  rw [h.2.1, show (0 : Num) = fin 0 from rfl, t1, t2]

theorem tspExtrinsicRelaxed_is {m : Mat Num} {E n : ℕ} {x : ℕ → ℕ → ℚ} (h : m.Is E n x) {ext : Arr Num} (hs : ext.size = E) :
    ∃ r, tspExtrinsicRelaxed m ext = some r ∧ r.Is E (fun e => ∑ v ∈ Finset.range n, x e v) := by
  obtain ⟨r, r1, r2, r3⟩ := loopUp_inv (n := E) (body := fun e (ext : Arr Num) => do
      let s ← rowSum m e
      ext.wr e s) (s := ext) (fun k r => r.size = E ∧ ∀ e < k, r.data e = fin (∑ v ∈ Finset.range n, x e v))
    ⟨hs, fun e he => absurd he (Nat.not_lt_zero e)⟩
    (by
      intro k hk t ht
      refine ⟨⟨t.size, fun i => if i = k then fin (∑ v ∈ Finset.range n, x k v) else t.data i⟩, ?_, ht.1, ?_⟩
      · simp only [rowSum_is h hk, Option.bind_eq_bind, Option.bind_some]
        exact Arr.wr_of_lt (by omega)
      · intro e he
        by_cases hek : e = k
        · simp [hek]
        · simp only [hek, if_false]; exact ht.2 e (by omega))
  exact ⟨r, by unfold tspExtrinsicRelaxed; rw [h.1]; exact r1, r2, r3⟩

/-- The degree messages of an edge add up to the two messages at its ends. -/
theorem deg_sum (h : TspOk inp w c) {m : TspMsgs} (hm : TspMsgsOk inp deltas m) {e : ℕ} (he : e < inp.numEdges) :
    ∑ v ∈ Finset.range inp.numNodes, m.deg.val e v = m.deg.val e (src inp.edges e) + m.deg.val e (dst inp.edges e) := by
  have he' : e < inp.edges.length := by rw [h.len]; exact he
  have hne := src_ne_dst h.edges he'
  rw [← Finset.sum_pair hne]
  symm
  refine Finset.sum_subset ?_ ?_
  · intro v hv
    rw [Finset.mem_insert, Finset.mem_singleton] at hv
    rcases hv with rfl | rfl
    · exact Finset.mem_range.mpr (src_lt h.edges he')
    · exact Finset.mem_range.mpr (dst_lt h.edges he')
  · intro v hv hn
    rw [Finset.mem_insert, Finset.mem_singleton, not_or] at hn
    exact hm.deg_off e he v (Finset.mem_range.mp hv) hn.1 hn.2

theorem sub_sum {m : TspMsgs} (hm : TspMsgsOk inp deltas m) {e : ℕ} (he : e < inp.numEdges) :
    ∑ k ∈ Finset.range deltas.length, m.s2e.val k e = ∑ k ∈ cuts deltas e, m.s2e.val k e := by
  rw [cuts, Finset.sum_filter]
  refine Finset.sum_congr rfl fun k hk => ?_
  by_cases hin : e ∈ deltas.getD k []
  · rw [if_pos hin]
  · rw [if_neg hin, hm.s2e_off k (Finset.mem_range.mp hk) e he hin]

theorem tspIntrinsic_is (h : TspOk inp w c) {ext intr : Arr Num} {x : ℕ → ℚ} (hx : ext.Is inp.numEdges x)
    (hi : intr.size = inp.numEdges) :
    ∃ r, tspIntrinsic ext inp.cost intr = some r ∧ r.Is inp.numEdges (fun e => x e + w e) :=
  hx.addTo h.cost hi

/-- The fresh message tables are well formed. -/
theorem tspInit_ok {e2d : Mat Num} {x0 : ℕ → ℕ → ℚ} (he : e2d.Is inp.numEdges inp.numNodes x0) :
    TspMsgsOk inp [] (tspInit inp e2d) where
  e2d := he.self
  dummy_rows := rfl
  dummy_cols := rfl
  dummy_off := fun _ _ _ _ _ _ => rfl
  deg := ⟨rfl, rfl, fun _ _ _ _ => rfl⟩
  deg_off := fun _ _ _ _ _ _ => rfl
  old_rows := rfl
  old_cols := rfl
  s2e := ⟨rfl, rfl, fun _ _ _ _ => rfl⟩
  s2e_off := fun _ _ _ _ _ => rfl
  sub_rows := rfl
  sub_cols := rfl
  sub_off := fun _ _ _ _ _ => rfl
  subOld_cols := rfl

/-- Adding zero rows for new cut constraints. -/
theorem tspAddCuts_ok {m : TspMsgs} (hm : TspMsgsOk inp deltas m) (more : List (List ℕ)) :
    TspMsgsOk inp (deltas ++ more) (tspAddCuts more.length m) := by
  have hs : ∀ k < (deltas ++ more).length, ∀ e < inp.numEdges,
      (Mat.pushZeros more.length m.s2e).data k e = fin (if k < deltas.length then m.s2e.val k e else 0) := by
    intro k hk e he
    show (if k < m.s2e.rows then m.s2e.data k e else 0) = _
    rw [hm.s2e.1]
    by_cases h : k < deltas.length
    · rw [if_pos h, if_pos h]; exact hm.s2e.2.2 k h e he
    · rw [if_neg h, if_neg h]; rfl
  have hrows : (Mat.pushZeros more.length m.s2e).rows = (deltas ++ more).length := by
    show m.s2e.rows + _ = _
    rw [hm.s2e.1, List.length_append]
  have hoff : ∀ k < (deltas ++ more).length, ∀ e < inp.numEdges, e ∉ (deltas ++ more).getD k [] →
      (if k < deltas.length then m.s2e.val k e else 0) = 0 := by
    intro k hk e he hn
    by_cases h : k < deltas.length
    · rw [if_pos h]
      rw [List.getD_eq_getElem?_getD, List.getElem?_append_left h, ← List.getD_eq_getElem?_getD] at hn
      exact hm.s2e_off k h e he hn
    · rw [if_neg h]
  have his : (Mat.pushZeros more.length m.s2e).Is (deltas ++ more).length inp.numEdges
      (fun k e => if k < deltas.length then m.s2e.val k e else 0) := ⟨hrows, hm.s2e.2.1, hs⟩
  exact {
    e2d := hm.e2d
    dummy_rows := hm.dummy_rows
    dummy_cols := hm.dummy_cols
    dummy_off := hm.dummy_off
    deg := hm.deg
    deg_off := hm.deg_off
    old_rows := hm.old_rows
    old_cols := hm.old_cols
    s2e := his.self
    s2e_off := fun k hk e he hn => (his.val hk he).trans (hoff k hk e he hn)
    sub_rows := hrows
    sub_cols := hm.s2e.2.1
    sub_off := fun k hk e he hn => by
      have := hs k hk e he
      rw [hoff k hk e he hn] at this
      exact this
    subOld_cols := hm.subOld_cols }

end
end Verif.Proofs
