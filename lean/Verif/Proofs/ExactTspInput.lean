import Verif.Proofs.ExactTspCall
import Verif.Properties.TspIO
import Verif.Proofs.ExactKsatRun

/-! A whole call with small multiples of a unit, given that the solver computes exactly. -/

namespace Verif.Proofs
open Verif Num Spec Model Properties

theorem exact_runImpa {s : TspSettings} {order : ℕ → List (ℕ × ℕ) → List ℕ} {fuel limit n : ℕ} {m : Mat Num} {C : ℕ → ℕ → ℚ} {edges : List (ℕ × ℕ)}
    {q : TspResult} {B : ℕ} {r : ℚ → Num} {u : ℚ} {M : ℕ} (hr : KeepsMultiples r u M) (hm : m.Is n n C)
    (hC : ∀ v < n, ∀ w < n, ∃ z : ℤ, |z| ≤ B ∧ C v w = z * u) (h : AllEdges n edges) (hn : 3 ≤ n)
    (hq : runImpa s order fuel limit n m edges = some (some (q, false)))
    (hsolve : ∀ inp a st, tspInputs s.flag s.alpha n m edges = some (inp, a) → inp.numEdges = n * n - n → inp.numEdges ≤ inp.edges.length →
      inp.flag = s.flag → inp.alpha = s.alpha → MatAll (fun _ _ => Small u B) inp.degCost → RowAll (fun _ => Small u B) inp.cost →
      MatAll (fun _ _ => Small u B) a → (∀ c ∈ inp.edges, ∀ x, inp.costMatrix.rd c.1 c.2 = some x → Small u B x) →
      tspSolve (tspSetup inp s.numIter s.reset s.augmentation s.thr s.maxCount s.maxAugm order) fuel (tspStart inp a) = some (some st) →
      st.numAugm = q.numAugm → st.selected = q.selected →
      Rounded.tspSolve r (Rounded.tspSetup r inp s.numIter s.reset s.augmentation s.thr s.maxCount s.maxAugm order) fuel (tspStart inp a) = some (some st) ∧
        RowAll (fun _ => Small u (M - B)) st.ext) : Rounded.runImpa r s order fuel n m edges = some (some q) := by
  have hl := allEdges_length h
  obtain ⟨inp, a, d1, d2, d3, d4, d5, d6, hok, hmx, hx⟩ := C48_instance s.flag s.alpha hm h hn
  obtain ⟨costs, table, t1, t2, t3, -⟩ := tspTables_spec hm.1 hm.2.1 h.2.1 hl.le
  have hin := d1
  rw [tspInputs, t1, Option.bind_some] at d1
  have hcell : ∀ e < edges.length, Small u B (fin (C (src edges e) (dst edges e))) := by
    intro e he x hx
    rw [Num.fin.injEq] at hx
    obtain ⟨z, z1, z2⟩ := hC _ (src_dst_lt h.2.1 he).1 _ (src_dst_lt h.2.1 he).2
    exact ⟨z, by rw [← hx]; exact z2, by exact_mod_cast z1⟩
  have hend : ∀ e < edges.length, ∀ v, Small u B (fin (if v = src edges e ∨ v = dst edges e then C (src edges e) (dst edges e) else 0)) := by
    intro e he v
    split
    · exact hcell e he
    · exact Small.zero (by positivity)
  have hw : RowAll (fun _ => Small u B) inp.cost := fun e he => by
    rw [hok.cost.1] at he
    rw [hok.cost.2 e he]
    exact hcell e (by omega)
  have hc : MatAll (fun _ _ => Small u B) inp.degCost := fun e he v hv => by
    rw [hok.deg.1] at he
    rw [hok.deg.2.1] at hv
    rw [hok.deg.2.2 e he v hv]
    exact hend e (by omega) v
  have ha : MatAll (fun _ _ => Small u B) a := fun e he v hv => by
    rw [hx.1] at he
    rw [hx.2.1] at hv
    rw [hx.2.2 e he v hv]
    exact hend e (by omega) v
  have hmat : ∀ c ∈ inp.edges, ∀ x, inp.costMatrix.rd c.1 c.2 = some x → Small u B x := fun c hc x hx => by
    obtain ⟨⟨r1, r2⟩, rfl⟩ := mat_rd hx
    rw [hmx.1] at r1
    rw [hmx.2.1] at r2
    rw [hmx.2.2 _ r1 _ r2]
    intro q hq
    rw [Num.fin.injEq] at hq
    obtain ⟨z, z1, z2⟩ := hC _ r1 _ r2
    exact ⟨z, by rw [← hq]; exact z2, by exact_mod_cast z1⟩
  simp only [runImpa, t1, tspWrapper, d1, Option.map_map, Option.map_eq_some_iff, Function.comp_apply, Option.bind_eq_bind, Option.bind_eq_some_iff] at hq
  obtain ⟨o, hs, b, ⟨st, rfl, hb⟩, q1, hq1, hfin⟩ := hq
  have hqr : q1 = q := by
    unfold tspFinish at hfin
    split at hfin
    · simp only [Option.bind_eq_bind, Option.bind_eq_some_iff, Option.some.injEq, Prod.mk.injEq] at hfin
      obtain ⟨_, -, -, hh⟩ := hfin
      cases hh
    · simpa using hfin
  subst hqr
  have hb0 := hb
  have hq0 := hq1
  unfold processOutputs at hb
  simp only [Option.bind_eq_bind, Option.bind_eq_some_iff, Option.some.injEq] at hb
  obtain ⟨ext, f1, tour, f2, sel, f3, sub, f4, sizes, f5, rfl⟩ := hb
  unfold processOutputsPy at hq1
  simp only [Option.bind_eq_bind, Option.bind_eq_some_iff, Option.some.injEq] at hq1
  obtain ⟨p, p1, i, p2, hqe⟩ := hq1
  have hext : ext = (List.range (n * n - n)).map st.ext.data ∧ n * n - n ≤ st.ext.size := by
    split at f1
    · next hle =>
      unfold putList at f1
      split at f1
      · rw [← Option.some.inj f1]
        refine ⟨?_, hle⟩
        rw [List.drop_eq_nil_of_le (by simp [newBuffers]), List.append_nil]
      · cases f1
    · cases f1
  have hsel : st.selected = p := by
    unfold putList at f3
    split at f3
    · rw [← Option.some.inj f3, List.take_left'] at p1
      · rw [pairUp_flat] at p1
        exact Option.some.inj p1
      · rfl
    · cases f3
  obtain ⟨g1, g2⟩ := hsolve inp a st hin d3 (by rw [d3, d4]; omega) d5 d6 hc hw ha hmat hs (by rw [← hqe]) (by rw [← hqe]; exact hsel)
  have hcosts : ∀ x ∈ costs.toList, Small u B x := by
    intro x hx
    rw [Arr.toList] at hx
    obtain ⟨e, he, rfl⟩ := List.mem_map.mp hx
    have he' : e < edges.length := by rw [List.mem_range] at he; omega
    obtain ⟨u1, u2⟩ := src_dst_lt h.2.1 he'
    rw [t3 e he', hm.2.2 _ u1 _ u2]
    exact hcell e he'
  simp only [Rounded.runImpa, t1, Rounded.tspWrapper, d1, g1, Option.map_some, Option.bind_some, hb0, Option.bind_eq_bind, Option.some.injEq]
  unfold Rounded.processOutputsPy
  rw [hq0]
  simp only [Option.bind_eq_bind, Option.bind_some, Option.some.injEq]
  rw [← hqe]
  simp only [TspResult.mk.injEq, true_and]
  split at p2
  · rw [← Option.some.inj p2]
    refine zipWith_congr_mem fun x hx y hy => ?_
    rw [hext.1] at hx
    obtain ⟨e, he, rfl⟩ := List.mem_map.mp hx
    rw [List.mem_range] at he
    refine ((g2 e (by omega)).add (hcosts y hy)).rn hr ?_
    linarith
  · cases p2

end Verif.Proofs
