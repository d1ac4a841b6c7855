import Verif.Properties.TspCover
import Verif.Properties.Recurrence

/-! # C67: the messages of the relaxed TSP round never repeat if the cheapest cycle cover is unique -/

namespace Verif.Properties
open Verif Num Spec Model

/-- C67, the algorithm for relaxed TSP rounds.  If one cycle cover is cheaper than all others, then the messages of no two iterations agree: the
decisions settle (C50), the messages never do. -/
theorem C67_tsp_messages {n : ℕ} {edges : List (ℕ × ℕ)} {w : ℕ → ℚ} {c C x0 s0 : ℕ → ℕ → ℚ} {flag : Bool} {alpha : ℚ} {x r y q : ℕ → ℕ → ℕ → ℚ}
    {next : ℕ → ℕ} (h : AllEdges n edges) (hn : 0 < n) (hb : OnlyBest n C next)
    (hc : ∀ e < edges.length, c e (src edges e) = C (src edges e) (dst edges e) ∧ c e (dst edges e) = C (src edges e) (dst edges e))
    (ha : flag = true → 0 ≤ alpha ∧ alpha < 1) (ht : IsTspTrace n edges [] w c flag alpha x0 s0 x r y q) {K K' : ℕ} (hK : K < K') :
    ∃ e < edges.length, ∃ v, (v = src edges e ∨ v = dst edges e) ∧
      damped flag alpha (fun i => r i e v) K ≠ damped flag alpha (fun i => r i e v) K' := by
  by_contra hcon
  push Not at hcon
  obtain ⟨p, rfl⟩ := Nat.exists_eq_add_of_lt hK
  have hper : ∀ m, ∀ e < edges.length, ∀ v, v = src edges e ∨ v = dst edges e →
      damped flag alpha (fun i => r i e v) (K + m * (p + 1)) = damped flag alpha (fun i => r i e v) K := by
    intro m
    induction m with
    | zero => intro e _ v _; rw [Nat.zero_mul, Nat.add_zero]
    | succ m ih =>
      intro e he v hv
      have := (Proofs.tsp_recur h.2.1 (by simp) ht hcon (by simp) (m * (p + 1))).1 e he v hv
      rw [show K + (m + 1) * (p + 1) = K + p + 1 + m * (p + 1) by ring, ← this]
      exact ih e he v hv
  -- an edge of the cover
  obtain ⟨e, he, hee⟩ := List.getElem_of_mem (h.2.2 0 hn (next 0) (hb.1.lt 0 hn) (Ne.symm (hb.1.ne 0 hn)))
  obtain ⟨T, hT⟩ := C50_beliefs (s0 := s0) h hb hc ha ht (fun _ _ => 0)
    (1 - (tspOutput flag alpha edges [] (fun _ _ => 0) s0 r q (K + 1) e + C (src edges e) (dst edges e)))
  have hs : src edges e = 0 ∧ dst edges e = next 0 := by
    simp only [src, dst]
    rw [List.getD_eq_getElem _ _ he, hee]
    exact ⟨rfl, rfl⟩
  have h1 := (hT (K + T * (p + 1) + 1) (by nlinarith) e he).1 (by rw [hs.1, hs.2])
  have h2 : tspOutput flag alpha edges [] (fun _ _ => 0) s0 r q (K + T * (p + 1) + 1) e = tspOutput flag alpha edges [] (fun _ _ => 0) s0 r q (K + 1) e := by
    simp only [tspOutput, prev, cuts]
    rw [hper T e he _ (Or.inl rfl), hper T e he _ (Or.inr rfl)]
    simp
  rw [h2] at h1
  linarith

/-- C67, relaxed TSP round.  On every cost matrix whose cheapest cycle cover is unique, the degree messages that the solver keeps after two different
numbers of iterations differ. -/
theorem C67_tsp {n : ℕ} {m : Mat Num} {C : ℕ → ℕ → ℚ} {edges : List (ℕ × ℕ)} {next : ℕ → ℕ} {flag : Bool} {alpha : ℚ} (hm : m.Is n n C)
    (h : AllEdges n edges) (hn : 3 ≤ n) (hb : OnlyBest n C next) (ha : flag = true → 0 ≤ alpha ∧ alpha < 1) {K K' : ℕ} (hK : K < K') :
    ∃ inp a m1 s1 m2 s2, tspInputs flag alpha n m edges = some (inp, a) ∧
      tspRelaxed inp (K + 1) (tspInit inp a) (Arr.fill inp.numEdges 0, Arr.fill inp.numEdges 0) = some (m1, s1) ∧
      tspRelaxed inp (K' + 1) (tspInit inp a) (Arr.fill inp.numEdges 0, Arr.fill inp.numEdges 0) = some (m2, s2) ∧
      ∃ e < edges.length, ∃ v, (v = src edges e ∨ v = dst edges e) ∧ m1.deg.val e v ≠ m2.deg.val e v := by
  obtain ⟨inp, a, h1, h2, h3, h4, h5, h6, h7, -, h9⟩ := C48_instance flag alpha hm h hn
  have hl := allEdges_length h
  obtain ⟨⟨x, r, y, q, ht⟩, hrun⟩ := C12_relaxed_run h7 (e2d := a) (by rw [h2, h3]; exact h9) (fun _ _ => 0)
  obtain ⟨m1, ext1, int1, e1, -, -, -, -, d1⟩ := hrun x r y q ht (K + 1)
  obtain ⟨m2, ext2, int2, e2, -, -, -, -, d2⟩ := hrun x r y q ht (K' + 1)
  refine ⟨inp, a, m1, _, m2, _, h1, e1, e2, ?_⟩
  rw [h2, h4, h5, h6] at ht
  obtain ⟨e, he, v, hv, hne⟩ := C67_tsp_messages h (by omega) hb (fun e _ => by simp) ha ht hK
  refine ⟨e, he, v, hv, ?_⟩
  rw [d1 e (by rw [h3, ← hl]; exact he) v (by rw [h4]; exact hv), d2 e (by rw [h3, ← hl]; exact he) v (by rw [h4]; exact hv), h5, h6]
  exact hne

/-- The five nodes of `tourCosts`: no two iterations have the same messages. -/
example (K K' : ℕ) (hK : K < K') : ∃ inp a m1 s1 m2 s2, tspInputs false 0 5 (Mat.ofRat 5 5 tourCosts) (nonzeroEdges (Mat.ofRat 5 5 tourCosts)) = some (inp, a) ∧
      tspRelaxed inp (K + 1) (tspInit inp a) (Arr.fill inp.numEdges 0, Arr.fill inp.numEdges 0) = some (m1, s1) ∧
      tspRelaxed inp (K' + 1) (tspInit inp a) (Arr.fill inp.numEdges 0, Arr.fill inp.numEdges 0) = some (m2, s2) ∧
      ∃ e < 20, ∃ v, m1.deg.val e v ≠ m2.deg.val e v := by
  have hc : CycleCover 5 (fun u => (u + 1) % 5) :=
    ⟨fun u hu => by show (u + 1) % 5 < 5; omega, fun u hu => by show (u + 1) % 5 ≠ u; omega, fun u hu v hv h => by
      have : (u + 1) % 5 = (v + 1) % 5 := h
      omega⟩
  have hb : OnlyBest 5 tourCosts (fun u => (u + 1) % 5) :=
    (C50_certificate hc).mpr ⟨fun u => ([1, 2, 1, 2, 3] : List ℚ).getD u 0, fun _ => 0, 1, by norm_num, by decide +kernel, by decide +kernel⟩
  have hall : AllEdges 5 (nonzeroEdges (Mat.ofRat 5 5 tourCosts)) := by
    unfold AllEdges EdgesOk Complete; decide +kernel
  have hl : (nonzeroEdges (Mat.ofRat 5 5 tourCosts)).length = 20 := allEdges_length hall
  obtain ⟨inp, a, m1, s1, m2, s2, h1, h2, h3, e, he, v, -, hv⟩ := C67_tsp (flag := false) (alpha := 0) (Mat.ofRat_is 5 5 tourCosts) hall (by norm_num) hb (by decide) hK
  exact ⟨inp, a, m1, s1, m2, s2, h1, h2, h3, e, by omega, v, hv⟩

end Verif.Properties
