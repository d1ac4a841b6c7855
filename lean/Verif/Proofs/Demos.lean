import Verif.Model.Demos
import Verif.Proofs.KsatSafe

/-! Helper lemmas about the example programs. -/

namespace Verif.Proofs
open Verif Num Model Spec

/-- Reading the first five entries of an array. -/
theorem mapM_five {a : Arr Num} (h : a.size = 5) : (List.range 5).mapM a.rd = some [a.data 0, a.data 1, a.data 2, a.data 3, a.data 4] := by
  obtain ⟨n, d⟩ := a
  obtain rfl : n = 5 := h
  rfl

theorem slice_five {x : Arr Num} {l : List Num} (h : slice x.toList 0 5 = some l) : 5 ≤ x.size ∧ l = [x.data 0, x.data 1, x.data 2, x.data 3, x.data 4] := by
  unfold slice at h
  split at h
  · next hs =>
    have h5 : 5 ≤ x.size := by simpa [Arr.toList] using hs.2
    refine ⟨h5, ?_⟩
    obtain ⟨n, d⟩ := x
    obtain ⟨k, rfl⟩ : ∃ k, n = k + 5 := ⟨n - 5, by simp only at h5; omega⟩
    rw [← Option.some.inj h, Arr.toList, List.drop_zero, ← List.map_take, List.take_range, min_eq_left (by omega)]
    rfl
  · cases h

/-- Five entries of an array plus five numbers. -/
theorem mapM_sum {x : Arr Num} (h : 5 ≤ x.size) {a b c d e : Num} :
    ((List.range 5).mapM fun t => (x.rd t).bind fun y => ((Arr.ofList [a, b, c, d, e]).rd t).bind fun r => some (y + r)) =
      npAdd [x.data 0, x.data 1, x.data 2, x.data 3, x.data 4] [a, b, c, d, e] := by
  obtain ⟨n, f⟩ := x
  have hr : ∀ t < 5, (⟨n, f⟩ : Arr Num).rd t = some (f t) := fun t ht => by unfold Arr.rd; rw [if_pos (by simp only at h ⊢; omega)]
  simp only [List.range, List.range.loop, List.mapM_cons, List.mapM_nil, hr 0 (by omega), hr 1 (by omega), hr 2 (by omega), hr 3 (by omega), hr 4 (by omega)]
  rfl

theorem ksatDemo_decoded (flag : Bool) (alpha : ℚ) : ∃ inp v2k, ksatDecode 5 2 4 3 flag alpha ksatDemoFlat = some (inp, v2k) ∧ inp.numVars = 5 ∧ KsatShapes inp v2k ∧ NamesExist inp := by
  refine ⟨_, _, rfl, rfl, ⟨rfl, rfl, ⟨rfl, rfl⟩, ⟨rfl, rfl⟩, ⟨rfl, rfl⟩⟩, ⟨?_, ?_, ?_⟩⟩
  · exact (by decide : ∀ c < 2, ∀ s < 3, ((ksatDecode 5 2 4 3 false 0 ksatDemoFlat).get rfl).1.conx.data c s < 5)
  · exact (by decide : ∀ v ∈ ((ksatDecode 5 2 4 3 false 0 ksatDemoFlat).get rfl).1.used, v < 5)
  · exact (by decide : ∀ l ∈ ((ksatDecode 5 2 4 3 false 0 ksatDemoFlat).get rfl).1.conns, ∀ c ∈ l, c < 2)

theorem ksatDemo_list (K : ℕ) (flag : Bool) (alpha : ℚ) : ∃ d : ℕ → Num, ksatDemo K flag alpha = some [d 0, d 1, d 2, d 3, d 4] ∧
    ksatWrapper K 5 2 4 3 flag alpha ksatDemoFlat (List.replicate 5 0) = some [d 0, d 1, d 2, d 3, d 4] := by
  obtain ⟨inp, v2k, h1, h2, h3, h4⟩ := ksatDemo_decoded flag alpha
  obtain ⟨out, h5, h6⟩ := ksatSolve_safe h3 h4 K
  rw [h2] at h6
  refine ⟨out.data, ?_, ?_⟩
  · simp only [ksatDemo, h1, h5, Option.bind_eq_bind, Option.bind_some]
    exact mapM_five h6
  · obtain ⟨n, d⟩ := out
    obtain rfl : n = 5 := h6
    simp only [ksatWrapper, h1, h5, Option.bind_eq_bind, Option.bind_some]
    rfl

end Verif.Proofs
