import Verif.Model.IndexInt
import Verif.Proofs.PyKnapsack
import Mathlib.Combinatorics.Enumerative.DoubleCounting

/-! Positions computed with 32-bit `int`. -/

namespace Verif.Proofs
open Verif Num Model

theorem chk_of_le {x : ℕ} (h : x ≤ 2147483647) : Int32.chk x = some x := if_pos h
theorem chk_of_gt {x : ℕ} (h : 2147483647 < x) : Int32.chk x = none := if_neg (by omega)

theorem row_ok {α : Type} {mem : List α} {w i N : ℕ} (hw : 1 ≤ w) (hi : i < N) (h : w * N ≤ 2147483647) :
    Int32.row mem w i = slice mem (w * i) (w * (i + 1)) := by
  have h1 : w * i ≤ w * N := Nat.mul_le_mul_left w (by omega)
  have h2 : w * (i + 1) ≤ w * N := Nat.mul_le_mul_left w (by omega)
  have h3 : 1 * N ≤ w * N := Nat.mul_le_mul_right N hw
  simp only [Int32.row, Option.bind_eq_bind, chk_of_le (show w * i ≤ 2147483647 by omega), chk_of_le (show i + 1 ≤ 2147483647 by omega),
    chk_of_le (show w * (i + 1) ≤ 2147483647 by omega), Option.bind_some]

theorem row_none {α : Type} {mem : List α} {w N : ℕ} (h : 2147483647 < w * (N + 1)) : Int32.row mem w N = none := by
  unfold Int32.row
  simp only [Option.bind_eq_bind]
  cases hc : Int32.chk (w * N) with
  | none => rfl
  | some a =>
    cases hd : Int32.chk (N + 1) with
    | none => rfl
    | some j =>
      unfold Int32.chk at hd
      split at hd
      · cases hd
        simp only [Option.bind_some, chk_of_gt h, Option.bind_none]
      · cases hd

theorem loopUp_last_none {σ : Type} {n : ℕ} {body : ℕ → σ → Option σ} {s : σ} (h : ∀ t, body n t = none) : loopUp (n + 1) body s = none := by
  rw [loopUp]
  cases loopUp n body s with
  | none => rfl
  | some t => exact h t

theorem tspDecode32_ok {n E : ℕ} (flag : Bool) (alpha : ℚ) (f : TspFlat) (hn : 2 ≤ n) (h1 : n * E ≤ 2147483647) (h2 : n * n ≤ 2147483647) :
    Int32.tspDecode n E flag alpha f = tspDecode n E flag alpha f := by
  have h3 : 2 * E ≤ n * E := Nat.mul_le_mul_right E hn
  unfold Int32.tspDecode tspDecode
  congr 1
  funext costs
  congr 1
  · refine loopUp_congr fun i hi s => ?_
    rw [row_ok (by norm_num) hi (by omega), row_ok (by omega) hi h1, row_ok (by omega) hi h1]
  · funext s
    obtain ⟨edges, e2d, degCost⟩ := s
    simp only
    congr 1
    refine loopUp_congr fun i hi s => ?_
    rw [row_ok (by omega) hi h2]

theorem bind_const_none {α β : Type} (x : Option α) : (x.bind fun _ => (none : Option β)) = none := by cases x <;> rfl

theorem tspDecode32_none {n E : ℕ} (flag : Bool) (alpha : ℚ) (f : TspFlat) (hn : 1 ≤ n) (hE : 1 ≤ E) (h : 2147483647 < n * E ∨ 2147483647 < n * n) :
    Int32.tspDecode n E flag alpha f = none := by
  unfold Int32.tspDecode
  simp only [Option.bind_eq_bind]
  rcases h with h | h
  · obtain ⟨k, rfl⟩ : ∃ k, E = k + 1 := ⟨E - 1, by omega⟩
    rw [loopUp_last_none fun t => by simp only [row_none h, Option.bind_none, bind_const_none]]
    simp only [Option.bind_none, bind_const_none]
  · obtain ⟨k, rfl⟩ : ∃ k, n = k + 1 := ⟨n - 1, by omega⟩
    rw [loopUp_last_none (n := k) (body := fun v (m : Mat Num) => (Int32.row f.matrix (k + 1) v).bind fun r => m.wrRow v (Arr.ofList r)) fun t => by
      rw [row_none h]; rfl]
    simp only [Option.bind_none, bind_const_none]

theorem kcDecode32_ok {D T P : ℕ} (flag : Bool) (alpha : ℚ) (f : KcFlat) (hT : 1 ≤ T) (hm : f.maxSize ≤ T) (h1 : T * D ≤ 2147483647)
    (h2 : T * P ≤ 2147483647) : Int32.kcDecode D T P flag alpha f = kcDecode D T P flag alpha f := by
  unfold Int32.kcDecode kcDecode
  congr 1
  funext reward
  congr 1
  funext maxState
  congr 1
  · refine loopUp_congr fun i hi s => ?_
    have h3 : f.maxSize * i ≤ T * D := Nat.mul_le_mul hm hi.le
    rw [row_ok hT hi h1, row_ok hT hi h1, chk_of_le (by omega)]
    rfl
  · funext s
    obtain ⟨nzs, a, weights⟩ := s
    simp only
    congr 1
    refine loopUp_congr fun i hi s => ?_
    rw [row_ok hT hi h2]

theorem kcDecode32_none {D T P : ℕ} (flag : Bool) (alpha : ℚ) (f : KcFlat) (hD : 1 ≤ D) (hP : 1 ≤ P) (h : 2147483647 < T * D ∨ 2147483647 < T * P) :
    Int32.kcDecode D T P flag alpha f = none := by
  unfold Int32.kcDecode
  simp only [Option.bind_eq_bind]
  rcases h with h | h
  · obtain ⟨k, rfl⟩ : ∃ k, D = k + 1 := ⟨D - 1, by omega⟩
    rw [loopUp_last_none fun t => by simp only [row_none h, Option.bind_none, bind_const_none]]
    simp only [Option.bind_none, bind_const_none]
  · obtain ⟨k, rfl⟩ : ∃ k, P = k + 1 := ⟨P - 1, by omega⟩
    rw [loopUp_last_none (n := k) (body := fun p (m : Mat Num) => (Int32.row f.rewardProject T p).bind fun r => m.wrRow p (Arr.ofList r)) fun t => by
      rw [row_none h]; rfl]
    simp only [Option.bind_none, bind_const_none]

theorem mwmIndex_last {T P : ℕ} (hT : 1 ≤ T) (hP : 1 ≤ P) (h : 2147483648 < T * P) : Int32.mwmIndex T (P - 1) (T - 1) = none := by
  obtain ⟨k, rfl⟩ : ∃ k, T = k + 1 := ⟨T - 1, by omega⟩
  obtain ⟨j, rfl⟩ : ∃ j, P = j + 1 := ⟨P - 1, by omega⟩
  have e : (k + 1) * (j + 1) = j + k + j * k + 1 := by ring
  simp only [Int32.mwmIndex, Option.bind_eq_bind, Nat.add_sub_cancel]
  unfold Int32.chk
  split
  · rw [Option.bind_some]
    split
    · rw [Option.bind_some, if_neg (by omega)]
    · rfl
  · rfl

theorem mwmIndex_ok {T P p t : ℕ} (hp : p < P) (ht : t < T) (h : T * P ≤ 2147483647) : Int32.mwmIndex T p t = some (p + t + p * (T - 1)) := by
  have h1 : p * (T - 1) + p = p * T := by
    obtain ⟨k, rfl⟩ : ∃ k, T = k + 1 := ⟨T - 1, by omega⟩
    simp; ring
  have h2 : T * (p + 1) ≤ T * P := Nat.mul_le_mul_left T hp
  have h3 : T * (p + 1) = p * T + T := by ring
  simp only [Int32.mwmIndex, Option.bind_eq_bind, chk_of_le (show p + t ≤ 2147483647 by omega), chk_of_le (show p * (T - 1) ≤ 2147483647 by omega),
    Option.bind_some, chk_of_le (show p + t + p * (T - 1) ≤ 2147483647 by omega)]

theorem ksatDecode32_ok {n C U k : ℕ} (flag : Bool) (alpha : ℚ) (f : KsatFlat) (hn : 1 ≤ n) (hk : 1 ≤ k) (h1 : k * C ≤ 2147483647) (h2 : n * C ≤ 2147483647)
    (h3 : f.conns.length ≤ 2147483647) : Int32.ksatDecode n C U k flag alpha f = ksatDecode n C U k flag alpha f := by
  unfold Int32.ksatDecode ksatDecode
  congr 1
  funext used
  congr 1
  funext cost
  congr 1
  funext sizes
  congr 1
  · refine loopUp_congr fun i hi s => ?_
    rw [row_ok hk hi h1, row_ok hk hi h1, row_ok hn hi h2]
  · funext s
    obtain ⟨conx, ty, v2k⟩ := s
    simp only
    congr 1
    refine loopUp_congr fun j hj s => ?_
    split
    · congr 1
      funext size
      by_cases hs : s.2 ≤ s.2 + size ∧ s.2 + size ≤ f.conns.length
      · simp only [slice, if_pos hs, Option.bind_eq_bind, Option.bind_some, chk_of_le (hs.2.trans h3)]
      · simp only [slice, if_neg hs, Option.bind_eq_bind, Option.bind_none]
    · rfl

theorem ksatDecode32_none {n C U k : ℕ} (flag : Bool) (alpha : ℚ) (f : KsatFlat) (hC : 1 ≤ C) (h : 2147483647 < k * C ∨ 2147483647 < n * C) :
    Int32.ksatDecode n C U k flag alpha f = none := by
  unfold Int32.ksatDecode
  simp only [Option.bind_eq_bind]
  obtain ⟨c, rfl⟩ : ∃ c, C = c + 1 := ⟨C - 1, by omega⟩
  rcases h with h | h
  · rw [loopUp_last_none fun t => by simp only [row_none h, Option.bind_none]]
    simp only [Option.bind_none, bind_const_none]
  · rw [loopUp_last_none fun t => by simp only [row_none h, Option.bind_none, bind_const_none]]
    simp only [Option.bind_none, bind_const_none]

end Verif.Proofs
