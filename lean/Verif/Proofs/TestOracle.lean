import Verif.Model.TestOracle
import Verif.Spec.TestOracle
import Mathlib.Order.Bounds.Basic
import Mathlib.Tactic.Linarith
import Mathlib.Tactic.Positivity

/-! Maxima of arrays of numbers. -/

namespace Verif.Proofs
open Verif Num Spec Model

theorem fold_max_fin (l : List ℚ) (x : ℚ) : ∃ M, (l.map fin).foldl npMax2 (fin x) = fin M ∧ IsGreatest {q | q ∈ x :: l} M := by
  induction l generalizing x with
  | nil => exact ⟨x, rfl, by simp, fun q hq => le_of_eq (List.mem_singleton.mp hq)⟩
  | cons y l ih =>
    have e : npMax2 (fin x) (fin y) = fin (max x y) := by
      rw [npMax2, if_neg (by simp), cmax_fin]
    obtain ⟨M, h1, h2, h3⟩ := ih (max x y)
    refine ⟨M, by rw [List.map_cons, List.foldl_cons, e, h1], ?_, fun q hq => ?_⟩
    · have h2 : M ∈ max x y :: l := h2
      rcases List.mem_cons.mp h2 with e | h
      · rcases max_cases x y with ⟨e', -⟩ | ⟨e', -⟩
        · show M ∈ x :: y :: l
          rw [e, e']; simp
        · show M ∈ x :: y :: l
          rw [e, e']; simp
      · show M ∈ x :: y :: l
        simp [h]
    · have hq : q ∈ x :: y :: l := hq
      have hM : max x y ≤ M := h3 (show max x y ∈ max x y :: l by simp)
      rcases List.mem_cons.mp hq with rfl | hq
      · exact (le_max_left _ _).trans hM
      · rcases List.mem_cons.mp hq with rfl | hq
        · exact (le_max_right _ _).trans hM
        · exact h3 (show q ∈ max x y :: l by simp [hq])

theorem npMax_fin {l : List ℚ} (h : l ≠ []) : ∃ M, npMax (l.map fin) = some (fin M) ∧ IsGreatest {q | q ∈ l} M := by
  rcases l with _ | ⟨x, l⟩
  · exact absurd rfl h
  · obtain ⟨M, h1, h2⟩ := fold_max_fin l x
    exact ⟨M, by rw [List.map_cons, npMax, h1], h2⟩

theorem fold_max_nan (l : List Num) (x : Num) (h : x = nan ∨ nan ∈ l) : l.foldl npMax2 x = nan := by
  induction l generalizing x with
  | nil => exact h.resolve_right (by simp)
  | cons y l ih =>
    rw [List.foldl_cons]
    refine ih _ ?_
    by_cases hx : x = nan ∨ y = nan
    · exact Or.inl (by rw [npMax2, if_pos hx])
    · push Not at hx
      rcases h with h | h
      · exact absurd h hx.1
      · exact Or.inr ((List.mem_cons.mp h).resolve_left (fun e => hx.2 e.symm))

theorem npMax_nan {l : List Num} (h : nan ∈ l) : npMax l = some nan := by
  rcases l with _ | ⟨x, l⟩
  · simp at h
  · rw [npMax, fold_max_nan l x ((List.mem_cons.mp h).imp (fun e => e.symm) id)]

theorem npMax_some {l : List Num} (h : l ≠ []) : ∃ m, npMax l = some m := by
  rcases l with _ | ⟨x, l⟩
  · exact absurd rfl h
  · exact ⟨_, rfl⟩

/-- Arrays of one shape, without the infinite entries. -/
theorem same_shape {y z : List Num} (h : List.Forall₂ SameShape y z) : ∃ l : List (ℚ × ℚ),
    y.filter (fun x => x ≠ pinf) = l.map (fun p => fin p.1) ∧ z.filter (fun x => x ≠ pinf) = l.map (fun p => fin p.2) ∧
    (y = z ↔ ∀ p ∈ l, p.1 = p.2) := by
  induction h with
  | nil => exact ⟨[], rfl, rfl, by simp⟩
  | cons hd _ ih =>
    obtain ⟨l, h1, h2, h3⟩ := ih
    rcases hd with ⟨rfl, rfl⟩ | ⟨p, q, rfl, rfl⟩
    · refine ⟨l, ?_, ?_, ?_⟩
      · rw [List.filter_cons_of_neg (by simp)]; exact h1
      · rw [List.filter_cons_of_neg (by simp)]; exact h2
      · rw [← h3]; simp
    · refine ⟨(p, q) :: l, ?_, ?_, ?_⟩
      · rw [List.filter_cons_of_pos (by simp), List.map_cons, h1]
      · rw [List.filter_cons_of_pos (by simp), List.map_cons, h2]
      · rw [List.cons.injEq, h3]
        simp

theorem finite_top {y : List Num} {l : List (ℚ × ℚ)} (h : y = l.map (fun p => fin p.1)) (hne : l ≠ []) :
    ∃ M, npMax y = some (fin M) ∧ IsGreatest {q | fin q ∈ y} M := by
  obtain ⟨M, h1, h2, h3⟩ := npMax_fin (l := l.map Prod.fst) (by simpa using hne)
  have e : y = (l.map Prod.fst).map fin := by rw [h, List.map_map]; rfl
  have em : ∀ q, fin q ∈ y ↔ q ∈ l.map Prod.fst := by
    intro q
    rw [e, List.mem_map]
    constructor
    · rintro ⟨a, ha, e⟩; rw [← Num.fin.inj e]; exact ha
    · intro h; exact ⟨q, h, rfl⟩
  refine ⟨M, by rw [e]; exact h1, (em M).mpr h2, fun q hq => h3 ((em q).mp hq)⟩

/-- The errors of a pair of files of one shape are zero exactly when the files are equal. -/
theorem tableErrors_spec {y z : List Num} (h : List.Forall₂ SameShape y z) {M : ℚ} (hM : IsGreatest {q | fin q ∈ y} M) (h0 : M + tiny ≠ 0) :
    ∃ a r : ℚ, tableErrors y z = some (fin a, fin r) ∧ (y = z → a = 0 ∧ r = 0) ∧ (y ≠ z → a ≠ 0 ∧ r ≠ 0) := by
  obtain ⟨l, h1, h2, h3⟩ := same_shape h
  have hne : l ≠ [] := by
    rintro rfl
    have : fin M ∈ y.filter (fun x => x ≠ pinf) := List.mem_filter.mpr ⟨hM.1, by simp⟩
    rw [h1] at this
    simp at this
  obtain ⟨M', t1, t2⟩ := finite_top h1 hne
  have e : {q | fin q ∈ y.filter (fun x => x ≠ pinf)} = {q | fin q ∈ y} := by ext q; simp
  rw [e] at t2
  obtain rfl := t2.unique hM
  obtain ⟨E, e1, e2, e3⟩ := npMax_fin (l := l.map (fun p => |p.1 - p.2|)) (by simpa using hne)
  have e2 : E ∈ l.map (fun p => |p.1 - p.2|) := e2
  have herr : (((List.zipWith (· - ·) (l.map (fun p => fin p.1)) (l.map (fun p => fin p.2))).map Num.abs).filter (fun x => x ≠ pinf)) =
      (l.map (fun p => |p.1 - p.2|)).map fin := by
    rw [List.zipWith_map, List.zipWith_self, List.map_map, List.map_map, List.filter_eq_self.mpr]
    · refine List.map_congr_left fun p _ => ?_
      simp
    · intro a ha
      obtain ⟨p, -, rfl⟩ := List.mem_map.mp ha
      simp
  have hz : y = z → E = 0 := by
    intro hyz
    obtain ⟨p, hp, rfl⟩ := List.mem_map.mp e2
    rw [h3.mp hyz p hp]; simp
  have hnz : y ≠ z → E ≠ 0 := by
    intro hyz hE
    refine hyz (h3.mpr fun p hp => ?_)
    have := e3 (show |p.1 - p.2| ∈ {q | q ∈ l.map (fun p => |p.1 - p.2|)} from List.mem_map.mpr ⟨p, hp, rfl⟩)
    rw [hE] at this
    linarith [abs_nonpos_iff.mp this]
  refine ⟨E, E / |M' + tiny|, ?_, fun h => ⟨hz h, by rw [hz h]; simp⟩, fun h => ⟨hnz h, div_ne_zero (hnz h) (abs_ne_zero.mpr h0)⟩⟩
  unfold tableErrors scaleOf
  rw [h1, h2]
  have hb : npSubBroadcast (l.map (fun p => fin p.1)) (l.map (fun p => fin p.2)) =
      some (List.zipWith (· - ·) (l.map (fun p => fin p.1)) (l.map (fun p => fin p.2))) := by
    simp [npSubBroadcast]
  dsimp only
  rw [hb]
  simp only [Option.bind_eq_bind, Option.bind_some]
  rw [herr]
  have hn : npNanmax ((l.map (fun p => |p.1 - p.2|)).map fin) = some (fin E) := by
    rw [npNanmax, if_neg (by simpa using hne), List.filter_eq_self.mpr, e1]
    · rfl
    · intro a ha
      obtain ⟨p, -, rfl⟩ := List.mem_map.mp ha
      simp
  rw [h1] at t1
  rw [hn, t1]
  simp only [Option.bind_some]
  rw [if_pos h.length_eq, fin_add, abs_fin, npDiv, if_pos (abs_ne_zero.mpr h0)]

end Verif.Proofs
