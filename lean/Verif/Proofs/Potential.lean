import Mathlib.Data.Fintype.List
import Mathlib.Data.List.Chain
import Mathlib.Data.Rat.Defs
import Mathlib.Algebra.Order.Field.Rat
import Mathlib.Tactic.Linarith
import Mathlib.Data.Set.Finite.Lemmas
import Mathlib.Data.Fintype.EquivFin

/-! Node potentials of a finite weighted graph without negative cycles. -/

namespace Verif.Proofs

/-- Weight of a chain of nodes. -/
def chainWeight {V : Type} (W : V → V → ℚ) : List V → ℚ
  | [] => 0
  | [_] => 0
  | a :: b :: l => W a b + chainWeight W (b :: l)

theorem chainWeight_append {V : Type} (W : V → V → ℚ) (l : List V) (a : V) (r : List V) :
    chainWeight W (l ++ a :: r) = chainWeight W (l ++ [a]) + chainWeight W (a :: r) := by
  induction l with
  | nil => simp [chainWeight]
  | cons b l ih =>
    cases l with
    | nil => simp [chainWeight]
    | cons c l =>
      simp only [List.cons_append, chainWeight] at ih ⊢
      rw [ih, add_assoc]

theorem chainWeight_snoc {V : Type} (W : V → V → ℚ) {l : List V} {i : V} (h : l.getLast? = some i) (k : V) :
    chainWeight W (l ++ [k]) = chainWeight W l + W i k := by
  obtain ⟨l', rfl⟩ := List.getLast?_eq_some_iff.mp h
  rw [List.append_assoc, List.singleton_append, chainWeight_append]
  simp [chainWeight]

/-- If no cycle has negative weight, potentials exist. -/
theorem exists_potential {V : Type} [Fintype V] [DecidableEq V] (A : V → V → Prop) (W : V → V → ℚ)
    (hc : ∀ (k i : V) (l : List V), (k :: l).Nodup → (k :: l).IsChain A → (k :: l).getLast? = some i → A i k →
      0 ≤ chainWeight W (k :: l) + W i k) :
    ∃ z : V → ℚ, ∀ i k, A i k → z k ≤ z i + W i k := by
  have key : ∀ k : V, ∃ l : List V, (l.Nodup ∧ l.IsChain A ∧ l.getLast? = some k) ∧
      ∀ l' : List V, l'.Nodup → l'.IsChain A → l'.getLast? = some k → chainWeight W l ≤ chainWeight W l' := by
    intro k
    let S : Set {l : List V // l.Nodup} := {l | l.1.IsChain A ∧ l.1.getLast? = some k}
    have hf : S.Finite := Set.toFinite S
    have hne : S.Nonempty := ⟨⟨[k], by simp⟩, by simp [S]⟩
    obtain ⟨l, hl, hmin⟩ := Set.exists_min_image S (fun l => chainWeight W l.1) hf hne
    exact ⟨l.1, ⟨l.2, hl.1, hl.2⟩, fun l' h1 h2 h3 => hmin ⟨l', h1⟩ ⟨h2, h3⟩⟩
  choose best hbest hmin using key
  refine ⟨fun k => chainWeight W (best k), fun i k hik => ?_⟩
  obtain ⟨h1, h2, h3⟩ := hbest i
  by_cases hk : k ∈ best i
  · obtain ⟨l1, l2, hl⟩ := List.append_of_mem hk
    have hw := chainWeight_append W l1 k l2
    rw [hl] at h1 h2 h3
    have h4 : chainWeight W (best k) ≤ chainWeight W (l1 ++ [k]) := by
      apply hmin
      · rw [show l1 ++ k :: l2 = (l1 ++ [k]) ++ l2 by simp] at h1
        exact h1.of_append_left
      · rw [show l1 ++ k :: l2 = (l1 ++ [k]) ++ l2 by simp] at h2
        exact h2.left_of_append
      · simp
    have h5 := hc k i l2 h1.of_append_right h2.right_of_append (by rw [← h3, List.getLast?_append]; cases hh : (k :: l2).getLast? with | none => simp at hh | some a => rfl) hik
    show chainWeight W (best k) ≤ chainWeight W (best i) + W i k
    rw [hl, hw]; linarith
  · show chainWeight W (best k) ≤ chainWeight W (best i) + W i k
    rw [← chainWeight_snoc W h3]
    apply hmin
    · rw [List.nodup_append]
      exact ⟨h1, by simp, by intro a ha b hb; simp at hb; subst hb; rintro rfl; exact hk ha⟩
    · rw [List.isChain_append]
      refine ⟨h2, by simp, ?_⟩
      intro x hx y hy
      simp at hy; subst hy
      rw [h3] at hx; simp at hx; subst hx; exact hik
    · simp

end Verif.Proofs
