import Verif.Proofs.Param
import Verif.Spec.Rounding
import Mathlib.Order.Filter.Basic
import Mathlib.Data.Finset.Union

/-! Roundings that do not change the numbers that occur. -/

namespace Verif.Proofs
open Verif Num Filter Spec Model

/-- Roundings that keep more and more of the numbers in `G`. -/
def keepFilter (G : ℚ → Prop) : Filter (ℚ → Num) where
  sets := {S | ∃ F : Finset ℚ, (∀ x ∈ F, G x) ∧ ∀ r : ℚ → Num, (∀ x ∈ F, r x = fin x) → r ∈ S}
  univ_sets := ⟨∅, by simp, fun _ _ => trivial⟩
  sets_of_superset := fun ⟨F, h1, h2⟩ hS => ⟨F, h1, fun r hr => hS (h2 r hr)⟩
  inter_sets := fun ⟨F, h1, h2⟩ ⟨F', h1', h2'⟩ => ⟨F ∪ F', fun x hx => (Finset.mem_union.mp hx).elim (h1 x) (h1' x), fun r hr =>
    ⟨h2 r fun x hx => hr x (Finset.mem_union_left _ hx), h2' r fun x hx => hr x (Finset.mem_union_right _ hx)⟩⟩

theorem eventually_keep {G : ℚ → Prop} {x : ℚ} (hx : G x) : ∀ᶠ r : ℚ → Num in keepFilter G, r x = fin x :=
  ⟨{x}, by simpa using hx, fun r hr => hr x (by simp)⟩

/-- A number in `G` or not finite, and eventually equal to the numbers of the family. -/
def Keep (G : ℚ → Prop) (a : Num) (b : (ℚ → Num) → Num) : Prop := (∀ q, a = fin q → G q) ∧ ∀ᶠ r in keepFilter G, b r = a

theorem keep_rn {G : ℚ → Prop} {a : Num} {b : (ℚ → Num) → Num} (h : Keep G a b) : Keep G a (fun r => Rounded.rn r (b r)) := by
  refine ⟨h.1, ?_⟩
  cases a with
  | fin q =>
    filter_upwards [h.2, eventually_keep (h.1 q rfl)] with r h1 h2
    rw [h1]; simp only [Rounded.rn, h2]
  | _ => filter_upwards [h.2] with r h1; rw [h1]; rfl

variable {G : ℚ → Prop}

theorem calc_keep (h0 : G 0) (hneg : ∀ x, G x → G (-x)) (hadd : ∀ x y, G x → G y → G (x + y)) :
    Calc (keepFilter G) (fun r => r) (Keep G) where
  congr := fun h he => ⟨h.1, by filter_upwards [h.2, he] with r h1 h2; rw [← h2, h1]⟩
  zero := ⟨fun q hq => by rw [zero_def, Num.fin.injEq] at hq; rw [← hq]; exact h0, Eventually.of_forall fun _ => rfl⟩
  pinf := ⟨(fun q hq => by cases hq), Eventually.of_forall fun _ => rfl⟩
  neg := by
    intro a b h
    refine ⟨fun q hq => ?_, by filter_upwards [h.2] with r h1; rw [h1]⟩
    cases a with
    | fin p => obtain rfl : -p = q := by simpa using hq
               exact hneg p (h.1 p rfl)
    | _ => cases hq
  cmin := by
    intro a b a' b' h h'
    refine ⟨fun q hq => ?_, by filter_upwards [h.2, h'.2] with r h1 h2; rw [h1, h2]⟩
    unfold Num.cmin at hq
    split at hq
    · exact h'.1 q hq
    · exact h.1 q hq
  add := by
    intro a b a' b' h h'
    refine keep_rn ⟨fun q hq => ?_, by filter_upwards [h.2, h'.2] with r h1 h2; rw [h1, h2]⟩
    cases a with
    | fin p =>
      cases a' with
      | fin p' => obtain rfl : p + p' = q := by simpa using hq
                  exact hadd p p' (h.1 p rfl) (h'.1 p' rfl)
      | _ => cases hq
    | _ => cases a' <;> cases hq
  ne := fun h _ hc => by filter_upwards [h.2] with r h1; rw [h1]; exact hc

theorem damps_keep {flag : Bool} {alpha : ℚ} (h : flag = true → alpha ≠ 0 → G (1 - alpha) ∧ ∀ x, G x → G (x * (1 - alpha)) ∧ G (x * alpha)) :
    Damps (fun r => r) (Keep G) flag alpha := by
  intro hf ha a b hab
  obtain ⟨g1, g2⟩ := h hf ha
  have key : ∀ w : ℚ, (∀ x, G x → G (x * w)) → Keep G (a * fin w) (fun r => b r * fin w) := by
    intro w hw
    refine ⟨fun q hq => ?_, by filter_upwards [hab.2] with r h1; rw [h1]⟩
    cases a with
    | fin p => obtain rfl : p * w = q := by simpa using hq
               exact hw p (hab.1 p rfl)
    | _ => exact absurd hq (by
             show Num.mul _ _ ≠ _
             simp only [Num.mul, infMul]
             first
               | simp; done
               | (split_ifs <;> simp [Num.neg]))
  refine ⟨keep_rn ⟨(key _ fun x hx => (g2 x hx).1).1, ?_⟩, keep_rn (key _ fun x hx => (g2 x hx).2)⟩
  filter_upwards [(key _ fun x hx => (g2 x hx).1).2, eventually_keep g1] with r h1 h2
  simp only [Rounded.rn, h2]; exact h1

end Verif.Proofs
