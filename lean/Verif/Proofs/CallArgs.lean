import Verif.Spec.CallArgs
import Mathlib.Data.List.Nodup

/-! # Placement of arguments -/

namespace Verif.Proofs
open Verif Spec Model

theorem place_length (ng nf : ℕ) (l : List Kind) : ∀ g f s, (place ng nf l g f s).length = l.length := by
  induction l with
  | nil => intros; rfl
  | cons k l ih =>
    intro g f s
    unfold place
    split <;> split <;> simp [ih]

theorem place_bound (ng nf : ℕ) (l : List Kind) : ∀ g f s, ∀ x ∈ place ng nf l g f s,
    (∀ i, x = .general i → g ≤ i) ∧ (∀ i, x = .float i → f ≤ i) ∧ (∀ i, x = .stack i → s ≤ i) := by
  induction l with
  | nil => intro g f s x hx; simp [place] at hx
  | cons k l ih =>
    intro g f s x hx
    unfold place at hx
    split at hx <;> split at hx <;> rcases List.mem_cons.mp hx with rfl | hx
    · refine ⟨by simp, by rintro i h; simp at h; omega, by simp⟩
    · obtain ⟨a, b, c⟩ := ih _ _ _ x hx
      exact ⟨a, fun i h => by have := b i h; omega, c⟩
    · refine ⟨by simp, by simp, by rintro i h; simp at h; omega⟩
    · obtain ⟨a, b, c⟩ := ih _ _ _ x hx
      exact ⟨a, b, fun i h => by have := c i h; omega⟩
    · refine ⟨by rintro i h; simp at h; omega, by simp, by simp⟩
    · obtain ⟨a, b, c⟩ := ih _ _ _ x hx
      exact ⟨fun i h => by have := a i h; omega, b, c⟩
    · refine ⟨by simp, by simp, by rintro i h; simp at h; omega⟩
    · obtain ⟨a, b, c⟩ := ih _ _ _ x hx
      exact ⟨a, b, fun i h => by have := c i h; omega⟩

theorem place_nodup (ng nf : ℕ) (l : List Kind) : ∀ g f s, (place ng nf l g f s).Nodup := by
  induction l with
  | nil => intros; simp [place]
  | cons k l ih =>
    intro g f s
    unfold place
    split <;> split <;> refine List.nodup_cons.mpr ⟨fun hm => ?_, ih _ _ _⟩
    · have := (place_bound ng nf l _ _ _ _ hm).2.1 _ rfl; omega
    · have := (place_bound ng nf l _ _ _ _ hm).2.2 _ rfl; omega
    · have := (place_bound ng nf l _ _ _ _ hm).1 _ rfl; omega
    · have := (place_bound ng nf l _ _ _ _ hm).2.2 _ rfl; omega

/-- Exchanging two neighbours of which one is a floating point number exchanges their places, unless both are on the stack. -/
theorem place_swap (ng nf : ℕ) {a b : Kind} (ha : a.isFloat = true) (hb : b.isFloat = false) (l2 : List Kind) (l1 : List Kind) :
    ∀ g f s, (l1.countP (fun k => k.isFloat) + f < nf ∨ l1.countP (fun k => !k.isFloat) + g < ng) →
      ∃ A x y B, A.length = l1.length ∧ place ng nf (l1 ++ a :: b :: l2) g f s = A ++ x :: y :: B ∧
        place ng nf (l1 ++ b :: a :: l2) g f s = A ++ y :: x :: B := by
  induction l1 with
  | nil =>
    intro g f s h
    simp only [List.countP_nil, Nat.zero_add] at h
    simp only [List.nil_append, place, ha, hb, if_true, Bool.false_eq_true, if_false]
    by_cases hf : f < nf
    · by_cases hg : g < ng
      · exact ⟨[], _, _, _, rfl, by simp only [if_pos hf, if_pos hg]; rfl, by simp only [if_pos hf, if_pos hg]; rfl⟩
      · exact ⟨[], _, _, _, rfl, by simp only [if_pos hf, if_neg hg]; rfl, by simp only [if_pos hf, if_neg hg]; rfl⟩
    · have hg : g < ng := by omega
      exact ⟨[], _, _, _, rfl, by simp only [if_neg hf, if_pos hg]; rfl, by simp only [if_neg hf, if_pos hg]; rfl⟩
  | cons k l ih =>
    intro g f s h
    simp only [List.cons_append, place]
    have lift : ∀ (z : Loc) (g' f' s' : ℕ),
        (l.countP (fun k => k.isFloat) + f' < nf ∨ l.countP (fun k => !k.isFloat) + g' < ng) →
        ∃ A x y B, A.length = (k :: l).length ∧ z :: place ng nf (l ++ a :: b :: l2) g' f' s' = A ++ x :: y :: B ∧
          z :: place ng nf (l ++ b :: a :: l2) g' f' s' = A ++ y :: x :: B := by
      intro z g' f' s' h'
      obtain ⟨A, x, y, B, h1, h2, h3⟩ := ih g' f' s' h'
      exact ⟨z :: A, x, y, B, by simp [h1], by rw [h2]; rfl, by rw [h3]; rfl⟩
    cases hk : k.isFloat with
    | true =>
      simp only [List.countP_cons, hk, if_true, Bool.not_true, Bool.false_eq_true, if_false, Nat.add_zero] at h
      by_cases hf : f < nf
      · simp only [if_true, if_pos hf]; exact lift _ _ _ _ (by omega)
      · simp only [if_true, if_neg hf]; exact lift _ _ _ _ (by omega)
    | false =>
      simp only [List.countP_cons, hk, if_true, Bool.not_false, Bool.false_eq_true, if_false, Nat.add_zero] at h
      by_cases hg : g < ng
      · simp only [Bool.false_eq_true, if_false, if_pos hg]; exact lift _ _ _ _ (by omega)
      · simp only [Bool.false_eq_true, if_false, if_neg hg]; exact lift _ _ _ _ (by omega)

theorem find_loc {α : Type} {l : List (α × Loc)} (hn : (l.map Prod.snd).Nodup) {z : α × Loc} (hz : z ∈ l) :
    l.find? (fun q => q.2 = z.2) = some z := by
  induction l with
  | nil => simp at hz
  | cons a l ih =>
    rw [List.map_cons, List.nodup_cons] at hn
    rw [List.find?_cons]
    rcases List.mem_cons.mp hz with rfl | hz
    · simp
    · have : a.2 ≠ z.2 := fun e => hn.1 (e ▸ List.mem_map_of_mem hz)
      simp only [this, decide_false]
      exact ih hn.2 hz

theorem receives_of_mem {conv : List Kind → List Loc} {names : List String} {declared : List Kind} {params : List (String × Kind)}
    (hn : (conv declared).Nodup) (hl : (conv (params.map Prod.snd)).length = params.length)
    (hm : ∀ z ∈ params.zip (conv (params.map Prod.snd)), z ∈ (names.zip declared).zip (conv declared)) :
    ReceivesAll conv names declared params := by
  intro V val
  unfold received
  have hnod : (((names.zip declared).zip (conv declared)).map Prod.snd).Nodup := by
    have : ∀ (A : List (String × Kind)) (B : List Loc), B.Nodup → ((A.zip B).map Prod.snd).Nodup := by
      intro A
      induction A with
      | nil => intro B _; simp
      | cons a A ih =>
        intro B hB
        cases B with
        | nil => simp
        | cons b B =>
          rw [List.nodup_cons] at hB
          simp only [List.zip_cons_cons, List.map_cons, List.nodup_cons]
          refine ⟨fun h => hB.1 ?_, ih B hB.2⟩
          obtain ⟨z, hz, rfl⟩ := List.mem_map.mp h
          exact (List.of_mem_zip hz).2
    exact this _ _ hn
  simp only
  have e : params.map (fun p => (p.1, p.2, some (p.2, val p.1))) =
      (params.zip (conv (params.map Prod.snd))).map (fun p => (p.1.1, p.1.2, some (p.1.2, val p.1.1))) := by
    have : params = (params.zip (conv (params.map Prod.snd))).map Prod.fst := by
      rw [List.map_fst_zip]; omega
    conv_lhs => rw [this]
    rw [List.map_map]; rfl
  rw [e]
  refine List.map_congr_left fun z hz => ?_
  rw [find_loc hnod (hm z hz)]
  rfl

end Verif.Proofs
