import Mathlib.Tactic.Positivity
import Verif.Model.RoundedTsp
import Verif.Spec.Rounding

/-! Programs whose rounded run equals the exact run, because all numbers that occur are small multiples of a unit. -/

namespace Verif.Proofs
open Verif Num Spec Model

variable {α β : Type} {r : ℚ → Num} {u : ℚ} {M : ℕ}

/-- If finite, a multiple of `u`, at most `c u` in magnitude. -/
def Small (u c : ℚ) (a : Num) : Prop := ∀ q, a = fin q → ∃ z : ℤ, q = z * u ∧ |(z : ℚ)| ≤ c

theorem Small.mono {c d : ℚ} {a : Num} (h : Small u c a) (hd : c ≤ d) : Small u d a := fun q hq => by
  obtain ⟨z, h1, h2⟩ := h q hq; exact ⟨z, h1, h2.trans hd⟩

theorem Small.zero {c : ℚ} (hc : 0 ≤ c) : Small u c 0 := fun q hq => ⟨0, by rw [zero_def, Num.fin.injEq] at hq; simp [← hq], by simpa using hc⟩

theorem Small.pinf {c : ℚ} : Small u c pinf := fun _ h => by cases h

theorem Small.neg {c : ℚ} {a : Num} (h : Small u c a) : Small u c (-a) := by
  cases a with
  | fin q =>
    intro p hp
    obtain ⟨z, h1, h2⟩ := h q rfl
    have e : -q = p := Num.fin.inj hp
    exact ⟨-z, by rw [← e, h1]; push_cast; ring, by push_cast; rwa [abs_neg]⟩
  | _ => intro p hp; cases hp

theorem Small.add {c d : ℚ} {a b : Num} (h : Small u c a) (h' : Small u d b) : Small u (c + d) (a + b) := by
  cases a with
  | fin q =>
    cases b with
    | fin p =>
      intro x hx
      obtain ⟨z, h1, h2⟩ := h q rfl
      obtain ⟨y, h3, h4⟩ := h' p rfl
      have e : q + p = x := Num.fin.inj hx
      exact ⟨z + y, by rw [← e, h1, h3]; push_cast; ring, by push_cast; exact (abs_add_le _ _).trans (add_le_add h2 h4)⟩
    | _ => intro p hp; cases hp
  | _ => cases b <;> (intro p hp; cases hp)

theorem Small.sub {c d : ℚ} {a b : Num} (h : Small u c a) (h' : Small u d b) : Small u (c + d) (a - b) := h.add h'.neg

theorem Small.cmin {c : ℚ} {a b : Num} (h : Small u c a) (h' : Small u c b) : Small u c (cmin a b) := by
  unfold Num.cmin; split
  · exact h'
  · exact h

theorem Small.sign {c : ℚ} {a : Num} (h : Small u c a) {z : ℤ} (hz : z = 1 ∨ z = -1) : Small u c (a * fin (z : ℚ)) := by
  cases a with
  | fin q =>
    intro p hp
    obtain ⟨y, h1, h2⟩ := h q rfl
    have e : q * z = p := Num.fin.inj hp
    refine ⟨y * z, by rw [← e, h1]; push_cast; ring, ?_⟩
    rcases hz with rfl | rfl
    · simpa using h2
    · simpa using h2
  | _ =>
    intro p hp
    rcases hz with rfl | rfl
    · simp only [Int.cast_one] at hp; cases hp
    · simp only [Int.cast_neg, Int.cast_one] at hp; cases hp

theorem Small.rn (hr : KeepsMultiples r u M) {c : ℚ} {a : Num} (h : Small u c a) (hc : c ≤ M) : Rounded.rn r a = a := by
  cases a with
  | fin q =>
    obtain ⟨z, h1, h2⟩ := h q rfl
    show r q = fin q
    rw [h1]
    refine hr z ?_
    have := h2.trans hc
    exact_mod_cast this
  | _ => rfl

/-- If the first computation returns, the second returns the same, and the result satisfies `P`. -/
def Same (P : α → Prop) (x y : Option α) : Prop := ∀ a, x = some a → y = some a ∧ P a

theorem Same.some {P : α → Prop} {a : α} (h : P a) : Same P (some a) (some a) := fun b hb => by
  obtain rfl := Option.some.inj hb; exact ⟨rfl, h⟩

theorem Same.none {P : α → Prop} {y : Option α} : Same P none y := fun _ h => by cases h

theorem Same.of {P : α → Prop} {x : Option α} (h : ∀ a, x = Option.some a → P a) : Same P x x := fun a ha => ⟨ha, h a ha⟩

theorem Same.mono {P Q : α → Prop} {x y : Option α} (h : Same P x y) (hq : ∀ a, P a → Q a) : Same Q x y := fun a ha => ⟨(h a ha).1, hq a (h a ha).2⟩

theorem Same.bind {P : α → Prop} {Q : β → Prop} {x y : Option α} {f g : α → Option β} (h : Same P x y) (hf : ∀ a, P a → Same Q (f a) (g a)) :
    Same Q (x.bind f) (y.bind g) := by
  intro b hb
  obtain ⟨a, ha, hfa⟩ := Option.bind_eq_some_iff.mp hb
  obtain ⟨h1, h2⟩ := h a ha
  rw [h1]
  exact hf a h2 b hfa

/-- Both sides read the same. -/
theorem Same.read {Q : β → Prop} {x : Option α} {f g : α → Option β} (hf : ∀ a, x = Option.some a → Same Q (f a) (g a)) :
    Same Q (x.bind f) (x.bind g) := by
  cases x with
  | none => exact fun _ h => by cases h
  | some a => exact hf a rfl

theorem Same.loopUp (P : ℕ → α → Prop) {n : ℕ} {f g : ℕ → α → Option α} {s : α} (h0 : P 0 s)
    (hf : ∀ k < n, ∀ a, P k a → Same (P (k + 1)) (f k a) (g k a)) : Same (P n) (Verif.loopUp n f s) (Verif.loopUp n g s) := by
  induction n with
  | zero => exact Same.some h0
  | succ n ih => exact (ih fun k hk => hf k (by omega)).bind fun a ha => hf n (by omega) a ha

theorem Same.loopDown (P : ℕ → α → Prop) {n : ℕ} {f g : ℕ → α → Option α} {s : α} (h0 : P n s)
    (hf : ∀ k < n, ∀ a, P (k + 1) a → Same (P k) (f k a) (g k a)) : Same (P 0) (Verif.loopDown n f s) (Verif.loopDown n g s) := by
  induction n generalizing s with
  | zero => exact Same.some h0
  | succ n ih => exact (hf n (by omega) s h0).bind fun a ha => ih ha fun k hk => hf k (by omega)

theorem Same.loopList (P : ℕ → α → Prop) {L : List β} {f g : β → α → Option α} {s : α} {i : ℕ} (h0 : P i s)
    (hf : ∀ c ∈ L, ∀ j < i + L.length, ∀ a, P j a → Same (P (j + 1)) (f c a) (g c a)) :
    Same (P (i + L.length)) (Verif.loopList L f s) (Verif.loopList L g s) := by
  induction L generalizing s i with
  | nil => exact Same.some h0
  | cons c L ih =>
    rw [List.length_cons] at hf
    have := (hf c (by simp) i (by omega) s h0).bind fun a ha => ih ha fun k hk j hj => hf k (List.mem_cons_of_mem _ hk) j (by omega)
    rw [List.length_cons, show i + (L.length + 1) = i + 1 + L.length by omega]
    exact this

theorem arr_rd {a : Arr α} {i : ℕ} {x : α} (h : a.rd i = some x) : i < a.size ∧ x = a.data i := by
  unfold Arr.rd at h
  split at h
  · next hi => exact ⟨hi, (Option.some.inj h).symm⟩
  · cases h

theorem mat_rd {a : Mat α} {i j : ℕ} {x : α} (h : a.rd i j = some x) : (i < a.rows ∧ j < a.cols) ∧ x = a.data i j := by
  unfold Mat.rd at h
  split at h
  · next hi => exact ⟨hi, (Option.some.inj h).symm⟩
  · cases h

theorem arr_wr {a b : Arr α} {i : ℕ} {x : α} (h : a.wr i x = some b) :
    i < a.size ∧ b.size = a.size ∧ b.data = fun k => if k = i then x else a.data k := by
  unfold Arr.wr at h
  split at h
  · next hi => rw [← Option.some.inj h]; exact ⟨hi, rfl, rfl⟩
  · cases h

theorem mat_wr {a b : Mat α} {i j : ℕ} {x : α} (h : a.wr i j x = some b) :
    (i < a.rows ∧ j < a.cols) ∧ b.rows = a.rows ∧ b.cols = a.cols ∧ b.data = fun k l => if k = i ∧ l = j then x else a.data k l := by
  unfold Mat.wr at h
  split at h
  · next hi => rw [← Option.some.inj h]; exact ⟨hi, rfl, rfl, rfl⟩
  · cases h

theorem mat_wrRow {a b : Mat α} {i : ℕ} {v : Arr α} (h : a.wrRow i v = some b) :
    b.rows = a.rows ∧ b.cols = a.cols ∧ b.data = fun k l => if k = i then v.data l else a.data k l := by
  unfold Mat.wrRow at h
  split at h
  · next hi => rw [← Option.some.inj h]; exact ⟨rfl, rfl, rfl⟩
  · cases h

end Verif.Proofs
