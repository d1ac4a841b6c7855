import Verif.Model.RoundedTsp
import Mathlib.Order.Filter.Basic

/-!
Comparing a computation with a family of computations that round: a relation between a number and a family of numbers that is kept by the
operations of the code is kept by whole programs.
-/

namespace Verif.Proofs
open Verif Num Filter

variable {ι : Type} {l : Filter ι} {α β γ α' β' γ' : Type}

/-- Operations with rounding `r i` keep the relation `R`. -/
structure Calc (l : Filter ι) (r : ι → ℚ → Num) (R : Num → (ι → Num) → Prop) : Prop where
  congr : ∀ {a b c}, R a b → (∀ᶠ i in l, b i = c i) → R a c
  zero : R 0 (fun _ => 0)
  pinf : R pinf (fun _ => pinf)
  neg : ∀ {a b}, R a b → R (-a) (fun i => -b i)
  cmin : ∀ {a b a' b'}, R a b → R a' b' → R (cmin a a') (fun i => cmin (b i) (b' i))
  add : ∀ {a b a' b'}, R a b → R a' b' → R (a + a') (fun i => Model.Rounded.rn (r i) (b i + b' i))
  ne : ∀ {a b}, R a b → ∀ {c}, a ≠ c → ∀ᶠ i in l, b i ≠ c

theorem Calc.sub {r : ι → ℚ → Num} {R : Num → (ι → Num) → Prop} (hR : Calc l r R) {a a' : Num} {b b' : ι → Num} (h : R a b) (h' : R a' b') :
    R (a - a') (fun i => Model.Rounded.rn (r i) (b i - b' i)) := hR.add h (hR.neg h')

/-- Damping with rate `alpha` keeps the relation. -/
def Damps (r : ι → ℚ → Num) (R : Num → (ι → Num) → Prop) (flag : Bool) (alpha : ℚ) : Prop :=
  flag = true → alpha ≠ 0 → ∀ a b, R a b → R (a * fin (1 - alpha)) (fun i => Model.Rounded.rn (r i) (b i * Model.Rounded.rn (r i) (fin (1 - alpha)))) ∧
    R (a * fin alpha) (fun i => Model.Rounded.rn (r i) (b i * fin alpha))

/-- Arrays of eventually the same size, related entry by entry. -/
structure RelArr (l : Filter ι) (R : α → (ι → β) → Prop) (a : Arr α) (b : ι → Arr β) : Prop where
  size : ∀ᶠ i in l, (b i).size = a.size
  data : ∀ k < a.size, R (a.data k) (fun i => (b i).data k)

structure RelMat (l : Filter ι) (R : α → (ι → β) → Prop) (a : Mat α) (b : ι → Mat β) : Prop where
  rows : ∀ᶠ i in l, (b i).rows = a.rows
  cols : ∀ᶠ i in l, (b i).cols = a.cols
  data : ∀ k < a.rows, ∀ j < a.cols, R (a.data k j) (fun i => (b i).data k j)

theorem RelArr.fill {R : Num → (ι → Num) → Prop} {a : Num} (h : R a (fun _ => a)) (n : ℕ) : RelArr l R (Arr.fill n a) (fun _ => Arr.fill n a) :=
  ⟨Eventually.of_forall fun _ => rfl, fun _ _ => h⟩

/-- Pairs related by components. -/
def RelP (R : α → (ι → β) → Prop) (S : α' → (ι → β') → Prop) (p : α × α') (q : ι → β × β') : Prop :=
  R p.1 (fun i => (q i).1) ∧ S p.2 (fun i => (q i).2)

/-- If the exact computation returns, the other computations eventually return, with results that tend to the exact one. -/
def RelO (l : Filter ι) (R : α → (ι → β) → Prop) (x : Option α) (y : ι → Option β) : Prop :=
  ∀ a, x = some a → ∃ b, (∀ᶠ i in l, y i = some (b i)) ∧ R a b

theorem RelO.some {R : α → (ι → β) → Prop} {a : α} {b : ι → β} (h : R a b) : RelO l R (some a) (fun i => some (b i)) := by
  intro c hc; obtain rfl := Option.some.inj hc; exact ⟨b, Eventually.of_forall fun _ => rfl, h⟩

theorem RelO.none {R : α → (ι → β) → Prop} {y : ι → Option β} : RelO l R none y := fun _ h => by cases h

theorem RelO.congr {R : α → (ι → β) → Prop} {x : Option α} {y z : ι → Option β} (h : RelO l R x y) (he : ∀ᶠ i in l, y i = z i) : RelO l R x z := by
  intro a ha
  obtain ⟨b, h1, h2⟩ := h a ha
  exact ⟨b, by filter_upwards [h1, he] with i e1 e2; rw [← e2, e1], h2⟩

theorem RelO.mono {R S : α → (ι → β) → Prop} {x : Option α} {y : ι → Option β} (h : RelO l R x y) (hs : ∀ a b, R a b → S a b) : RelO l S x y := by
  intro a ha
  obtain ⟨b, h1, h2⟩ := h a ha
  exact ⟨b, h1, hs a b h2⟩

theorem RelO.bind {R : α → (ι → β) → Prop} {S : α' → (ι → β') → Prop} {x : Option α} {y : ι → Option β} {f : α → Option α'} {g : ι → β → Option β'}
    (h : RelO l R x y) (hf : ∀ a b, x = Option.some a → R a b → RelO l S (f a) (fun i => g i (b i))) :
    RelO l S (x.bind f) (fun i => (y i).bind (g i)) := by
  intro c hc
  obtain ⟨a, ha, hfa⟩ := Option.bind_eq_some_iff.mp hc
  obtain ⟨b, h1, h2⟩ := h a ha
  obtain ⟨d, h3, h4⟩ := hf a b ha h2 c hfa
  exact ⟨d, by filter_upwards [h1, h3] with i e1 e2; rw [e1]; exact e2, h4⟩

/-- Both sides read the same. -/
theorem RelO.bind_same {S : α' → (ι → β') → Prop} {x : Option α} {f : α → Option α'} {g : ι → α → Option β'}
    (hf : ∀ a, x = Option.some a → RelO l S (f a) (fun i => g i a)) : RelO l S (x.bind f) (fun i => x.bind (g i)) := by
  cases x with
  | none => exact fun _ h => by cases h
  | some a => exact hf a rfl

theorem RelO.loopUp {R : α → (ι → β) → Prop} {n : ℕ} {f : ℕ → α → Option α} {g : ι → ℕ → β → Option β} {s : α} {t : ι → β} (h0 : R s t)
    (hf : ∀ k < n, ∀ a b, R a b → RelO l R (f k a) (fun i => g i k (b i))) : RelO l R (loopUp n f s) (fun i => Verif.loopUp n (g i) (t i)) := by
  induction n with
  | zero => exact RelO.some h0
  | succ n ih => exact (ih fun k hk => hf k (by omega)).bind fun a b _ hab => hf n (by omega) a b hab

theorem RelO.loopDown {R : α → (ι → β) → Prop} {n : ℕ} {f : ℕ → α → Option α} {g : ι → ℕ → β → Option β} {s : α} {t : ι → β} (h0 : R s t)
    (hf : ∀ k < n, ∀ a b, R a b → RelO l R (f k a) (fun i => g i k (b i))) : RelO l R (loopDown n f s) (fun i => Verif.loopDown n (g i) (t i)) := by
  induction n generalizing s t with
  | zero => exact RelO.some h0
  | succ n ih => exact (hf n (by omega) s t h0).bind fun a b _ hab => ih hab fun k hk => hf k (by omega)

theorem RelO.loopList {R : α → (ι → β) → Prop} {L : List γ} {f : γ → α → Option α} {g : ι → γ → β → Option β} {s : α} {t : ι → β} (h0 : R s t)
    (hf : ∀ c ∈ L, ∀ a b, R a b → RelO l R (f c a) (fun i => g i c (b i))) : RelO l R (loopList L f s) (fun i => Verif.loopList L (g i) (t i)) := by
  induction L generalizing s t with
  | nil => exact RelO.some h0
  | cons c L ih => exact (hf c (by simp) s t h0).bind fun a b _ hab => ih hab fun k hk => hf k (List.mem_cons_of_mem _ hk)

theorem RelO.loopUp' {R : α → (ι → β) → Prop} {n : ℕ} {N : ι → ℕ} {f : ℕ → α → Option α} {g : ι → ℕ → β → Option β} {s : α} {t : ι → β}
    (hn : ∀ᶠ i in l, N i = n) (h0 : R s t) (hf : ∀ k < n, ∀ a b, R a b → RelO l R (f k a) (fun i => g i k (b i))) :
    RelO l R (Verif.loopUp n f s) (fun i => Verif.loopUp (N i) (g i) (t i)) :=
  (RelO.loopUp h0 hf).congr (by filter_upwards [hn] with i e; rw [e])

section
variable {r : ι → ℚ → Num} {R : Num → (ι → Num) → Prop} {a : Arr Num} {b : ι → Arr Num} {m : Mat Num} {u : ι → Mat Num}

theorem RelArr.rd (h : RelArr l R a b) (k : ℕ) : RelO l R (a.rd k) (fun i => (b i).rd k) := by
  intro v hv
  unfold Arr.rd at hv
  split at hv
  · next hk =>
    obtain rfl := Option.some.inj hv
    exact ⟨_, by filter_upwards [h.size] with i e; exact Arr.rd_of_lt (by rw [e]; exact hk), h.data k hk⟩
  · cases hv

theorem RelArr.wr (h : RelArr l R a b) (k : ℕ) {v : Num} {w : ι → Num} (hv : R v w) : RelO l (RelArr l R) (a.wr k v) (fun i => (b i).wr k (w i)) := by
  intro c hc
  unfold Arr.wr at hc
  split at hc
  · next hk =>
    obtain rfl := Option.some.inj hc
    refine ⟨fun i => ⟨(b i).size, fun j => if j = k then w i else (b i).data j⟩, ?_, h.size, fun j hjs => ?_⟩
    · filter_upwards [h.size] with i e; exact Arr.wr_of_lt (by rw [e]; exact hk)
    · by_cases hj : j = k
      · simp only [if_pos hj]; exact hv
      · simp only [if_neg hj]; exact h.data j hjs
  · cases hc

theorem RelMat.rd (h : RelMat l R m u) (k j : ℕ) : RelO l R (m.rd k j) (fun i => (u i).rd k j) := by
  intro v hv
  unfold Mat.rd at hv
  split at hv
  · next hk =>
    obtain rfl := Option.some.inj hv
    exact ⟨_, by filter_upwards [h.rows, h.cols] with i e1 e2; exact Mat.rd_of_lt (by rw [e1]; exact hk.1) (by rw [e2]; exact hk.2), h.data k hk.1 j hk.2⟩
  · cases hv

theorem RelMat.wr (h : RelMat l R m u) (k j : ℕ) {v : Num} {w : ι → Num} (hv : R v w) :
    RelO l (RelMat l R) (m.wr k j v) (fun i => (u i).wr k j (w i)) := by
  intro c hc
  unfold Mat.wr at hc
  split at hc
  · next hk =>
    obtain rfl := Option.some.inj hc
    refine ⟨fun i => ⟨(u i).rows, (u i).cols, fun x y => if x = k ∧ y = j then w i else (u i).data x y⟩, ?_, h.rows, h.cols, fun x hx y hy => ?_⟩
    · filter_upwards [h.rows, h.cols] with i e1 e2; exact Mat.wr_of_lt (by rw [e1]; exact hk.1) (by rw [e2]; exact hk.2)
    · by_cases hj : x = k ∧ y = j
      · simp only [if_pos hj]; exact hv
      · simp only [if_neg hj]; exact h.data x hx y hy
  · cases hc

theorem RelMat.rdRow (h : RelMat l R m u) (k : ℕ) : RelO l (RelArr l R) (m.rdRow k) (fun i => (u i).rdRow k) := by
  intro v hv
  unfold Mat.rdRow at hv
  split at hv
  · next hk =>
    obtain rfl := Option.some.inj hv
    exact ⟨_, by filter_upwards [h.rows] with i e; exact Mat.rdRow_of_lt (by rw [e]; exact hk), h.cols, h.data k hk⟩
  · cases hv

theorem RelMat.wrRow (h : RelMat l R m u) (k : ℕ) (hv : RelArr l R a b) : RelO l (RelMat l R) (m.wrRow k a) (fun i => (u i).wrRow k (b i)) := by
  intro c hc
  unfold Mat.wrRow at hc
  split at hc
  · next hk =>
    obtain rfl := Option.some.inj hc
    refine ⟨fun i => ⟨(u i).rows, (u i).cols, fun x y => if x = k then (b i).data y else (u i).data x y⟩, ?_, h.rows, h.cols, fun x hx y hy => ?_⟩
    · filter_upwards [h.rows, h.cols, hv.size] with i e1 e2 e3
      exact Mat.wrRow_of_lt (by rw [e1]; exact hk.1) (by rw [e2, e3]; exact hk.2)
    · by_cases hj : x = k
      · simp only [if_pos hj]; exact hv.data y (by rw [hk.2]; exact hy)
      · simp only [if_neg hj]; exact h.data x hx y hy
  · cases hc

variable (hR : Calc l r R)
include hR

theorem RelMat.pushRow (h : RelMat l R m u) (hv : RelArr l R a b) : RelO l (RelMat l R) (m.pushRow a) (fun i => (u i).pushRow (b i)) := by
  intro c hc
  unfold Mat.pushRow at hc
  split at hc
  · next hk =>
    obtain rfl := Option.some.inj hc
    refine ⟨fun i => ⟨(u i).rows + 1, (u i).cols, fun x y => if x = (u i).rows then (b i).data y else (u i).data x y⟩, ?_, ?_, h.cols, fun x hx y hy => ?_⟩
    · filter_upwards [h.cols, hv.size] with i e1 e2
      exact if_pos (by rw [e1, e2]; exact hk)
    · filter_upwards [h.rows] with i e; simp only [e]
    · simp only at hx hy
      by_cases hx' : x = m.rows
      · simp only [if_pos hx']
        refine hR.congr (hv.data y (by rw [hk]; exact hy)) ?_
        filter_upwards [h.rows] with i e; rw [if_pos (by rw [e]; exact hx')]
      · simp only [if_neg hx']
        refine hR.congr (h.data x (by omega) y hy) ?_
        filter_upwards [h.rows] with i e; rw [if_neg (by rw [e]; exact hx')]
  · cases hc

theorem RelArr.copyTo {a' : Arr Num} {b' : ι → Arr Num} (h : RelArr l R a b) (h' : RelArr l R a' b') :
    RelO l (RelArr l R) (a.copyTo a') (fun i => (b i).copyTo (b' i)) := by
  intro c hc
  unfold Arr.copyTo at hc
  split at hc
  · next hk =>
    obtain rfl := Option.some.inj hc
    refine ⟨fun i => ⟨(b' i).size, fun j => if j < (b i).size then (b i).data j else (b' i).data j⟩, ?_, h'.size, fun j hjs => ?_⟩
    · filter_upwards [h.size, h'.size] with i e1 e2
      exact if_pos (by rw [e1, e2]; exact hk)
    · by_cases hj : j < a.size
      · simp only [if_pos hj]
        refine hR.congr (h.data j hj) ?_
        filter_upwards [h.size] with i e; rw [if_pos (by rw [e]; exact hj)]
      · simp only [if_neg hj]
        refine hR.congr (h'.data j hjs) ?_
        filter_upwards [h.size] with i e; rw [if_neg (by rw [e]; exact hj)]
  · cases hc

theorem RelArr.addTo {a' a'' : Arr Num} {b' b'' : ι → Arr Num} (h : RelArr l R a b) (h' : RelArr l R a' b') (h'' : RelArr l R a'' b'') :
    RelO l (RelArr l R) (a.addTo a' a'') (fun i => Model.Rounded.addTo (r i) (b i) (b' i) (b'' i)) := by
  intro c hc
  unfold Arr.addTo at hc
  split at hc
  · next hk =>
    obtain rfl := Option.some.inj hc
    refine ⟨fun i => ⟨(b'' i).size, fun j => if j < (b i).size then Model.Rounded.rn (r i) ((b i).data j + (b' i).data j) else (b'' i).data j⟩, ?_,
      h''.size, fun j hjs => ?_⟩
    · filter_upwards [h.size, h'.size, h''.size] with i e1 e2 e3
      exact if_pos (by rw [e1, e2, e3]; exact hk)
    · by_cases hj : j < a.size
      · simp only [if_pos hj]
        refine hR.congr (hR.add (h.data j hj) (h'.data j (by omega))) ?_
        filter_upwards [h.size] with i e; rw [if_pos (by rw [e]; exact hj)]
      · simp only [if_neg hj]
        refine hR.congr (h''.data j hjs) ?_
        filter_upwards [h.size] with i e; rw [if_neg (by rw [e]; exact hj)]
  · cases hc

end

end Verif.Proofs
