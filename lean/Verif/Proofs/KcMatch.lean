import Verif.Model.KcPost
import Verif.Spec.KcPost
import Mathlib.Algebra.BigOperators.Ring.Finset
import Mathlib.Algebra.Order.BigOperators.Group.Finset
import Mathlib.Tactic.NormNum

/-! Helper lemmas for the decision of the assignment solver. -/

namespace Verif.Proofs
open Verif Model Spec Num

theorem mem_matchedPairs {p : Mat Num} {c : ℕ × ℕ} :
    c ∈ matchedPairs p ↔ c.1 < p.rows ∧ c.2 < p.cols ∧ p.data c.1 c.2 = fin 1 := by
  obtain ⟨i, j⟩ := c
  unfold matchedPairs
  simp only [List.mem_flatMap, List.mem_map, List.mem_filter, List.mem_range, Prod.mk.injEq, decide_eq_true_eq]
  constructor
  · rintro ⟨a, ha, b, ⟨hb, h⟩, rfl, rfl⟩; exact ⟨ha, hb, h⟩
  · rintro ⟨h1, h2, h3⟩; exact ⟨i, h1, j, ⟨h2, h3⟩, rfl, rfl⟩

theorem fin_inj {a b : ℚ} : fin a = fin b ↔ a = b := ⟨fun h => by injection h, fun h => by rw [h]⟩

theorem decideEntry_nonpos {q : ℚ} (hq : q ≤ 0) (x : Num) : decideEntry (fin q) x = fin 1 ↔ lt x (fin q) = true := by
  unfold decideEntry gt
  cases x with
  | nan => simp [lt]
  | ninf => simp [lt]
  | pinf =>
    have : ¬ (0 : ℚ) < q := not_lt.mpr hq
    simp [lt, zero_def, this, fin_inj]
  | fin a =>
    simp only [lt_fin, decide_eq_true_eq]
    by_cases h1 : q < a
    · have : ¬ (0 : ℚ) < q := not_lt.mpr hq
      simp [h1, zero_def, this, fin_inj, h1.le]
    · simp only [h1, if_false, lt_fin, decide_eq_true_eq]
      by_cases h2 : a < q
      · simp [h2]
      · have : a = q := le_antisymm (not_lt.mp h1) (not_lt.mp h2)
        subst this
        simp [fin_inj]; linarith

theorem decideEntry_pos {q : ℚ} (hq : 0 < q) (x : Num) : decideEntry (fin q) x = fin 1 ↔ x ≠ nan ∧ (x ≠ fin q ∨ q = 1) := by
  unfold decideEntry gt
  cases x with
  | nan => simp [lt]
  | ninf => simp [lt]
  | pinf => simp [lt, zero_def, hq]
  | fin a =>
    simp only [lt_fin, decide_eq_true_eq]
    by_cases h1 : q < a
    · simp [h1, zero_def, hq, fin_inj, h1.ne']
    · simp only [h1, if_false, lt_fin, decide_eq_true_eq]
      by_cases h2 : a < q
      · simp [h2, fin_inj, h2.ne]
      · have : a = q := le_antisymm (not_lt.mp h1) (not_lt.mp h2)
        subst this
        simp [fin_inj]

/-- With a nonpositive threshold and no belief on a negative threshold, the decision is 1 or 0. -/
theorem decideEntry_bit {q x : ℚ} (hq : q ≤ 0) (h : q = 0 ∨ x ≠ q) :
    decideEntry (fin q) (fin x) = fin (if x < q then 1 else 0) := by
  by_cases hx : x < q
  · rw [if_pos hx]; exact (decideEntry_nonpos hq _).mpr (by simpa using hx)
  · rw [if_neg hx]
    unfold decideEntry gt
    simp only [lt_fin, decide_eq_true_eq]
    by_cases h1 : q < x
    · rw [if_pos h1, zero_def, lt_fin, if_neg (by simpa using hq)]
    · have : x = q := le_antisymm (not_lt.mp h1) (not_lt.mp hx)
      rw [if_neg h1, lt_fin, if_neg (by simpa using hx)]
      rcases h with h | h
      · rw [this, h]
      · exact absurd this h

theorem foldl_bits {l : ℕ} {x : ℕ → Num} {b : ℕ → ℕ} (h : ∀ j < l, x j = fin (b j)) :
    (List.range l).foldl (fun s j => s + x j) 0 = fin ((∑ j ∈ Finset.range l, b j : ℕ) : ℚ) := by
  induction l with
  | zero => simp [zero_def]
  | succ l ih =>
    rw [List.range_succ, List.foldl_append, ih (fun j hj => h j (by omega)), Finset.sum_range_succ]
    simp [h l (by omega)]

theorem sumsAreOnes_iff {n m l : ℕ} {x : ℕ → ℕ → Num} {b : ℕ → ℕ → ℕ} (h : ∀ i < m, ∀ j < l, x i j = fin (b i j)) :
    sumsAreOnes n m l x = true ↔ m = n ∧ ∀ i < m, ∑ j ∈ Finset.range l, b i j = 1 := by
  unfold sumsAreOnes
  simp only [Bool.and_eq_true, beq_iff_eq, List.all_eq_true, List.mem_range, decide_eq_true_eq]
  refine and_congr_right fun _ => forall_congr' fun i => imp_congr_right fun hi => ?_
  rw [foldl_bits (h i hi), fin_inj]
  exact_mod_cast Iff.rfl

theorem sum_getD {g : ℕ → ℕ} : ∀ L : List ℕ, ∑ j ∈ Finset.range L.length, g (L.getD j 0) = (L.map g).sum
  | [] => by simp
  | a :: L => by
    rw [List.length_cons, Finset.sum_range_succ', List.map_cons, List.sum_cons, ← sum_getD L, add_comm]
    simp

theorem sum_filter_range {g : ℕ → ℕ} {p : ℕ → Bool} (n : ℕ) (h : ∀ j < n, p j = false → g j = 0) :
    (((List.range n).filter p).map g).sum = ∑ j ∈ Finset.range n, g j := by
  induction n with
  | zero => simp
  | succ n ih =>
    rw [List.range_succ, List.filter_append, List.map_append, List.sum_append, ih (fun j hj => h j (by omega)), Finset.sum_range_succ]
    congr 1
    by_cases hp : p n = true
    · simp [hp]
    · rw [Bool.not_eq_true] at hp
      simp [hp, h n (by omega) hp]

theorem length_filter_range {p : ℕ → Bool} (n : ℕ) : ((List.range n).filter p).length = ((Finset.range n).filter (fun j => p j = true)).card := by
  induction n with
  | zero => simp
  | succ n ih =>
    rw [List.range_succ, List.filter_append, List.length_append, ih, Finset.range_add_one, Finset.filter_insert]
    by_cases hp : p n = true
    · rw [if_pos hp, Finset.card_insert_of_notMem (by simp)]; simp [hp]
    · rw [if_neg hp]; simp [hp]

/-- 1 for a chosen pair. -/
def bit (M : ℕ → ℕ → Bool) (i j : ℕ) : ℕ := if M i j = true then 1 else 0

theorem rowSum {P T : ℕ} {M : ℕ → ℕ → Bool} {i : ℕ} (hi : i < P) :
    ∑ j ∈ Finset.range T, bit M i j = ((chosen P T M).filter (fun c => c.1 = i)).card := by
  unfold bit
  rw [Finset.sum_boole, Nat.cast_id]
  refine Finset.card_bij (fun j _ => (i, j)) ?_ ?_ ?_
  · intro j hj
    simp only [Finset.mem_filter, Finset.mem_range] at hj
    simp [chosen, hi, hj.1, hj.2]
  · intro a _ b _ h; simpa using h
  · rintro ⟨a, b⟩ hab
    simp only [chosen, Finset.mem_filter, Finset.mem_product, Finset.mem_range] at hab
    obtain ⟨⟨⟨h1, h2⟩, h3⟩, rfl⟩ := hab
    exact ⟨b, by simp [h2, h3], rfl⟩

theorem colSum {P T : ℕ} {M : ℕ → ℕ → Bool} {j : ℕ} (hj : j < T) :
    ∑ i ∈ Finset.range P, bit M i j = ((chosen P T M).filter (fun c => c.2 = j)).card := by
  unfold bit
  rw [Finset.sum_boole, Nat.cast_id]
  refine Finset.card_bij (fun i _ => (i, j)) ?_ ?_ ?_
  · intro i hi
    simp only [Finset.mem_filter, Finset.mem_range] at hi
    simp [chosen, hj, hi.1, hi.2]
  · intro a _ b _ h; simpa using h
  · rintro ⟨a, b⟩ hab
    simp only [chosen, Finset.mem_filter, Finset.mem_product, Finset.mem_range] at hab
    obtain ⟨⟨⟨h1, h2⟩, h3⟩, rfl⟩ := hab
    exact ⟨a, by simp [h1, h3], rfl⟩

/-- Sets of pairs whose projections `f` have exactly `n` values, each once, are those with `n` elements and `f` injective. -/
theorem fibres {S : Finset (ℕ × ℕ)} {f : ℕ × ℕ → ℕ} {N n : ℕ} (hf : ∀ c ∈ S, f c < N) :
    (((Finset.range N).filter (fun k => (S.filter (fun c => f c = k)).card ≠ 0)).card = n ∧
      ∀ k < N, (S.filter (fun c => f c = k)).card ≠ 0 → (S.filter (fun c => f c = k)).card = 1) ↔
    S.card = n ∧ ∀ a ∈ S, ∀ b ∈ S, f a = f b → a = b := by
  have himg : (Finset.range N).filter (fun k => (S.filter (fun c => f c = k)).card ≠ 0) = S.image f := by
    ext k
    simp only [Finset.mem_filter, Finset.mem_range, ne_eq, Finset.card_eq_zero, ← Finset.nonempty_iff_ne_empty, Finset.mem_image]
    constructor
    · rintro ⟨_, c, hc⟩; exact ⟨c, (Finset.mem_filter.mp hc).1, (Finset.mem_filter.mp hc).2⟩
    · rintro ⟨c, hc, rfl⟩; exact ⟨hf c hc, c, Finset.mem_filter.mpr ⟨hc, rfl⟩⟩
  rw [himg]
  have hinj : (∀ k < N, (S.filter (fun c => f c = k)).card ≠ 0 → (S.filter (fun c => f c = k)).card = 1) ↔
      ∀ a ∈ S, ∀ b ∈ S, f a = f b → a = b := by
    constructor
    · intro h a ha b hb hab
      have h1 := h (f a) (hf a ha) (by
        rw [ne_eq, Finset.card_eq_zero, ← ne_eq, ← Finset.nonempty_iff_ne_empty]
        exact ⟨a, Finset.mem_filter.mpr ⟨ha, rfl⟩⟩)
      obtain ⟨c, hc⟩ := Finset.card_eq_one.mp h1
      have e1 : a ∈ ({c} : Finset (ℕ × ℕ)) := hc ▸ Finset.mem_filter.mpr ⟨ha, rfl⟩
      have e2 : b ∈ ({c} : Finset (ℕ × ℕ)) := hc ▸ Finset.mem_filter.mpr ⟨hb, hab.symm⟩
      rw [Finset.mem_singleton] at e1 e2
      rw [e1, e2]
    · intro h k _ hk
      refine le_antisymm (Finset.card_le_one.mpr fun a ha b hb => ?_) (Nat.one_le_iff_ne_zero.mpr hk)
      rw [Finset.mem_filter] at ha hb
      exact h a ha.1 b hb.1 (ha.2.trans hb.2.symm)
  rw [hinj]
  refine and_congr_left fun h => ?_
  rw [Finset.card_image_of_injOn (fun a ha b hb hab => h a ha b hb hab)]

theorem all_filter {n m : ℕ} {g : ℕ → ℕ} (hnm : m = n) :
    (∀ k < m, g k = 1) ↔ ((Finset.range m).filter (fun k => g k ≠ 0)).card = n ∧ ∀ k < m, g k ≠ 0 → g k = 1 := by
  subst hnm
  constructor
  · intro h
    refine ⟨?_, fun k hk _ => h k hk⟩
    rw [Finset.filter_true_of_mem (fun k hk => by rw [h k (Finset.mem_range.mp hk)]; exact one_ne_zero), Finset.card_range]
  · rintro ⟨h1, h2⟩ k hk
    refine h2 k hk ?_
    have : (Finset.range m).filter (fun k => g k ≠ 0) = Finset.range m :=
      Finset.eq_of_subset_of_card_le (Finset.filter_subset _ _) (by rw [h1, Finset.card_range])
    have hm : k ∈ (Finset.range m).filter (fun k => g k ≠ 0) := by rw [this]; exact Finset.mem_range.mpr hk
    exact (Finset.mem_filter.mp hm).2

theorem getD_filter {n : ℕ} {p : ℕ → Bool} {k : ℕ} (hk : k < ((List.range n).filter p).length) :
    ((List.range n).filter p).getD k 0 < n ∧ p (((List.range n).filter p).getD k 0) = true := by
  have : ((List.range n).filter p).getD k 0 ∈ (List.range n).filter p := by
    rw [List.getD_eq_getElem?_getD, List.getElem?_eq_getElem hk]; exact List.getElem_mem hk
  rw [List.mem_filter, List.mem_range] at this
  exact this

theorem forall_getD {n : ℕ} {p : ℕ → Bool} {Q : ℕ → Prop} :
    (∀ k < ((List.range n).filter p).length, Q (((List.range n).filter p).getD k 0)) ↔ ∀ j < n, p j = true → Q j := by
  constructor
  · intro h j hj hp
    have hm : j ∈ (List.range n).filter p := List.mem_filter.mpr ⟨List.mem_range.mpr hj, hp⟩
    obtain ⟨k, hk, e⟩ := List.mem_iff_getElem.mp hm
    have := h k hk
    rwa [List.getD_eq_getElem?_getD, List.getElem?_eq_getElem hk, Option.getD_some, e] at this
  · intro h k hk
    exact h _ (getD_filter hk).1 (getD_filter hk).2

theorem validMatch_iff {P T : ℕ} {a : Mat Num} {x : ℕ → ℕ → ℚ} (ha : a.Is P T x) {q : ℚ} (hq : q ≤ 0)
    (hne : q = 0 ∨ ∀ i < P, ∀ j < T, x i j ≠ q) :
    validMatch (fin q) a = true ↔ IsMatching P T (fun i j => decide (x i j < q)) ∧
      (chosen P T (fun i j => decide (x i j < q))).card = min P T := by
  obtain ⟨hr, hc, hx⟩ := ha
  set M : ℕ → ℕ → Bool := fun i j => decide (x i j < q) with hM
  have hp : ∀ i < P, ∀ j < T, (decisionMatrix (fin q) a).data i j = fin (bit M i j : ℕ) := by
    intro i hi j hj
    change decideEntry (fin q) (a.data i j) = _
    rw [hx i hi j hj, decideEntry_bit hq (hne.imp id (fun h => h i hi j hj))]
    unfold bit
    simp only [hM, decide_eq_true_eq]
    split_ifs <;> simp
  -- the two conditions, in terms of the fibres
  have key : IsMatching P T M ∧ (chosen P T M).card = min P T ↔
      ((((Finset.range T).filter (fun j => (∑ i ∈ Finset.range P, bit M i j) ≠ 0)).card = min P T ∧
        ∀ j < T, (∑ i ∈ Finset.range P, bit M i j) ≠ 0 → ∑ i ∈ Finset.range P, bit M i j = 1) ∧
      (((Finset.range P).filter (fun i => (∑ j ∈ Finset.range T, bit M i j) ≠ 0)).card = min P T ∧
        ∀ i < P, (∑ j ∈ Finset.range T, bit M i j) ≠ 0 → ∑ j ∈ Finset.range T, bit M i j = 1)) := by
    have h1 := fibres (S := chosen P T M) (f := Prod.fst) (N := P) (n := min P T)
      (fun c hc => by simp only [chosen, Finset.mem_filter, Finset.mem_product, Finset.mem_range] at hc; exact hc.1.1)
    have h2 := fibres (S := chosen P T M) (f := Prod.snd) (N := T) (n := min P T)
      (fun c hc => by simp only [chosen, Finset.mem_filter, Finset.mem_product, Finset.mem_range] at hc; exact hc.1.2)
    have e1 : (Finset.range P).filter (fun i => (∑ j ∈ Finset.range T, bit M i j) ≠ 0) =
        (Finset.range P).filter (fun i => ((chosen P T M).filter (fun c => c.1 = i)).card ≠ 0) :=
      Finset.filter_congr (fun i hi => by rw [rowSum (Finset.mem_range.mp hi)])
    have e2 : (Finset.range T).filter (fun j => (∑ i ∈ Finset.range P, bit M i j) ≠ 0) =
        (Finset.range T).filter (fun j => ((chosen P T M).filter (fun c => c.2 = j)).card ≠ 0) :=
      Finset.filter_congr (fun j hj => by rw [colSum (Finset.mem_range.mp hj)])
    have g1 : (∀ i < P, (∑ j ∈ Finset.range T, bit M i j) ≠ 0 → ∑ j ∈ Finset.range T, bit M i j = 1) ↔
        ∀ i < P, ((chosen P T M).filter (fun c => c.1 = i)).card ≠ 0 → ((chosen P T M).filter (fun c => c.1 = i)).card = 1 :=
      forall_congr' fun i => imp_congr_right fun hi => by rw [rowSum hi]
    have g2 : (∀ j < T, (∑ i ∈ Finset.range P, bit M i j) ≠ 0 → ∑ i ∈ Finset.range P, bit M i j = 1) ↔
        ∀ j < T, ((chosen P T M).filter (fun c => c.2 = j)).card ≠ 0 → ((chosen P T M).filter (fun c => c.2 = j)).card = 1 :=
      forall_congr' fun j => imp_congr_right fun hj => by rw [colSum hj]
    rw [e1, e2, g1, g2, h1, h2]
    unfold IsMatching
    tauto
  rw [key]
  unfold validMatch
  simp only [hr, hc]
  by_cases hPT : P = T
  · subst hPT
    simp only [ne_eq, not_true_eq_false, if_false, min_self]
    rw [Bool.and_eq_true, sumsAreOnes_iff (b := fun j i => bit M i j), sumsAreOnes_iff (b := bit M)]
    · have r1 : (decisionMatrix (fin q) a).rows = P := hr
      have r2 : (decisionMatrix (fin q) a).cols = P := hc
      rw [r1, r2, all_filter rfl, all_filter rfl]
      simp
    · intro i hi j hj; exact hp i (by rw [← hr]; exact hi) j (by rw [← hc]; exact hj)
    · intro j hj i hi; exact hp i (by rw [← hr]; exact hi) j (by rw [← hc]; exact hj)
  · rw [if_pos hPT]
    have r1 : (decisionMatrix (fin q) a).rows = P := hr
    have r2 : (decisionMatrix (fin q) a).cols = T := hc
    set D := decisionMatrix (fin q) a with hD
    set pc : ℕ → Bool := fun j => !(List.range P).all (fun i => D.data i j = 0) with hpc
    set C := (List.range T).filter pc with hC
    set pr : ℕ → Bool := fun i => !C.all (fun j => D.data i j = 0) with hpr
    set R := (List.range P).filter pr with hR
    have zero_iff : ∀ i < P, ∀ j < T, D.data i j = 0 ↔ bit M i j = 0 := by
      intro i hi j hj; rw [hp i hi j hj, zero_def, fin_inj]; exact_mod_cast Iff.rfl
    have pc_iff : ∀ j < T, pc j = true ↔ (∑ i ∈ Finset.range P, bit M i j) ≠ 0 := by
      intro j hj
      simp only [hpc, Bool.not_eq_true', ← Bool.not_eq_true, List.all_eq_true, List.mem_range, decide_eq_true_eq, ne_eq,
        Finset.sum_eq_zero_iff, Finset.mem_range]
      exact not_congr (forall_congr' fun i => imp_congr_right fun hi => zero_iff i hi j hj)
    have hCmem : ∀ j, j ∈ C ↔ j < T ∧ pc j = true := by intro j; rw [hC, List.mem_filter, List.mem_range]
    have pr_iff : ∀ i < P, pr i = true ↔ (∑ j ∈ Finset.range T, bit M i j) ≠ 0 := by
      intro i hi
      simp only [hpr, Bool.not_eq_true', ← Bool.not_eq_true, List.all_eq_true, decide_eq_true_eq, ne_eq,
        Finset.sum_eq_zero_iff, Finset.mem_range]
      refine not_congr ⟨fun h j hj => ?_, fun h j hj => ?_⟩
      · by_contra hb
        refine hb ((zero_iff i hi j hj).mp (h j ((hCmem j).mpr ⟨hj, (pc_iff j hj).mpr fun h0 => hb ?_⟩)))
        exact Finset.sum_eq_zero_iff.mp h0 i (Finset.mem_range.mpr hi)
      · exact (zero_iff i hi j ((hCmem j).mp hj).1).mpr (h j ((hCmem j).mp hj).1)
    have hq' : dropZeros D = ⟨R.length, C.length, fun i j => D.data (R.getD i 0) (C.getD j 0)⟩ := by
      unfold dropZeros; simp only [r1, r2]; rfl
    rw [hq']
    simp only
    rw [Bool.and_eq_true, sumsAreOnes_iff (b := fun j i => bit M (R.getD i 0) (C.getD j 0)),
      sumsAreOnes_iff (b := fun i j => bit M (R.getD i 0) (C.getD j 0))]
    · have s1 : ∀ j, j < T → ∑ i ∈ Finset.range R.length, bit M (R.getD i 0) j = ∑ i ∈ Finset.range P, bit M i j := by
        intro j hj
        rw [sum_getD (g := fun i => bit M i j), hR, sum_filter_range]
        intro i hi hpi
        by_contra hb
        have : pr i = true := (pr_iff i hi).mpr (fun h0 => hb (Finset.sum_eq_zero_iff.mp h0 j (Finset.mem_range.mpr hj)))
        rw [hpi] at this; exact Bool.noConfusion this
      have s2 : ∀ i, i < P → ∑ j ∈ Finset.range C.length, bit M i (C.getD j 0) = ∑ j ∈ Finset.range T, bit M i j := by
        intro i hi
        rw [sum_getD (g := fun j => bit M i j), hC, sum_filter_range]
        intro j hj hpj
        by_contra hb
        have : pc j = true := (pc_iff j hj).mpr (fun h0 => hb (Finset.sum_eq_zero_iff.mp h0 i (Finset.mem_range.mpr hi)))
        rw [hpj] at this; exact Bool.noConfusion this
      have t1 := forall_getD (n := T) (p := pc) (Q := fun j => ∑ i ∈ Finset.range R.length, bit M (R.getD i 0) j = 1)
      have t2 := forall_getD (n := P) (p := pr) (Q := fun i => ∑ j ∈ Finset.range C.length, bit M i (C.getD j 0) = 1)
      rw [← hC] at t1
      rw [← hR] at t2
      rw [t1, t2]
      have u1 : C.length = ((Finset.range T).filter (fun j => (∑ i ∈ Finset.range P, bit M i j) ≠ 0)).card := by
        rw [hC, length_filter_range]
        exact congrArg _ (Finset.filter_congr fun j hj => pc_iff j (Finset.mem_range.mp hj))
      have u2 : R.length = ((Finset.range P).filter (fun i => (∑ j ∈ Finset.range T, bit M i j) ≠ 0)).card := by
        rw [hR, length_filter_range]
        exact congrArg _ (Finset.filter_congr fun i hi => pr_iff i (Finset.mem_range.mp hi))
      rw [u1, u2]
      refine and_congr (and_congr_right fun _ => forall_congr' fun j => imp_congr_right fun hj => ?_)
        (and_congr_right fun _ => forall_congr' fun i => imp_congr_right fun hi => ?_)
      · rw [pc_iff j hj, ← u2, s1 j hj]
      · rw [pr_iff i hi, ← u1, s2 i hi]
    · intro i hi j hj; exact hp _ (getD_filter hi).1 _ (getD_filter hj).1
    · intro j hj i hi; exact hp _ (getD_filter hi).1 _ (getD_filter hj).1

end Verif.Proofs
