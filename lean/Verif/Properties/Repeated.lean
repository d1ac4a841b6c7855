import Mathlib.Tactic.IntervalCases
import Mathlib.Tactic.LinearCombination
import Verif.Proofs.Repeated
import Verif.Proofs.UnitClauses
import Verif.Proofs.RepeatedFile

/-! # C111: clauses in which a variable occurs more than once -/

namespace Verif.Properties
open Verif Num Spec Model

/-- The clause "x or x or y" and, with `-1` in the second place, "x or not x or y". -/
def c111Conx : Mat ℕ := ⟨1, 3, fun _ s => if s = 2 then 1 else 0⟩
def c111Ty (σ : ℤ) : Mat ℤ := ⟨1, 3, fun _ s => if s = 1 then σ else 1⟩

section update
variable {C k n : ℕ} {x : ℕ → ℕ → ℚ} {V : Mat Num} {conx : Mat ℕ} {ty : Mat ℤ}

/-- C111, one update: whatever the clauses repeat, the update succeeds, and the message to a variable is the strongest of the pushes to its
positions; a variable that does not occur gets zero. -/
theorem C111_messages (hV : V.Is C n x) (ht : LooseTables C k n conx ty) (hk : 2 ≤ k) {old : Mat Num} (hr : old.rows = C) (hc : old.cols = n) :
    ∃ out y, ksatToVariableUpdate C k V old conx ty = some out ∧ out.Is C n y ∧ ∀ c < C,
      (∀ v, (∀ s < k, conx.data c s ≠ v) → y c v = 0) ∧
      ∀ s < k, (∃ s' < k, conx.data c s' = conx.data c s ∧ IsPush k (litAt conx ty c) (x c) s' (y c (conx.data c s))) ∧
        ∀ p, IsPush k (litAt conx ty c) (x c) s p → |p| ≤ |y c (conx.data c s)| :=
  Proofs.loose_update hV ht hk hr hc

/-- C111: a variable that occurs once in its clause gets the exact min-sum message of the clause, also if other variables are repeated, with
one sign or with both.  This is the part of `C111_claim` (below) that holds; missing are the variables that are repeated themselves. -/
theorem C111_once_partial (hV : V.Is C n x) (ht : LooseTables C k n conx ty) (hk : 2 ≤ k) {old out : Mat Num} (hr : old.rows = C) (hc : old.cols = n)
    (ho : ksatToVariableUpdate C k V old conx ty = some out) {c s : ℕ} (hcC : c < C) (hs : s < k)
    (hone : ∀ j < k, j ≠ s → conx.data c j ≠ conx.data c s) :
    IsMessage (clauseVars k (conx.data c)) (ClauseSat k (conx.data c) (ty.data c)) (x c) (conx.data c s) (out.data c (conx.data c s)) := by
  obtain ⟨out', y, h1, h2, h3⟩ := C111_messages hV ht hk hr hc
  obtain rfl : out = out' := by rw [ho] at h1; exact Option.some.inj h1
  obtain ⟨⟨s', hs', e, hp⟩, -⟩ := (h3 c hcC).2 s hs
  obtain rfl : s' = s := by by_contra hne; exact hone s' hs' hne e
  rw [h2.2.2 c hcC _ (ht.conx_lt c hcC s' hs)]
  exact Proofs.push_exact (ht.sign c hcC) hs hone hp

/-- C111: a variable that occurs at least twice in its clause, always with the sign `σ`, is pushed by the cost of the cheapest literal of
the clause, its own included. -/
theorem C111_repeated (hV : V.Is C n x) (ht : LooseTables C k n conx ty) (hk : 2 ≤ k) {old out : Mat Num} (hr : old.rows = C) (hc : old.cols = n)
    (ho : ksatToVariableUpdate C k V old conx ty = some out) {c v a b : ℕ} (hcC : c < C) (ha : a < k) (hb : b < k) (hab : a ≠ b)
    (hav : conx.data c a = v) (hbv : conx.data c b = v) {σ : ℤ} (hσ : ∀ s < k, conx.data c s = v → ty.data c s = σ) :
    ∃ q, IsLeast {q | ∃ j < k, litCost (x c) (litAt conx ty c j) = q} q ∧ out.data c v = fin (-(max 0 q) * (σ : ℚ)) := by
  obtain ⟨out', y, h1, h2, h3⟩ := C111_messages hV ht hk hr hc
  obtain rfl : out = out' := by rw [ho] at h1; exact Option.some.inj h1
  obtain ⟨⟨s', hs', e, q, ⟨⟨j, hj, -, hq⟩, hlow⟩, hp⟩, -⟩ := (h3 c hcC).2 a ha
  rw [hav] at e hp
  have hlt : v < n := hav ▸ ht.conx_lt c hcC a ha
  have hother : ∃ t < k, t ≠ s' ∧ conx.data c t = v := by
    by_cases h : a = s'
    · exact ⟨b, hb, fun e' => hab (h.trans e'.symm), hbv⟩
    · exact ⟨a, ha, h, hav⟩
  obtain ⟨t, ht', htne, htv⟩ := hother
  refine ⟨q, ⟨⟨j, hj, hq⟩, ?_⟩, ?_⟩
  · rintro _ ⟨i, hi, rfl⟩
    by_cases h : i = s'
    · have e1 : litAt conx ty c i = litAt conx ty c t := by
        rw [h]
        simp only [litAt, e, htv, hσ s' hs' e, hσ t ht' htv]
      rw [e1]
      exact hlow ⟨t, ht', htne, rfl⟩
    · exact hlow ⟨i, hi, h, rfl⟩
  · rw [h2.2.2 c hcC v hlt, hp]
    simp only [litAt, hσ s' hs' e]

/-- C111: so a repeated literal that costs something is never made cheaper than free by its own clause. -/
theorem C111_own_cost (hV : V.Is C n x) (ht : LooseTables C k n conx ty) (hk : 2 ≤ k) {old out : Mat Num} (hr : old.rows = C) (hc : old.cols = n)
    (ho : ksatToVariableUpdate C k V old conx ty = some out) {c v a b : ℕ} (hcC : c < C) (ha : a < k) (hb : b < k) (hab : a ≠ b)
    (hav : conx.data c a = v) (hbv : conx.data c b = v) {σ : ℤ} (hσ : ∀ s < k, conx.data c s = v → ty.data c s = σ)
    (hx : 0 ≤ x c v * (σ : ℚ)) : ∃ y, out.data c v = fin y ∧ 0 ≤ (x c v + y) * (σ : ℚ) ∧ y * (σ : ℚ) ≤ 0 := by
  obtain ⟨q, ⟨-, hlow⟩, hq⟩ := C111_repeated hV ht hk hr hc ho hcC ha hb hab hav hbv hσ
  have h1 : q ≤ x c v * (σ : ℚ) := by
    have := hlow ⟨a, ha, rfl⟩
    simpa only [litCost, litAt, hav, hσ a ha hav] using this
  have hs : (σ : ℚ) * (σ : ℚ) = 1 := by
    rcases ht.sign c hcC a ha with h | h <;> rw [hσ a ha hav] at h <;> rw [h] <;> norm_num
  have h2 : max 0 q ≤ x c v * (σ : ℚ) := max_le hx h1
  have h3 : -(max 0 q) * (σ : ℚ) * (σ : ℚ) = -(max 0 q) := by rw [mul_assoc, hs, mul_one]
  refine ⟨_, hq, ?_, ?_⟩
  · rw [add_mul, h3]; linarith
  · rw [h3]; have := le_max_left 0 q; linarith

/-- C111: a variable that occurs with both signs is pushed the way it already leans, by at most as much as it leans; the exact message of
such a clause, which always holds, would be zero. -/
theorem C111_both (hV : V.Is C n x) (ht : LooseTables C k n conx ty) (hk : 2 ≤ k) {old out : Mat Num} (hr : old.rows = C) (hc : old.cols = n)
    (ho : ksatToVariableUpdate C k V old conx ty = some out) {c v a b : ℕ} (hcC : c < C) (ha : a < k) (hb : b < k)
    (hav : conx.data c a = v) (hbv : conx.data c b = v) (ha1 : ty.data c a = 1) (hb1 : ty.data c b = -1) :
    ∃ y, out.data c v = fin y ∧ min 0 (x c v) ≤ y ∧ y ≤ max 0 (x c v) := by
  obtain ⟨out', y, h1, h2, h3⟩ := C111_messages hV ht hk hr hc
  obtain rfl : out = out' := by rw [ho] at h1; exact Option.some.inj h1
  obtain ⟨⟨s', hs', e, q, ⟨-, hlow⟩, hp⟩, -⟩ := (h3 c hcC).2 a ha
  rw [hav] at e hp
  refine ⟨y c v, h2.2.2 c hcC v (hav ▸ ht.conx_lt c hcC a ha), ?_⟩
  have hm0 := le_max_left 0 q
  rcases ht.sign c hcC s' hs' with h | h
  · have hne : b ≠ s' := by rintro rfl; rw [h] at hb1; exact absurd hb1 (by decide)
    have := hlow ⟨b, hb, hne, rfl⟩
    simp only [litCost, litAt, hbv, hb1] at this
    push_cast at this
    rw [hp]
    simp only [litAt, h]
    push_cast
    constructor
    · have hq : max 0 q ≤ -(min 0 (x c v)) := max_le (by simp) (by have := min_le_right 0 (x c v); linarith)
      linarith
    · have := le_max_left 0 (x c v); linarith
  · have hne : a ≠ s' := by rintro rfl; rw [h] at ha1; exact absurd ha1 (by decide)
    have := hlow ⟨a, ha, hne, rfl⟩
    simp only [litCost, litAt, hav, ha1] at this
    push_cast at this
    rw [hp]
    simp only [litAt, h]
    push_cast
    constructor
    · have := min_le_left 0 (x c v); linarith
    · have hq : max 0 q ≤ max 0 (x c v) := max_le (le_max_left _ _) (le_trans (by linarith) (le_max_right _ _))
      linarith

/-- C111: a clause that contains a variable with both signs says nothing to its other variables. -/
theorem C111_tautology (hV : V.Is C n x) (ht : LooseTables C k n conx ty) (hk : 2 ≤ k) {old out : Mat Num} (hr : old.rows = C) (hc : old.cols = n)
    (ho : ksatToVariableUpdate C k V old conx ty = some out) {c v u a b : ℕ} (hcC : c < C) (ha : a < k) (hb : b < k)
    (hav : conx.data c a = v) (hbv : conx.data c b = v) (ha1 : ty.data c a = 1) (hb1 : ty.data c b = -1) (hu : u < n) (huv : u ≠ v) :
    out.data c u = fin 0 := by
  obtain ⟨out', y, h1, h2, h3⟩ := C111_messages hV ht hk hr hc
  obtain rfl : out = out' := by rw [ho] at h1; exact Option.some.inj h1
  rw [h2.2.2 c hcC u hu]
  congr 1
  by_cases hex : ∃ s < k, conx.data c s = u
  · obtain ⟨s, hs, rfl⟩ := hex
    obtain ⟨⟨s', hs', e, q, ⟨-, hlow⟩, hp⟩, -⟩ := (h3 c hcC).2 s hs
    have hq1 := hlow ⟨a, ha, fun h => huv (by rw [← e, ← h]; exact hav), rfl⟩
    have hq2 := hlow ⟨b, hb, fun h => huv (by rw [← e, ← h]; exact hbv), rfl⟩
    simp only [litCost, litAt, hav, hbv, ha1, hb1] at hq1 hq2
    push_cast at hq1 hq2
    rw [hp, max_eq_left (by linarith)]
    ring
  · push Not at hex
    exact (h3 c hcC).1 u hex

/-- Non-vacuity: "x or x or y" and "x or not x or y" with costs 1 and 3; the last variable, which occurs once, gets the exact message. -/
example : LooseTables 1 3 2 c111Conx (c111Ty 1) ∧ LooseTables 1 3 2 c111Conx (c111Ty (-1)) :=
  ⟨⟨rfl, rfl, rfl, rfl, by decide, by decide⟩, ⟨rfl, rfl, rfl, rfl, by decide, by decide⟩⟩

example : (ksatToVariableUpdate 1 3 ⟨1, 2, fun _ v => if v = 0 then fin 1 else fin 3⟩ (Mat.fill 1 2 0) c111Conx (c111Ty 1)).map
      (fun o => (o.data 0 0, o.data 0 1)) = some (fin (-1), fin (-1)) ∧
    (ksatToVariableUpdate 1 3 ⟨1, 2, fun _ v => if v = 0 then fin 1 else fin 3⟩ (Mat.fill 1 2 0) c111Conx (c111Ty (-1))).map
      (fun o => (o.data 0 0, o.data 0 1)) = some (fin 1, fin 0) := by decide +kernel

end update

/-- C111 as one would wish it: the message to every variable of a clause is exact, also in clauses with repetitions. -/
def C111_claim : Prop :=
  ∀ (C k n : ℕ) (x : ℕ → ℕ → ℚ) (V old out : Mat Num) (conx : Mat ℕ) (ty : Mat ℤ), V.Is C n x → LooseTables C k n conx ty → 2 ≤ k →
    old.rows = C → old.cols = n → ksatToVariableUpdate C k V old conx ty = some out → ∀ c < C, ∀ s < k,
      IsMessage (clauseVars k (conx.data c)) (ClauseSat k (conx.data c) (ty.data c)) (x c) (conx.data c s) (out.data c (conx.data c s))

/-- C111, counterexample: in "x or x or y" with costs 1 and 3 the first variable is pushed by its own cost, 1, instead of 3. -/
theorem C111_claim_false : ¬ C111_claim := by
  intro h
  have ht : LooseTables 1 3 2 c111Conx (c111Ty 1) := ⟨rfl, rfl, rfl, rfl, by decide, by decide⟩
  have hV : (⟨1, 2, fun _ v => if v = 0 then fin 1 else fin 3⟩ : Mat Num).Is 1 2 (fun _ v => if v = 0 then 1 else 3) :=
    ⟨rfl, rfl, fun c _ v _ => by by_cases e : v = 0 <;> simp [e]⟩
  obtain ⟨out, y, h1, -, -⟩ := C111_messages hV ht (by decide) (old := Mat.fill 1 2 0) rfl rfl
  obtain ⟨q, hq, ho⟩ := C111_repeated hV ht (by decide) rfl rfl h1 (c := 0) (v := 0) (a := 0) (b := 1) (by decide) (by decide) (by decide)
    (by decide) rfl rfl (σ := 1) (by decide)
  have hq1 : q = 1 := by
    refine hq.unique ⟨⟨0, by decide, by simp [litCost, litAt, c111Conx, c111Ty]⟩, ?_⟩
    rintro _ ⟨j, hj, rfl⟩
    interval_cases j <;> norm_num [litCost, litAt, c111Conx, c111Ty]
  have hm := h 1 3 2 _ _ _ out _ _ hV ht (by decide) rfl rfl h1 0 (by decide) 0 (by decide)
  have hp := Proofs.push_exact (k := 2) (v := fun j => j) (ty := fun _ => 1) (by decide) (s := 0) (by decide) (by decide)
    (z := fun v => if v = 0 then 1 else 3) (p := -3)
    ⟨3, ⟨⟨1, by decide, by decide, by simp [litCost]⟩, by
      rintro _ ⟨j, hj, hne, rfl⟩
      interval_cases j
      · exact absurd rfl hne
      · simp [litCost]⟩, by norm_num⟩
  have ev : clauseVars 3 (c111Conx.data 0) = clauseVars 2 (fun j => j) := by decide
  have es : ClauseSat 3 (c111Conx.data 0) ((c111Ty 1).data 0) = ClauseSat 2 (fun j => j) (fun _ => 1) := by
    funext S
    refine propext ⟨?_, ?_⟩
    · rintro ⟨j, hj, hl⟩
      interval_cases j
      · exact ⟨0, by decide, by simpa [c111Conx, c111Ty] using hl⟩
      · exact ⟨0, by decide, by simpa [c111Conx, c111Ty] using hl⟩
      · exact ⟨1, by decide, by simpa [c111Conx, c111Ty] using hl⟩
    · rintro ⟨j, hj, hl⟩
      interval_cases j
      · exact ⟨0, by decide, by simpa [c111Conx, c111Ty] using hl⟩
      · exact ⟨2, by decide, by simpa [c111Conx, c111Ty] using hl⟩
  rw [ev, es] at hm
  have e0 : c111Conx.data 0 0 = 0 := rfl
  rw [e0] at hm
  have := hm.unique hp
  rw [ho, hq1] at this
  exact absurd (Num.fin.inj this) (by norm_num)

section runs
variable {n C k : ℕ} {used : List ℕ} {conns : List (List ℕ)} {cx : ℕ → ℕ → ℕ} {ty : ℕ → ℕ → ℤ} {c0 v0 m : ℕ} {σ : ℤ}

theorem c111_run (h : SameLiteral n C k used conns cx ty c0 v0 σ m) (w : ℕ → ℚ) (flag : Bool) (alpha : ℚ) :
    ∃ x y : ℕ → ℚ, x 0 = w v0 ∧ y 0 = 0 ∧
      (∀ j, y (j + 1) = Proofs.dampStep flag alpha j (-(max 0 (x j * (σ : ℚ))) * (σ : ℚ)) (y j) ∧ x (j + 1) = w v0 + (m - 1) * y (j + 1)) ∧
      ∀ K, ∃ b, ksatBeliefs K flag alpha (pythonFormula n C k used conns cx ty (fun v => fin (w v))) = some b ∧ b.length = n ∧
        b[v0]? = some (fin (y K + w v0)) := by
  obtain ⟨f, inp, A, h1, h2, rfl, rfl, rfl, rfl, rfl, rfl, rfl, ⟨g1, g2, g3⟩, ⟨g4, g5, g6⟩, g7, g8, g9, g10, g11⟩ :=
    C24_decoded (w := fun v => fin (w v)) (ty := ty) flag alpha h.lt h.length h.used_mem
  have hk := h.two
  have hv0n : v0 < inp.numVars := (h.same 0 (by omega)).1 ▸ h.lt c0 h.clause_lt 0 (by omega)
  have hv0 : v0 ∈ inp.used := h.used_mem v0 hv0n (by rw [h.conns_eq]; simp [h.pos])
  have hV : A.Is inp.numConstraints inp.numVars (fun c v => if ∃ s < inp.k, cx c s = v then w v else 0) :=
    ⟨g9, g10, fun c hc v hv => by rw [g11 c hc v hv]; beta_reduce; split_ifs <;> rfl⟩
  obtain ⟨x, y, hx, hy, hxy, hK⟩ := Proofs.rep_run (inp := inp) (w := w) (c0 := c0) (v0 := v0) (m := m) (σ := σ)
    ⟨g1, g2, g4, g5, fun c hc s hs => by rw [g3 c hc s hs]; exact h.lt c hc s hs, fun c hc s hs => by rw [g6 c hc s hs]; exact h.sign c hc s hs⟩
    hk ⟨g7, g8⟩ h.used_lt h.length h.conns_lt h.clause_lt
    (fun s hs => by rw [g3 c0 h.clause_lt s hs, g6 c0 h.clause_lt s hs]; exact h.same s hs)
    (fun c hc hne s hs => by rw [g3 c hc s hs]; exact h.only c hc hne s hs) hv0 h.conns_eq h.pos hV
  refine ⟨x, y, ?_, hy, hxy, fun K => ?_⟩
  · rw [hx]
    exact if_pos ⟨0, by omega, (h.same 0 (by omega)).1⟩
  · obtain ⟨out, g, o1, o2, o3⟩ := hK K
    refine ⟨_, Proofs.beliefs_of_solve h.used_lt h1 h2 o1 o2.1 (g := fun v => fin (g v)) o2.2, by simp [listOf], ?_⟩
    rw [Proofs.listOf_getElem? hv0n, if_pos hv0, o3]
    rfl

/-- C111, whole runs: if a clause is one literal several times, its variable occurs in no other clause, and making the literal true costs
something, then after any number of iterations, with or without damping, the belief still says that it costs something or nothing. -/
theorem C111_never (h : SameLiteral n C k used conns cx ty c0 v0 σ m) {w : ℕ → ℚ} (hw : 0 ≤ w v0 * (σ : ℚ)) {flag : Bool} {alpha : ℚ}
    (ha : flag = true → 0 ≤ alpha ∧ alpha ≤ 1) (K : ℕ) :
    ∃ b q, ksatBeliefs K flag alpha (pythonFormula n C k used conns cx ty (fun v => fin (w v))) = some b ∧ b.length = n ∧
      b[v0]? = some (fin q) ∧ 0 ≤ q * (σ : ℚ) := by
  obtain ⟨x, y, hx, hy, hxy, hK⟩ := c111_run h w flag alpha
  obtain ⟨b, h1, h2, h3⟩ := hK K
  refine ⟨b, _, h1, h2, h3, ?_⟩
  have hs : (σ : ℚ) * (σ : ℚ) = 1 := by
    have hk := h.two
    rcases h.sign c0 h.clause_lt 0 (by omega) with e | e <;> rw [(h.same 0 (by omega)).2] at e <;> rw [e] <;> norm_num
  have hm : (0 : ℚ) ≤ (m : ℚ) - 1 := by
    have : (1 : ℚ) ≤ (m : ℚ) := by exact_mod_cast Nat.one_le_iff_ne_zero.mpr h.pos
    linarith
  have key : ∀ j, x j * (σ : ℚ) ≤ w v0 * (σ : ℚ) ∧ -(w v0 * (σ : ℚ)) ≤ y j * (σ : ℚ) ∧ y j * (σ : ℚ) ≤ 0 := by
    intro j
    induction j with
    | zero => rw [hx, hy]; simp [hw]
    | succ j ih =>
      obtain ⟨i1, i2, i3⟩ := ih
      obtain ⟨e1, e2⟩ := hxy j
      have r3 : -(max 0 (x j * (σ : ℚ))) * (σ : ℚ) * (σ : ℚ) = -(max 0 (x j * (σ : ℚ))) := by rw [mul_assoc, hs, mul_one]
      have r1 : max 0 (x j * (σ : ℚ)) ≤ w v0 * (σ : ℚ) := max_le hw i1
      have r2 := le_max_left 0 (x j * (σ : ℚ))
      have hy' : -(w v0 * (σ : ℚ)) ≤ y (j + 1) * (σ : ℚ) ∧ y (j + 1) * (σ : ℚ) ≤ 0 := by
        rw [e1, Proofs.dampStep]
        generalize hr : -(max 0 (x j * (σ : ℚ))) * (σ : ℚ) = r at r3 ⊢
        split_ifs with hf hj
        · obtain ⟨a1, a2⟩ := ha hf.1
          rw [mul_assoc, r3]
          constructor <;> nlinarith
        · obtain ⟨a1, a2⟩ := ha hf.1
          rw [add_mul, mul_assoc, mul_assoc, r3]
          constructor <;> nlinarith
        · rw [r3]; constructor <;> linarith
      refine ⟨?_, hy'⟩
      rw [e2, add_mul, mul_assoc]
      nlinarith [hy'.2]
  rw [add_mul]
  linarith [(key K).2.1]

/-- C111, whole runs without damping, when the clause is listed at least twice with its variable, as `read_cnf_file` does: the belief
alternates between the cost of the variable and zero.  The first holds after every even number of iterations. -/
theorem C111_alternates (h : SameLiteral n C k used conns cx ty c0 v0 σ m) (hm : 2 ≤ m) {w : ℕ → ℚ} (hw : 0 ≤ w v0 * (σ : ℚ)) {flag : Bool}
    {alpha : ℚ} (ha : ¬ (flag = true ∧ alpha ≠ 0)) (K : ℕ) :
    ∃ b, ksatBeliefs K flag alpha (pythonFormula n C k used conns cx ty (fun v => fin (w v))) = some b ∧ b.length = n ∧
      b[v0]? = some (fin (if Even K then w v0 else 0)) := by
  obtain ⟨x, y, hx, hy, hxy, hK⟩ := c111_run h w flag alpha
  obtain ⟨b, h1, h2, h3⟩ := hK K
  refine ⟨b, h1, h2, ?_⟩
  rw [h3]
  have hs : (σ : ℚ) * (σ : ℚ) = 1 := by
    have hk := h.two
    rcases h.sign c0 h.clause_lt 0 (by omega) with e | e <;> rw [(h.same 0 (by omega)).2] at e <;> rw [e] <;> norm_num
  have hm' : (0 : ℚ) ≤ (m : ℚ) - 2 := by
    have : (2 : ℚ) ≤ (m : ℚ) := by exact_mod_cast hm
    linarith
  have key : ∀ j, (Even j → y j = 0 ∧ x j = w v0) ∧ (¬ Even j → y j = -(w v0) ∧ x j * (σ : ℚ) ≤ 0) := by
    intro j
    induction j with
    | zero => exact ⟨fun _ => ⟨hy, hx⟩, fun h => absurd (by decide) h⟩
    | succ j ih =>
      obtain ⟨e1, e2⟩ := hxy j
      rw [Proofs.dampStep, if_neg ha] at e1
      rw [Nat.even_add_one]
      refine ⟨fun hj => ?_, fun hj => ?_⟩
      · obtain ⟨-, i2⟩ := ih.2 hj
        rw [max_eq_left i2, neg_zero, zero_mul] at e1
        exact ⟨e1, by rw [e2, e1]; ring⟩
      · obtain ⟨-, i2⟩ := ih.1 (not_not.mp hj)
        rw [i2, max_eq_right hw] at e1
        have e3 : y (j + 1) = -(w v0) := by rw [e1]; linear_combination -(w v0) * hs
        refine ⟨e3, ?_⟩
        rw [e2, e3]
        have : (w v0 + ((m : ℚ) - 1) * -(w v0)) * (σ : ℚ) = -(((m : ℚ) - 2) * (w v0 * (σ : ℚ))) := by ring
        rw [this]
        have := mul_nonneg hm' hw
        linarith
  by_cases hK' : Even K
  · rw [if_pos hK', ((key K).1 hK').1, zero_add]
  · rw [if_neg hK', ((key K).2 hK').1, neg_add_cancel]

/-- C111, settled runs: if the belief is the same after two successive iterations, but the first, then it is the cost of the variable times
`(m - 1) / m`, where `m` is how often the clause is listed; so the clause is still decided to be false. -/
theorem C111_settled (h : SameLiteral n C k used conns cx ty c0 v0 σ m) {w : ℕ → ℚ} (hw : 0 < w v0 * (σ : ℚ)) {flag : Bool} {alpha : ℚ}
    (ha : flag = true → alpha ≠ 1) {K : ℕ} {b b' : List Num}
    (hb : ksatBeliefs (K + 1) flag alpha (pythonFormula n C k used conns cx ty (fun v => fin (w v))) = some b)
    (hb' : ksatBeliefs (K + 2) flag alpha (pythonFormula n C k used conns cx ty (fun v => fin (w v))) = some b') (he : b[v0]? = b'[v0]?) :
    b[v0]? = some (fin (w v0 * ((m - 1) / m))) := by
  obtain ⟨x, y, -, -, hxy, hK⟩ := c111_run h w flag alpha
  obtain ⟨b1, h1, -, h3⟩ := hK (K + 1)
  obtain ⟨b2, g1, -, g3⟩ := hK (K + 2)
  obtain rfl : b = b1 := by rw [hb] at h1; exact Option.some.inj h1
  obtain rfl : b' = b2 := by rw [hb'] at g1; exact Option.some.inj g1
  rw [h3, g3] at he
  have hyy : y (K + 2) = y (K + 1) := by
    have := Num.fin.inj (Option.some.inj he)
    linarith
  rw [h3]
  congr 2
  have hs : (σ : ℚ) * (σ : ℚ) = 1 := by
    have hk := h.two
    rcases h.sign c0 h.clause_lt 0 (by omega) with e | e <;> rw [(h.same 0 (by omega)).2] at e <;> rw [e] <;> norm_num
  have hm : (m : ℚ) ≠ 0 := by exact_mod_cast h.pos
  obtain ⟨e1, -⟩ := hxy (K + 1)
  obtain ⟨-, e2⟩ := hxy K
  rw [hyy] at e1
  have hraw : y (K + 1) = -(max 0 (x (K + 1) * (σ : ℚ))) * (σ : ℚ) := by
    rw [Proofs.dampStep] at e1
    generalize -(max 0 (x (K + 1) * (σ : ℚ))) * (σ : ℚ) = r at e1 ⊢
    rw [if_neg (Nat.succ_ne_zero K)] at e1
    split_ifs at e1 with hf
    · have h1 : (1 - alpha) * (y (K + 1) - r) = 0 := by linear_combination e1
      rcases mul_eq_zero.mp h1 with h2 | h2
      · exact absurd (by linarith) (ha hf.1)
      · linarith
    · exact e1
  rcases le_total (x (K + 1) * (σ : ℚ)) 0 with hx | hx
  · rw [max_eq_left hx, neg_zero, zero_mul] at hraw
    rw [e2, hraw, mul_zero, add_zero] at hx
    exact absurd hx (not_le.mpr hw)
  · rw [max_eq_right hx] at hraw
    have h2 : y (K + 1) = -(x (K + 1)) := by rw [hraw]; linear_combination -(x (K + 1)) * hs
    rw [e2] at h2
    field_simp
    linear_combination h2

/-- C111, decisions: such a clause is decided to be false after every even number of iterations without damping, for the threshold zero,
although setting one variable would satisfy it. -/
theorem C111_unsatisfied (h : SameLiteral n C k used conns cx ty c0 v0 σ m) (hm : 2 ≤ m) {w : ℕ → ℚ} (hw : 0 < w v0 * (σ : ℚ)) {flag : Bool}
    {alpha : ℚ} (ha : ¬ (flag = true ∧ alpha ≠ 0)) {K : ℕ} (hK : Even K) :
    ∃ b d, ksatBeliefs K flag alpha (pythonFormula n C k used conns cx ty (fun v => fin (w v))) = some b ∧
      (hardDecisions (fin 0) b)[v0]? = some d ∧ ∀ s < k, ¬ ((ty c0 s = 1 ∧ d = true) ∨ (ty c0 s = -1 ∧ d = false)) := by
  obtain ⟨b, h1, h2, h3⟩ := C111_alternates h hm hw.le ha K
  rw [if_pos hK] at h3
  refine ⟨b, !(decide (0 < w v0)), h1, ?_, fun s hs => ?_⟩
  · simp only [hardDecisions, List.getElem?_map, h3, Option.map_some, Num.lt]
    by_cases e : 0 < w v0 <;> simp [e]
  · have hsg := h.sign c0 h.clause_lt s hs
    rw [(h.same s hs).2] at hsg ⊢
    rcases hsg with e | e
    · rw [e] at hw ⊢
      have : 0 < w v0 := by simpa using hw
      simp [this]
    · rw [e] at hw ⊢
      have : ¬ 0 < w v0 := by
        have : w v0 < 0 := by simpa using hw
        exact not_lt.mpr this.le
      simp [this]

/-- C111, clauses filled up by repeating a literal: if the variables of a clause occur in no other clause, every literal of it costs
something and a cheapest one is repeated and listed at least twice, then after every even number of undamped iterations the belief of each of
its variables is its cost, and all its literals are decided to be false. -/
theorem C111_padded {mult : ℕ → ℕ} (h : LoneClause n C k used conns cx ty c0 mult) {a b : ℕ} (ha : a < k) (hb : b < k) (hab : a ≠ b)
    (hv : cx c0 a = cx c0 b) (hm : 2 ≤ mult (cx c0 a)) {w : ℕ → ℚ} (hpos : 0 < litCost w (cx c0 a, ty c0 a))
    (hmin : ∀ s < k, litCost w (cx c0 a, ty c0 a) ≤ litCost w (cx c0 s, ty c0 s)) {flag : Bool} {alpha : ℚ} (hf : ¬ (flag = true ∧ alpha ≠ 0))
    {K : ℕ} (hK : Even K) :
    ∃ bs, ksatBeliefs K flag alpha (pythonFormula n C k used conns cx ty (fun v => fin (w v))) = some bs ∧ bs.length = n ∧
      ∀ s < k, bs[cx c0 s]? = some (fin (w (cx c0 s))) ∧ ∃ d, (hardDecisions (fin 0) bs)[cx c0 s]? = some d ∧
        ¬ ((ty c0 s = 1 ∧ d = true) ∨ (ty c0 s = -1 ∧ d = false)) := by
  obtain ⟨f, inp, A, h1, h2, rfl, rfl, rfl, rfl, rfl, rfl, rfl, ⟨g1, g2, g3⟩, ⟨g4, g5, g6⟩, g7, g8, g9, g10, g11⟩ :=
    C24_decoded (w := fun v => fin (w v)) (ty := ty) flag alpha h.lt h.length h.used_mem
  have hk := h.two
  have hc0 := h.clause_lt
  have hlt : ∀ s < inp.k, cx c0 s < inp.numVars := fun s hs => h.lt c0 hc0 s hs
  have hused : ∀ s < inp.k, cx c0 s ∈ inp.used := fun s hs => h.used_mem _ (hlt s hs) (by rw [h.conns_eq s hs]; simp [h.pos s hs])
  have hV : A.Is inp.numConstraints inp.numVars (fun c v => if ∃ s < inp.k, cx c s = v then w v else 0) :=
    ⟨g9, g10, fun c hc v hv => by rw [g11 c hc v hv]; beta_reduce; split_ifs <;> rfl⟩
  have e0 : ∀ s < inp.k, inp.conx.data c0 s = cx c0 s := fun s hs => g3 c0 hc0 s hs
  have et : ∀ s < inp.k, inp.conxType.data c0 s = ty c0 s := fun s hs => g6 c0 hc0 s hs
  have el : ∀ s < inp.k, litAt inp.conx inp.conxType c0 s = (cx c0 s, ty c0 s) := fun s hs => by rw [litAt, e0 s hs, et s hs]
  obtain ⟨out, g, o1, o2, o3⟩ := Proofs.lone_run (inp := inp) (w := w) (c0 := c0) (m := mult)
    ⟨g1, g2, g4, g5, fun c hc s hs => by rw [g3 c hc s hs]; exact h.lt c hc s hs, fun c hc s hs => by rw [g6 c hc s hs]; exact h.sign c hc s hs⟩
    hk ⟨g7, g8⟩ h.used_lt h.length h.conns_lt hc0
    (fun c hc hne s hs t ht => by rw [g3 c hc s hs, e0 t ht]; exact h.only c hc hne s hs t ht)
    (fun t ht => by rw [e0 t ht]; exact hused t ht) (fun t ht => by rw [e0 t ht]; exact h.conns_eq t ht)
    (fun t ht => by rw [e0 t ht]; exact h.pos t ht) hf
    (fun s hs t ht e => by rw [et s hs, et t ht]; rw [e0 s hs, e0 t ht] at e; exact h.same s hs t ht e) ha hb hab
    (by rw [e0 a ha, e0 b hb, hv]) (by rw [e0 a ha]; exact hm) (by rw [el a ha]; exact hpos.le)
    (fun t ht => by rw [el a ha, el t ht]; exact hmin t ht) hV
    (fun t ht => by rw [e0 t ht]; exact if_pos ⟨t, ht, rfl⟩) hK
  refine ⟨_, Proofs.beliefs_of_solve h.used_lt h1 h2 o1 o2.1 (g := fun v => fin (g v)) o2.2, by simp [listOf], fun s hs => ?_⟩
  have hbel : (listOf inp.numVars (fun v => fin (g v) + if v ∈ inp.used then fin (w v) else 0))[cx c0 s]? = some (fin (w (cx c0 s))) := by
    have hg := o3 s hs
    rw [e0 s hs] at hg
    rw [Proofs.listOf_getElem? (hlt s hs), if_pos (hused s hs), hg, fin_add, zero_add]
  refine ⟨hbel, !(decide (0 < w (cx c0 s))), ?_, ?_⟩
  · simp only [hardDecisions, List.getElem?_map, hbel, Option.map_some, Num.lt]
    by_cases e : 0 < w (cx c0 s) <;> simp [e]
  · have hp := lt_of_lt_of_le hpos (hmin s hs)
    rcases h.sign c0 hc0 s hs with e | e
    · rw [e] at hp ⊢
      have : 0 < w (cx c0 s) := by simpa [litCost] using hp
      simp [this]
    · rw [e] at hp ⊢
      have : w (cx c0 s) < 0 := by simpa [litCost] using hp
      simp [not_lt.mpr this.le]

end runs

/-- C111, from a file to the decisions: a file as the export writes it, in which one clause is one costly literal several times and the
variable occurs in no other clause.  `read_cnf_file` accepts it, and after every even number of undamped iterations on the tables it
returns the clause is decided to be false. -/
theorem C111_file {n m k : ℕ} {F : List (List (ℕ × ℤ))} (hk : 2 ≤ k)
    (hF : ∀ cl ∈ F, cl.length = k ∧ ∀ l ∈ cl, l.1 < n ∧ (l.2 = 1 ∨ l.2 = -1)) {c0 v0 : ℕ} {σ : ℤ} (hc0 : c0 < F.length)
    (hsame : F.getD c0 [] = List.replicate k (v0, σ)) (honly : ∀ c < F.length, c ≠ c0 → ∀ l ∈ F.getD c [], l.1 ≠ v0)
    {w : ℕ → ℚ} (hw : 0 < w v0 * (σ : ℚ)) {K : ℕ} (hK : Even K) :
    ∃ f conns b d, readCnfFile (cnfText n m F) = some f ∧ f.n = n ∧ f.k = k ∧ f.state.clauses = F ∧
      f.state.conns = conns.map (List.map (fun p => ((p.1 : ℤ), p.2))) ∧
      ksatBeliefs K false 0 (ksatObject n k ⟨f.state.used, f.state.clauses, conns⟩ (listOf n (fun v => fin (w v)))) = some b ∧
      (hardDecisions (fin 0) b)[v0]? = some d ∧ ¬ ((σ = 1 ∧ d = true) ∨ (σ = -1 ∧ d = false)) := by
  have hr := Proofs.readCnfFile_text (n := n) (k := k) (m := m) (by omega) hF (pre := []) (by simp) (tail := []) (by simp [fileLines])
  have hne : F ≠ [] := by rintro rfl; simp at hc0
  rw [if_neg hne, List.flatten_nil, List.nil_append, List.append_nil] at hr
  have hs := Proofs.file_same hk hF hc0 hsame honly
  obtain ⟨b, d, h1, h2, h3⟩ := C111_unsatisfied hs hk hw (flag := false) (alpha := 0) (by decide) hK
  refine ⟨_, Proofs.connTable n F, b, d, hr, rfl, rfl, rfl, rfl, ?_, h2, ?_⟩
  · rw [← h1, Proofs.loose_object_eq (fun cl h => (hF cl h).1)]
    rfl
  · have := h3 0 (by omega)
    rwa [(hs.same 0 (by omega)).2] at this

/-- C111, from a file to the decisions, for clauses filled up by repeating a literal. -/
theorem C111_padded_file {n m k : ℕ} {F : List (List (ℕ × ℤ))} (hk : 2 ≤ k)
    (hF : ∀ cl ∈ F, cl.length = k ∧ ∀ l ∈ cl, l.1 < n ∧ (l.2 = 1 ∨ l.2 = -1)) {c0 : ℕ} (hc0 : c0 < F.length)
    (hsame : ∀ l ∈ F.getD c0 [], ∀ l' ∈ F.getD c0 [], l.1 = l'.1 → l.2 = l'.2)
    (honly : ∀ c < F.length, c ≠ c0 → ∀ l ∈ F.getD c [], ∀ l' ∈ F.getD c0 [], l.1 ≠ l'.1)
    {l0 : ℕ × ℤ} {a b : ℕ} (hab : a ≠ b) (ha : (F.getD c0 [])[a]? = some l0) (hb : (F.getD c0 [])[b]? = some l0)
    {w : ℕ → ℚ} (hpos : 0 < litCost w l0) (hmin : ∀ l ∈ F.getD c0 [], litCost w l0 ≤ litCost w l) {K : ℕ} (hK : Even K) :
    ∃ f conns bs, readCnfFile (cnfText n m F) = some f ∧ f.n = n ∧ f.k = k ∧ f.state.clauses = F ∧
      f.state.conns = conns.map (List.map (fun p => ((p.1 : ℤ), p.2))) ∧
      ksatBeliefs K false 0 (ksatObject n k ⟨f.state.used, f.state.clauses, conns⟩ (listOf n (fun v => fin (w v)))) = some bs ∧
      ∀ l ∈ F.getD c0 [], bs[l.1]? = some (fin (w l.1)) ∧ ∃ d, (hardDecisions (fin 0) bs)[l.1]? = some d ∧
        ¬ ((l.2 = 1 ∧ d = true) ∨ (l.2 = -1 ∧ d = false)) := by
  have hr := Proofs.readCnfFile_text (n := n) (k := k) (m := m) (by omega) hF (pre := []) (by simp) (tail := []) (by simp [fileLines])
  have hne : F ≠ [] := by rintro rfl; simp at hc0
  rw [if_neg hne, List.flatten_nil, List.nil_append, List.append_nil] at hr
  have hs := Proofs.file_lone hk hF hc0 hsame honly
  have hlen : (F.getD c0 []).length = k := (hF _ (Proofs.getD_mem_of_lt hc0)).1
  have hat : ∀ s l, (F.getD c0 [])[s]? = some l → s < k ∧ (F.getD c0 []).getD s (0, 0) = l := fun s l e => by
    obtain ⟨h1, -⟩ := List.getElem?_eq_some_iff.mp e
    exact ⟨hlen ▸ h1, by rw [List.getD_eq_getElem?_getD, e]; rfl⟩
  obtain ⟨hak, ea⟩ := hat a l0 ha
  obtain ⟨hbk, eb⟩ := hat b l0 hb
  have hcount : 2 ≤ (F.getD c0 []).countP (fun l => l.1 == l0.1) := by
    have key : ∀ (L : List (ℕ × ℤ)) (a b : ℕ), a < b → L[a]? = some l0 → L[b]? = some l0 → 2 ≤ L.countP (fun l => l.1 == l0.1) := by
      intro L a b hlt h1 h2
      have hsplit : L = L.take b ++ L.drop b := (List.take_append_drop b L).symm
      rw [hsplit, List.countP_append]
      have p1 : 0 < (L.take b).countP (fun l => l.1 == l0.1) := by
        rw [List.countP_pos_iff]
        exact ⟨l0, List.mem_of_getElem? (i := a) (by rw [List.getElem?_take, if_pos hlt]; exact h1), by simp⟩
      have p2 : 0 < (L.drop b).countP (fun l => l.1 == l0.1) := by
        rw [List.countP_pos_iff]
        exact ⟨l0, List.mem_of_getElem? (i := 0) (by rw [List.getElem?_drop, Nat.add_zero]; exact h2), by simp⟩
      omega
    rcases lt_or_gt_of_ne hab with h | h
    · exact key _ a b h ha hb
    · exact key _ b a h hb ha
  have elit : ∀ s, (Proofs.litVar ⟨(F.flatMap (List.map Prod.fst)).dedup, F, Proofs.connTable n F⟩ c0 s,
      Proofs.litSign ⟨(F.flatMap (List.map Prod.fst)).dedup, F, Proofs.connTable n F⟩ c0 s) = (F.getD c0 []).getD s (0, 0) := fun _ => rfl
  have evar : ∀ s, Proofs.litVar ⟨(F.flatMap (List.map Prod.fst)).dedup, F, Proofs.connTable n F⟩ c0 s = ((F.getD c0 []).getD s (0, 0)).1 :=
    fun _ => rfl
  obtain ⟨bs, h1, -, h3⟩ := C111_padded hs hak hbk hab (by rw [evar, evar, ea, eb]) (by rw [evar, ea]; exact hcount) (w := w)
    (by rw [elit, ea]; exact hpos)
    (fun s hs' => by
      rw [elit, elit, ea]
      exact hmin _ (Proofs.getD_mem_of_lt (by rw [hlen]; exact hs'))) (flag := false) (alpha := 0) (by decide) hK
  refine ⟨_, Proofs.connTable n F, bs, hr, rfl, rfl, rfl, rfl, ?_, fun l hl => ?_⟩
  · rw [← h1, Proofs.loose_object_eq (fun cl h => (hF cl h).1)]
    rfl
  · obtain ⟨s, hs', rfl⟩ := List.getElem_of_mem hl
    have := h3 s (by rw [← hlen]; exact hs')
    have e : (F.getD c0 []).getD s (0, 0) = (F.getD c0 [])[s] := by
      rw [List.getD_eq_getElem?_getD, List.getElem?_eq_getElem hs']; rfl
    have e1 : Proofs.litVar ⟨(F.flatMap (List.map Prod.fst)).dedup, F, Proofs.connTable n F⟩ c0 s = ((F.getD c0 [])[s]).1 := by rw [← e]; rfl
    have e2 : Proofs.litSign ⟨(F.flatMap (List.map Prod.fst)).dedup, F, Proofs.connTable n F⟩ c0 s = ((F.getD c0 [])[s]).2 := by rw [← e]; rfl
    rw [e1, e2] at this
    exact this

/-- Non-vacuity: "x or y", filled up to three literals by repeating x, with costs 1 and 3, and another clause. -/
example : ∃ f conns bs, readCnfFile (cnfText 4 2 [[(0, 1), (1, 1), (0, 1)], [(2, 1), (3, -1), (2, 1)]]) = some f ∧ f.n = 4 ∧ f.k = 3 ∧
    f.state.clauses = [[(0, 1), (1, 1), (0, 1)], [(2, 1), (3, -1), (2, 1)]] ∧
    f.state.conns = conns.map (List.map (fun p => ((p.1 : ℤ), p.2))) ∧
    ksatBeliefs 200 false 0 (ksatObject 4 3 ⟨f.state.used, f.state.clauses, conns⟩
      (listOf 4 (fun v => fin ((fun v => if v = 0 then 1 else 3 : ℕ → ℚ) v)))) = some bs ∧
    ∀ l ∈ [((0 : ℕ), (1 : ℤ)), (1, 1), (0, 1)], bs[l.1]? = some (fin ((fun v => if v = 0 then 1 else 3 : ℕ → ℚ) l.1)) ∧
      ∃ d, (hardDecisions (fin 0) bs)[l.1]? = some d ∧ ¬ ((l.2 = 1 ∧ d = true) ∨ (l.2 = -1 ∧ d = false)) :=
  C111_padded_file (c0 := 0) (l0 := (0, 1)) (a := 0) (b := 2) (by decide) (by decide) (by decide) (by decide) (by decide) (by decide) rfl rfl
    (by simp [litCost]) (by simp [litCost]) (by decide)

set_option synthInstance.maxSize 1000 in
/-- Non-vacuity: `read_cnf_file` on a file with the clause "1 or 1 or 1" lists the clause three times with its variable. -/
example : (readCnfFile "p cnf 2 2\n1 1 1 0\n2 2 -2 0\n".toList).map (fun f => (f.n, f.k, f.state.clauses, f.state.used, f.state.conns)) =
    some (2, 3, [[(0, 1), (0, 1), (0, 1)], [(1, 1), (1, 1), (1, -1)]], [0, 1], [[(0, 1), (0, 1), (0, 1)], [(1, 1), (1, 1), (1, -1)]]) := by
  decide +kernel

/-- The tables of that file. -/
theorem c111_file : SameLiteral 2 2 3 [0, 1] [[0, 0, 0], [1, 1, 1]] (fun c _ => c) (fun c s => if c = 1 ∧ s = 2 then -1 else 1) 0 0 1 3 :=
  ⟨by decide, by decide, by decide, by decide, by decide, by decide, rfl, by decide, by decide, by decide, rfl, by decide⟩

/-- After 200 iterations, with costs 1 and 3, the first clause of that file is decided to be false. -/
example : ∃ b, ksatBeliefs 200 false 0 (pythonFormula 2 2 3 [0, 1] [[0, 0, 0], [1, 1, 1]] (fun c _ => c)
    (fun c s => if c = 1 ∧ s = 2 then -1 else 1) (fun v => fin ((fun v => if v = 0 then 1 else 3 : ℕ → ℚ) v))) = some b ∧
      b[0]? = some (fin 1) := by
  obtain ⟨b, h1, -, h3⟩ := C111_alternates c111_file (by decide) (w := fun v => if v = 0 then 1 else 3) (by norm_num) (flag := false) (alpha := 0)
    (by decide) 200
  exact ⟨b, h1, by rw [h3]; rfl⟩

/-- The same from the text, for the first clause of three. -/
example : ∃ f conns b d, readCnfFile (cnfText 2 3 [[(0, 1), (0, 1)], [(1, 1), (1, -1)], [(1, -1), (1, -1)]]) = some f ∧ f.n = 2 ∧ f.k = 2 ∧
    f.state.clauses = [[(0, 1), (0, 1)], [(1, 1), (1, -1)], [(1, -1), (1, -1)]] ∧
    f.state.conns = conns.map (List.map (fun p => ((p.1 : ℤ), p.2))) ∧
    ksatBeliefs 200 false 0 (ksatObject 2 2 ⟨f.state.used, f.state.clauses, conns⟩ (listOf 2 (fun _ => fin 5))) = some b ∧
    (hardDecisions (fin 0) b)[0]? = some d ∧ ¬ (((1 : ℤ) = 1 ∧ d = true) ∨ ((1 : ℤ) = -1 ∧ d = false)) :=
  C111_file (w := fun _ => 5) (c0 := 0) (by decide) (by decide) (by decide) rfl (by decide) (by norm_num) (by decide)

/-- The run itself after three and four iterations without damping; with damping it settles for two entries, after one iteration, and not
so soon for three. -/
example : ksatBeliefs 3 false 0 (pythonFormula 1 1 3 [0] [[0, 0, 0]] (fun _ _ => 0) (fun _ _ => 1) (fun _ => fin 1)) = some [fin 0] ∧
    ksatBeliefs 4 false 0 (pythonFormula 1 1 3 [0] [[0, 0, 0]] (fun _ _ => 0) (fun _ _ => 1) (fun _ => fin 1)) = some [fin 1] ∧
    ksatBeliefs 1 true (1/2) (pythonFormula 1 1 2 [0] [[0, 0]] (fun _ _ => 0) (fun _ _ => 1) (fun _ => fin 1)) = some [fin (1/2)] ∧
    ksatBeliefs 2 true (1/2) (pythonFormula 1 1 2 [0] [[0, 0]] (fun _ _ => 0) (fun _ _ => 1) (fun _ => fin 1)) = some [fin (1/2)] ∧
    ksatBeliefs 4 true (1/2) (pythonFormula 1 1 3 [0] [[0, 0, 0]] (fun _ _ => 0) (fun _ _ => 1) (fun _ => fin 1)) = some [fin (11/16)] := by
  decide +kernel

end Verif.Properties
