import Verif.Model.ProjectInequality
import Verif.Proofs.MinSum
import Mathlib.Tactic.Linarith

/-! Loop invariants of the two-state trellis of the project inequality constraint. -/

namespace Verif.Proofs
open Verif Num Model Spec

/-- The values `x s`, `s < k`. -/
def preVals (x : ℕ → ℚ) (k : ℕ) : Set ℚ := {q | ∃ s < k, x s = q}
/-- `0` and the values `x s`, `k ≤ s < n`. -/
def sufVals (x : ℕ → ℚ) (n k : ℕ) : Set ℚ := {q | q = 0 ∨ ∃ s, k ≤ s ∧ s < n ∧ x s = q}
/-- `0` and the values `x s`, `s < n`, `s ≠ t`. -/
def restVals (x : ℕ → ℚ) (n t : ℕ) : Set ℚ := {q | q = 0 ∨ ∃ s < n, s ≠ t ∧ x s = q}

theorem preVals_zero (x : ℕ → ℚ) : preVals x 0 = ∅ := by simp [preVals]
theorem preVals_succ (x : ℕ → ℚ) (k : ℕ) : preVals x k ∪ {x k} = preVals x (k + 1) := by
  ext q; simp only [preVals, Set.mem_union, Set.mem_ofPred_eq, Set.mem_singleton_iff]
  constructor
  · rintro (⟨s, hs, rfl⟩ | rfl)
    · exact ⟨s, by omega, rfl⟩
    · exact ⟨k, by omega, rfl⟩
  · rintro ⟨s, hs, rfl⟩
    by_cases h : s = k
    · right; rw [h]
    · left; exact ⟨s, by omega, rfl⟩
theorem sufVals_top (x : ℕ → ℚ) (n : ℕ) : sufVals x n n = {0} := by
  ext q; simp only [sufVals, Set.mem_ofPred_eq, Set.mem_singleton_iff]
  constructor
  · rintro (rfl | ⟨s, h1, h2, -⟩)
    · rfl
    · omega
  · intro h; exact Or.inl h
theorem sufVals_step (x : ℕ → ℚ) {n k : ℕ} (hk : k < n) : sufVals x n (k + 1) ∪ {x k} = sufVals x n k := by
  ext q; simp only [sufVals, Set.mem_union, Set.mem_ofPred_eq, Set.mem_singleton_iff]
  constructor
  · rintro ((rfl | ⟨s, h1, h2, rfl⟩) | rfl)
    · exact Or.inl rfl
    · exact Or.inr ⟨s, by omega, h2, rfl⟩
    · exact Or.inr ⟨k, le_refl _, hk, rfl⟩
  · rintro (rfl | ⟨s, h1, h2, rfl⟩)
    · exact Or.inl (Or.inl rfl)
    · by_cases h : s = k
      · right; rw [h]
      · left; right; exact ⟨s, by omega, h2, rfl⟩
theorem rest_eq (x : ℕ → ℚ) {n t : ℕ} (ht : t < n) :
    (preVals x t ∪ sufVals x n (t + 1)) ∪ {0} = restVals x n t := by
  ext q; simp only [preVals, sufVals, restVals, Set.mem_union, Set.mem_ofPred_eq, Set.mem_singleton_iff]
  constructor
  · rintro ((⟨s, hs, rfl⟩ | rfl | ⟨s, h1, h2, rfl⟩) | rfl)
    · exact Or.inr ⟨s, by omega, by omega, rfl⟩
    · exact Or.inl rfl
    · exact Or.inr ⟨s, by omega, by omega, rfl⟩
    · exact Or.inl rfl
  · rintro (rfl | ⟨s, h1, h2, rfl⟩)
    · exact Or.inr rfl
    · left
      by_cases h : s < t
      · left; exact ⟨s, h, rfl⟩
      · right; right; exact ⟨s, by omega, h1, rfl⟩

/-- Invariant of the forward table: stages `0..i` are final. -/
def FwdInv (n : ℕ) (x : ℕ → ℚ) (i : ℕ) (f : Mat Num) : Prop :=
  f.rows = n + 1 ∧ f.cols = 2 ∧ ∀ k ≤ i, f.data k 0 = fin 0 ∧ IsMin (preVals x k) (f.data k 1)
/-- Invariant of the backward table: stages `i..n` are final. -/
def BwdInv (n : ℕ) (x : ℕ → ℚ) (i : ℕ) (b : Mat Num) : Prop :=
  b.rows = n + 1 ∧ b.cols = 2 ∧ ∀ k, i ≤ k → k ≤ n → b.data k 1 = fin 0 ∧ IsMin (sufVals x n k) (b.data k 0)

theorem fwdInv_init {n : ℕ} {x : ℕ → ℚ} {f : Mat Num} (hr : f.rows = n + 1) (hc : f.cols = 2) :
    ∃ f', f.wrRow 0 initFwd2 = some f' ∧ FwdInv n x 0 f' := by
  refine ⟨_, Mat.wrRow_of_lt (by omega) (by simp [initFwd2, hc]), hr, hc, ?_⟩
  intro k hk
  obtain rfl : k = 0 := by omega
  simp only [initFwd2, if_true, one_ne_zero, if_false, preVals_zero]
  exact ⟨rfl, isMin_empty⟩

theorem bwdInv_init {n : ℕ} {x : ℕ → ℚ} {f : Mat Num} (hr : f.rows = n + 1) (hc : f.cols = 2) :
    ∃ f', f.wrRow n initBwd2 = some f' ∧ BwdInv n x n f' := by
  refine ⟨_, Mat.wrRow_of_lt (by omega) (by simp [initBwd2, hc]), hr, hc, ?_⟩
  intro k hk hk'
  obtain rfl : k = n := by omega
  simp only [initBwd2, if_true, sufVals_top]
  exact ⟨rfl, isMin_singleton 0⟩

theorem projFwdStage_inv {n P : ℕ} {x : ℕ → ℕ → ℚ} {m : Mat Num} (hm : m.Is P n x) {p : ℕ} (hp : p < P)
    {i : ℕ} (hi : i < n) {f : Mat Num} (hf : FwdInv n (x p) i f) :
    ∃ f', projFwdStage m p i f = some f' ∧ FwdInv n (x p) (i + 1) f' := by
  obtain ⟨hr, hc, hd⟩ := hf
  refine ⟨⟨f.rows, f.cols, fun k l => if k = i + 1 ∧ l = 1 then cmin (f.data i 1) (f.data i 0 + fin (x p i)) else
    if k = i + 1 ∧ l = 0 then f.data i 0 else f.data k l⟩, ?_, hr, hc, ?_⟩
  · simp [projFwdStage, Mat.rd, Mat.wr, hr, hc, show i < n + 1 by omega, hi, hm.1, hm.2.1, hp,
      hm.2.2 p hp i hi]
  · intro k hk
    by_cases h : k = i + 1
    · subst h
      obtain ⟨h0, h1⟩ := hd i (le_refl _)
      simp only [true_and, if_true, one_ne_zero, zero_ne_one, if_false, h0]
      rw [← preVals_succ]
      refine h1.union ?_
      rw [fin_add, zero_add]
      exact isMin_singleton _
    · simp only [h, false_and, if_false]
      exact hd k (by omega)

theorem projBwdStage_inv {n P : ℕ} {x : ℕ → ℕ → ℚ} {m : Mat Num} (hm : m.Is P n x) {p : ℕ} (hp : p < P)
    {i : ℕ} (hi : i < n) {b : Mat Num} (hb : BwdInv n (x p) (i + 1) b) :
    ∃ b', projBwdStage m p i b = some b' ∧ BwdInv n (x p) i b' := by
  obtain ⟨hr, hc, hd⟩ := hb
  refine ⟨⟨b.rows, b.cols, fun k l => if k = i ∧ l = 1 then b.data (i + 1) 1 else
    if k = i ∧ l = 0 then cmin (b.data (i + 1) 0) (b.data (i + 1) 1 + fin (x p i)) else b.data k l⟩, ?_, hr, hc, ?_⟩
  · simp [projBwdStage, Mat.rd, Mat.wr, hr, hc, show i < n + 1 by omega, hi, hm.1, hm.2.1, hp,
      hm.2.2 p hp i hi]
  · intro k hk hk'
    by_cases h : k = i
    · subst h
      obtain ⟨h0, h1⟩ := hd (k + 1) (le_refl _) (by omega)
      simp only [true_and, if_true, zero_ne_one, if_false, h0]
      rw [← sufVals_step _ hi]
      refine h1.union ?_
      rw [fin_add, zero_add]
      exact isMin_singleton _
    · simp only [h, false_and, if_false]
      exact hd k (by omega) hk'

/-- Invariant of the output after the teams `< i` of project `p` are done. -/
theorem projOut_step {n P : ℕ} {x : ℕ → ℚ} {f b : Mat Num} (hf : FwdInv n x n f) (hb : BwdInv n x 0 b)
    {p t : ℕ} (hp : p < P) (ht : t < n) {out : Mat Num} (hr : out.rows = P) (hc : out.cols = n) :
    ∃ q, IsLeast (restVals x n t) q ∧
      projOut f b p t out = some ⟨P, n, fun k l => if k = p ∧ l = t then fin (-q) else out.data k l⟩ := by
  obtain ⟨fr, fc, fd⟩ := hf
  obtain ⟨br, bc, bd⟩ := hb
  have h := (((fd t ht.le).2.union (bd (t + 1) (by omega) (by omega)).2).union (isMin_singleton 0)).congr (rest_eq x ht)
  obtain ⟨q, hq, hl⟩ := h.exists_fin ⟨0, Or.inl rfl⟩
  refine ⟨q, hl, ?_⟩
  simp only [projOut, Mat.rd, Mat.wr, fr, fc, br, bc, hr, hc]
  simp [hp, ht, show t < n + 1 by omega, zero_def, hq]

/-- Closed form of the update on finite messages: entry `(p, t)` is minus the least of `0` and the messages of the
other teams of the same project. -/
theorem projectInequalityUpdate_eq {P T : ℕ} {x : ℕ → ℕ → ℚ} {eq2proj proj2eq : Mat Num}
    (h : eq2proj.Is P T x) (hr : proj2eq.rows = P) (hc : proj2eq.cols = T) :
    ∃ out, projectInequalityUpdate T eq2proj proj2eq = some out ∧ out.rows = P ∧ out.cols = T ∧
      ∀ p < P, ∀ t < T, ∃ q, IsLeast (restVals (x p) T t) q ∧ out.data p t = fin (-q) := by
  obtain ⟨⟨f, b, out⟩, hst, -, -, -, -, hor, hoc, hod⟩ :=
    loopUp_inv (n := proj2eq.rows) (body := projBody T eq2proj)
      (s := (Mat.fill (T + 1) 2 0, Mat.fill (T + 1) 2 0, proj2eq))
      (fun i st => st.1.rows = T + 1 ∧ st.1.cols = 2 ∧ st.2.1.rows = T + 1 ∧ st.2.1.cols = 2 ∧
        st.2.2.rows = P ∧ st.2.2.cols = T ∧
        ∀ p < i, ∀ t < T, ∃ q, IsLeast (restVals (x p) T t) q ∧ st.2.2.data p t = fin (-q))
      ⟨rfl, rfl, rfl, rfl, hr, hc, fun p hp => absurd hp (by omega)⟩
      (by
        rintro i hi ⟨f, b, out⟩ ⟨fr, fc, br, bc, or, oc, od⟩
        have hi' : i < P := by omega
        simp only at fr fc br bc or oc od
        obtain ⟨f1, hf1, if1⟩ := fwdInv_init (x := x i) fr fc
        obtain ⟨f2, hf2, if2⟩ := loopUp_inv (n := T) (body := projFwdStage eq2proj i) (s := f1)
          (fun k f => FwdInv T (x i) k f) if1 (fun k hk f hf => projFwdStage_inv h hi' hk hf)
        obtain ⟨b1, hb1, ib1⟩ := bwdInv_init (x := x i) br bc
        obtain ⟨b2, hb2, ib2⟩ := loopDown_inv (n := T) (body := projBwdStage eq2proj i) (s := b1)
          (fun k f => BwdInv T (x i) k f) ib1 (fun k hk f hf => projBwdStage_inv h hi' hk hf)
        obtain ⟨o, ho, ior, ioc, iod⟩ := loopUp_inv (n := T) (body := projOut f2 b2 i) (s := out)
          (fun k o => o.rows = P ∧ o.cols = T ∧
            (∀ p < i, ∀ t < T, ∃ q, IsLeast (restVals (x p) T t) q ∧ o.data p t = fin (-q)) ∧
            ∀ t < k, ∃ q, IsLeast (restVals (x i) T t) q ∧ o.data i t = fin (-q))
          ⟨or, oc, od, fun t ht => absurd ht (by omega)⟩
          (by
            rintro k hk o ⟨h1, h2, h3, h4⟩
            obtain ⟨q, hq, he⟩ := projOut_step if2 ib2 hi' hk h1 h2
            refine ⟨_, he, rfl, rfl, ?_, ?_⟩
            · intro p hp t ht
              obtain ⟨q', hq', he'⟩ := h3 p hp t ht
              exact ⟨q', hq', by simp [show p ≠ i by omega, he']⟩
            · intro t ht
              by_cases htk : t = k
              · subst htk; exact ⟨q, hq, by simp⟩
              · obtain ⟨q', hq', he'⟩ := h4 t (by omega)
                exact ⟨q', hq', by simp [htk, he']⟩)
        refine ⟨(f2, b2, o), by simp [projBody, hf1, hf2, hb1, hb2, ho], if2.1, if2.2.1, ib2.1, ib2.2.1, ior, ioc, ?_⟩
        intro p hp t ht
        by_cases hpi : p = i
        · subst hpi; exact iod.2 t ht
        · exact iod.1 p (by omega) t ht)
  refine ⟨out, by simp only [projectInequalityUpdate]; rw [hst]; rfl, hor, hoc, ?_⟩
  rw [hr] at hod
  exact hod

end Verif.Proofs
