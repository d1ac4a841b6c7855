import Verif.Proofs.TestOracle

/-! # C82: what the unit tests notice -/

namespace Verif.Properties
open Verif Num Spec Model

/-- C82, full claim: a test that passes has compared arrays that agree up to the absolute tolerance. -/
def C82_claim : Prop := ∀ (rtol atol : ℚ) (y z : List Num), 0 ≤ rtol → 0 ≤ atol → checkAgreement rtol atol y z = some true → List.Forall₂ (AgreeTo atol) y z

/-- C82: one difference that is not a number makes the test pass, whatever the other entries and the tolerances are.  The difference is
not a number if one of the entries is NaN or both are the same infinity. -/
theorem C82_nan_passes (rtol atol : ℚ) {y z : List Num} (h : y.length = z.length) {i : ℕ} (hi : i < y.length)
    (hn : y[i] = nan ∨ z[i] = nan ∨ y[i] = z[i] ∧ (y[i] = pinf ∨ y[i] = ninf)) : checkAgreement rtol atol y z = some true := by
  have hd : Num.abs (y[i] - z[i]) = nan := by
    rcases hn with e | e | ⟨e, e' | e'⟩
    · rw [e]; rfl
    · rw [e]; cases y[i] <;> rfl
    · rw [← e, e']; rfl
    · rw [← e, e']; rfl
  have hmem : nan ∈ List.zipWith (fun a b => Num.abs (a - b)) y z := by
    rw [← hd]
    have hl : i < (List.zipWith (fun a b => Num.abs (a - b)) y z).length := by simp [hi, ← h]
    have := List.getElem_mem hl
    simpa using this
  have hy : y ≠ [] := by rintro rfl; simp at hi
  obtain ⟨top, ht⟩ := Proofs.npMax_some hy
  unfold checkAgreement scaleOf
  rw [if_neg (by simpa using h)]
  simp only [Option.bind_eq_bind]
  rw [Proofs.npMax_nan hmem, ht]
  simp only [Option.bind_some]
  rw [Proofs.npMax_nan (List.mem_map.mpr ⟨nan, hmem, rfl⟩)]
  rfl

/-- C82 is false: a NaN on one side hides that the other entries are a million apart. -/
theorem C82_claim_false : ¬ C82_claim := by
  intro h
  have := h (1 / 20) (1 / 10 ^ 8) [fin 0, fin 1] [fin 1000000, nan] (by norm_num) (by norm_num)
    (C82_nan_passes _ _ rfl (i := 1) (by simp) (Or.inr (Or.inl rfl)))
  cases this with
  | cons h1 _ =>
    rcases h1 with ⟨p, q, e1, e2, h⟩ | h
    · rw [← Num.fin.inj e1, ← Num.fin.inj e2] at h
      norm_num at h
    · simp at h

/-- C82 for finite arrays: the test passes exactly when every difference is at most the absolute tolerance and at most the relative tolerance times
the distance of the greatest reference value from `-1e-30`. -/
theorem C82_finite_partial (rtol atol : ℚ) {l : List (ℚ × ℚ)} (hne : l ≠ []) {M : ℚ} (hM : IsGreatest {q | q ∈ l.map Prod.fst} M)
    (h0 : M + 1 / 10 ^ 30 ≠ 0) :
    checkAgreement rtol atol (l.map (fun p => fin p.1)) (l.map (fun p => fin p.2)) =
      some (decide (∀ p ∈ l, |p.1 - p.2| ≤ atol ∧ |p.1 - p.2| ≤ rtol * |M + 1 / 10 ^ 30|)) := by
  obtain ⟨M', t1, t2⟩ := Proofs.npMax_fin (l := l.map Prod.fst) (by simpa using hne)
  obtain rfl := t2.unique hM
  have ht : npMax (l.map (fun p => fin p.1)) = some (fin M') := by rw [← t1, List.map_map]; rfl
  have he : List.zipWith (fun a b => Num.abs (a - b)) (l.map (fun p => fin p.1)) (l.map (fun p => fin p.2)) = (l.map (fun p => |p.1 - p.2|)).map fin := by
    rw [List.zipWith_map, List.zipWith_self, List.map_map]
    exact List.map_congr_left fun p _ => by simp
  obtain ⟨E, e1, e2, e3⟩ := Proofs.npMax_fin (l := l.map (fun p => |p.1 - p.2|)) (by simpa using hne)
  have hs0 : 0 < |M' + 1 / 10 ^ 30| := abs_pos.mpr h0
  have hrel : ((l.map (fun p => |p.1 - p.2|)).map fin).map (fun e => npDiv e (fin |M' + tiny|)) =
      (l.map (fun p => |p.1 - p.2| / |M' + tiny|)).map fin := by
    rw [List.map_map, List.map_map, List.map_map]
    refine List.map_congr_left fun p _ => ?_
    simp only [Function.comp, npDiv]
    exact if_pos (ne_of_gt hs0)
  obtain ⟨R, r1, r2, r3⟩ := Proofs.npMax_fin (l := l.map (fun p => |p.1 - p.2| / |M' + tiny|)) (by simpa using hne)
  unfold checkAgreement scaleOf
  rw [if_neg (by simp), he]
  dsimp only
  rw [e1, ht]
  simp only [Option.bind_eq_bind, Option.bind_some]
  rw [fin_add, abs_fin, hrel, r1]
  simp only [Option.bind_some, gt, lt_fin, Option.some.injEq]
  rw [Bool.eq_iff_iff]
  simp only [Bool.not_eq_true', Bool.or_eq_false_iff, decide_eq_false_iff_not, not_lt, decide_eq_true_eq]
  have e2 : E ∈ l.map (fun p => |p.1 - p.2|) := e2
  have r2 : R ∈ l.map (fun p => |p.1 - p.2| / |M' + tiny|) := r2
  constructor
  · rintro ⟨h1, h2⟩ p hp
    refine ⟨(e3 (List.mem_map.mpr ⟨p, hp, rfl⟩)).trans h1, ?_⟩
    have := (r3 (List.mem_map.mpr ⟨p, hp, rfl⟩)).trans h2
    exact (div_le_iff₀ hs0).mp this
  · intro h
    obtain ⟨p, hp, rfl⟩ := List.mem_map.mp e2
    obtain ⟨p', hp', rfl⟩ := List.mem_map.mp r2
    exact ⟨(h p hp).1, (div_le_iff₀ hs0).mpr (h p' hp').2⟩

/-- C82 for the knapsack tables, full claim: the comparison passes exactly when all tables agree up to the absolute tolerance. -/
def C82_tables_claim : Prop := ∀ (rtol atol : ℚ) (files : List (List Num × List Num)), 0 ≤ rtol → 0 ≤ atol → atol < 1 → rtol < 1 →
  ∀ r, checkTables rtol atol files = some r → (r = true ↔ ∀ f ∈ files, List.Forall₂ (AgreeTo atol) f.1 f.2)

/-- The comparison of tables ignores where the infinite entries are. -/
theorem C82_misplaced : checkTables (1 / 20) (1 / 10 ^ 8) [([pinf, fin 1], [fin 1, pinf])] = some true := by decide +kernel

/-- C82 for tables is false: it passes although the infinite entries are in different places (and it fails for a difference within the
tolerance, see `C82_tables_partial`). -/
theorem C82_tables_claim_false : ¬ C82_tables_claim := by
  intro h
  have := (h (1 / 20) (1 / 10 ^ 8) _ (by norm_num) (by norm_num) (by norm_num) (by norm_num) true C82_misplaced).mp rfl _ (List.mem_singleton.mpr rfl)
  cases this with
  | cons h1 _ =>
    rcases h1 with ⟨p, q, e1, e2, h⟩ | h
    · simp at e1
    · simp at h

/-- C82 for tables whose infinite entries are in the same places, the other entries being finite: the comparison passes exactly when the tables are
identical; the tolerances have no effect (as long as they are below 1). -/
theorem C82_tables_partial {rtol atol : ℚ} (ha : 0 ≤ atol) (hr : 0 ≤ rtol) (ha1 : atol < 1) (hr1 : rtol < 1) {files : List (List Num × List Num)}
    (hne : files ≠ []) (hs : ∀ f ∈ files, List.Forall₂ SameShape f.1 f.2)
    (htop : ∀ f ∈ files, ∃ M : ℚ, IsGreatest {q | fin q ∈ f.1} M ∧ M + 1 / 10 ^ 30 ≠ 0) :
    checkTables rtol atol files = some (decide (∀ f ∈ files, f.1 = f.2)) := by
  have hb : ∀ b, boolGt b atol = b := fun b => by
    cases b
    · simp [boolGt, ha]
    · simp [boolGt, ha1]
  have hb' : ∀ b, boolGt b rtol = b := fun b => by
    cases b
    · simp [boolGt, hr]
    · simp [boolGt, hr1]
  obtain ⟨s, h1, h2, h3, h4, h5⟩ := loopList_inv_idx (l := files) (s := (([] : List Num), ([] : List Num), ([] : List Bool)))
    (body := fun f (s : List Num × List Num × List Bool) => do
      let e ← tableErrors f.1 f.2
      let as := s.1 ++ [e.1]
      let rs := s.2.1 ++ [e.2]
      some (as, rs, s.2.2 ++ [boolGt (as.any truthy) atol || boolGt (rs.any truthy) rtol]))
    (P := fun i s => s.1.length = i ∧ s.2.1.length = i ∧
      (s.2.2.any id = true ↔ ∃ j, j < i ∧ ∃ h : j < files.length, files[j].1 ≠ files[j].2) ∧
      (s.1.any truthy = true ↔ ∃ j, j < i ∧ ∃ h : j < files.length, files[j].1 ≠ files[j].2) ∧
      (s.2.1.any truthy = true ↔ ∃ j, j < i ∧ ∃ h : j < files.length, files[j].1 ≠ files[j].2))
    ⟨rfl, rfl, by simp, by simp, by simp⟩ (by
      rintro i hi ⟨as, rs, fs⟩ ⟨p1, p2, p3, p4, p5⟩
      have hm : files[i] ∈ files := List.getElem_mem hi
      obtain ⟨M, hM, h0⟩ := htop _ hm
      obtain ⟨a, r, e1, e2, e3⟩ := Proofs.tableErrors_spec (hs _ hm) hM h0
      have hstep : ∀ (b : Bool) (x : ℚ), (files[i].1 = files[i].2 → x = 0) → (files[i].1 ≠ files[i].2 → x ≠ 0) →
          (b = true ↔ ∃ j, j < i ∧ ∃ h : j < files.length, files[j].1 ≠ files[j].2) →
          ((b || truthy (fin x)) = true ↔ ∃ j, j < i + 1 ∧ ∃ h : j < files.length, files[j].1 ≠ files[j].2) := by
        intro b x hx1 hx2 hb
        rw [Bool.or_eq_true, hb]
        have ht : truthy (fin x) = true ↔ files[i].1 ≠ files[i].2 := by
          unfold truthy
          rw [decide_eq_true_iff]
          constructor
          · intro hx e; exact hx (by rw [hx1 e])
          · intro hx e; exact hx2 hx (Num.fin.inj e)
        rw [ht]
        constructor
        · rintro (⟨j, hj, hj'⟩ | h)
          · exact ⟨j, by omega, hj'⟩
          · exact ⟨i, by omega, hi, h⟩
        · rintro ⟨j, hj, hj', h⟩
          rcases Nat.lt_succ_iff_lt_or_eq.mp hj with hlt | rfl
          · exact Or.inl ⟨j, hlt, hj', h⟩
          · exact Or.inr h
      have ea : (as ++ [fin a]).any truthy = true ↔ ∃ j, j < i + 1 ∧ ∃ h : j < files.length, files[j].1 ≠ files[j].2 := by
        rw [List.any_append]
        simpa using hstep _ a (fun h => (e2 h).1) (fun h => (e3 h).1) p4
      have er : (rs ++ [fin r]).any truthy = true ↔ ∃ j, j < i + 1 ∧ ∃ h : j < files.length, files[j].1 ≠ files[j].2 := by
        rw [List.any_append]
        simpa using hstep _ r (fun h => (e2 h).2) (fun h => (e3 h).2) p5
      refine ⟨_, by rw [e1]; rfl, by simp [p1], by simp [p2], ?_, ea, er⟩
      dsimp only
      rw [hb, hb', List.any_append, Bool.or_eq_true, p3]
      simp only [List.any_cons, List.any_nil, Bool.or_false, id, Bool.or_eq_true]
      rw [ea, er]
      constructor
      · rintro (⟨j, hj, hj'⟩ | h | h)
        · exact ⟨j, by omega, hj'⟩
        · exact h
        · exact h
      · intro h; exact Or.inr (Or.inl h))
  have hl : files.length ≠ 0 := by simpa using hne
  obtain ⟨m1, q1⟩ := Proofs.npMax_some (l := s.1) (by rintro e; rw [e] at h2; simp at h2; exact hl h2.symm)
  obtain ⟨m2, q2⟩ := Proofs.npMax_some (l := s.2.1) (by rintro e; rw [e] at h3; simp at h3; exact hl h3.symm)
  unfold checkTables
  simp only [Option.bind_eq_bind] at h1 ⊢
  rw [h1]
  simp only [Option.bind_some, q1, q2, Option.some.injEq]
  rw [Bool.eq_iff_iff, Bool.not_eq_true', decide_eq_true_iff, ← Bool.not_eq_true, h4]
  push Not
  constructor
  · intro h f hf
    obtain ⟨j, hj, rfl⟩ := List.getElem_of_mem hf
    exact h j hj hj
  · intro h j _ hj
    exact h _ (List.getElem_mem hj)

/-- Non-vacuity: within the tolerances of the test scripts; one difference above the relative tolerance, since the greatest reference value is small;
two tables with an infinite entry in the same place, equal and slightly different. -/
example : checkAgreement (1 / 20) (1 / 10 ^ 8) [fin (-1000), fin 3] [fin (-1000 - 1 / 10 ^ 9), fin 3] = some true ∧
    checkAgreement (1 / 20) (1 / 10 ^ 8) [fin (-1000), fin 0] [fin (-1000 - 1 / 10 ^ 9), fin 0] = some false ∧
    checkTables (1 / 20) (1 / 10 ^ 8) [([pinf, fin 1], [pinf, fin 1])] = some true ∧
    checkTables (1 / 20) (1 / 10 ^ 8) [([pinf, fin 1], [pinf, fin (1 + 1 / 10 ^ 9)])] = some false :=
  ⟨by decide +kernel, by decide +kernel, by decide +kernel, by decide +kernel⟩

end Verif.Properties
