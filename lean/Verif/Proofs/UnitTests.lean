import Verif.Model.UnitTests
import Verif.Proofs.KnapsackTables
import Verif.Proofs.TestOracle
import Verif.Proofs.PyKcRun
import Verif.Proofs.PyTspRun
import Verif.Spec.Same

/-! Equal results pass the unit tests. -/

namespace Verif.Proofs
open Verif Num Model Spec

theorem fold_max_zero (l : List Num) (x : Num) (hx : x = fin 0 ∨ x = nan) (h : ∀ y ∈ l, y = fin 0 ∨ y = nan) :
    l.foldl npMax2 x = fin 0 ∨ l.foldl npMax2 x = nan := by
  induction l generalizing x with
  | nil => exact hx
  | cons y l ih =>
    refine ih _ ?_ (fun z hz => h z (by simp [hz]))
    rcases hx with rfl | rfl <;> rcases h y (by simp) with rfl | rfl <;> decide

theorem npMax_zero {l : List Num} (hne : l ≠ []) (h : ∀ y ∈ l, y = fin 0 ∨ y = nan) : npMax l = some (fin 0) ∨ npMax l = some nan := by
  rcases l with _ | ⟨x, l⟩
  · exact absurd rfl hne
  · rw [npMax]
    rcases fold_max_zero l x (h x (by simp)) (fun y hy => h y (by simp [hy])) with e | e <;> rw [e] <;> simp

/-- An array passes the comparison with itself. -/
theorem checkAgreement_self {rtol atol : ℚ} (hr : 0 ≤ rtol) (ha : 0 ≤ atol) {y : List Num} (hy : y ≠ []) : checkAgreement rtol atol y y = some true := by
  have he : ∀ z ∈ List.zipWith (fun a b => Num.abs (a - b)) y y, z = fin 0 ∨ z = nan := by
    intro z hz
    rw [List.zipWith_self] at hz
    obtain ⟨a, -, rfl⟩ := List.mem_map.mp hz
    cases a with
    | fin q => left; simp
    | nan => right; rfl
    | ninf => right; rfl
    | pinf => right; rfl
  have hne : List.zipWith (fun a b => Num.abs (a - b)) y y ≠ [] := by rw [List.zipWith_self]; simpa using hy
  have hg : ∀ v : Num, ∀ q : ℚ, 0 ≤ q → (v = fin 0 ∨ v = nan) → gt v (fin q) = false := by
    rintro v q hq (rfl | rfl)
    · simp [gt, hq]
    · rfl
  obtain ⟨top, ht⟩ := npMax_some hy
  obtain ⟨m, hm, hm'⟩ : ∃ m, npMax (List.zipWith (fun a b => Num.abs (a - b)) y y) = some m ∧ (m = fin 0 ∨ m = nan) := by
    rcases npMax_zero hne he with e | e
    · exact ⟨_, e, Or.inl rfl⟩
    · exact ⟨_, e, Or.inr rfl⟩
  obtain ⟨r, hr1, hr2⟩ : ∃ r, npMax ((List.zipWith (fun a b => Num.abs (a - b)) y y).map (fun e => npDiv e (Num.abs (top + fin tiny)))) = some r ∧
      (r = fin 0 ∨ r = nan) := by
    have hd : ∀ z ∈ (List.zipWith (fun a b => Num.abs (a - b)) y y).map (fun e => npDiv e (Num.abs (top + fin tiny))), z = fin 0 ∨ z = nan := by
      intro z hz
      obtain ⟨e, h1, rfl⟩ := List.mem_map.mp hz
      rcases he e h1 with rfl | rfl
      · cases Num.abs (top + fin tiny) with
        | fin b => by_cases hb : b = 0 <;> simp [npDiv, hb]
        | nan => right; rfl
        | ninf => left; rfl
        | pinf => left; rfl
      · right; rfl
    rcases npMax_zero (by simpa using hne) hd with e | e
    · exact ⟨_, e, Or.inl rfl⟩
    · exact ⟨_, e, Or.inr rfl⟩
  unfold checkAgreement scaleOf
  rw [if_neg (by simp)]
  simp only [Option.bind_eq_bind, hm, ht, Option.bind_some, hr1, hg m atol ha hm', hg r rtol hr hr2]
  rfl

theorem toList_same {n : ℕ} {a b : Arr Num} (h : SameArr n a b) : a.toList = b.toList := by
  unfold Arr.toList
  rw [h.1, h.2.1]
  exact List.map_congr_left fun i hi => h.2.2 i (List.mem_range.mp hi)

theorem flatten_same {m n : ℕ} {a b : Mat Num} (h : SameMat m n a b) : flattenMat a = flattenMat b := by
  unfold flattenMat
  rw [h.1, h.2.1, h.2.2.1, h.2.2.2.1]
  refine List.flatMap_congr fun i hi => List.map_congr_left fun j hj => ?_
  exact h.2.2.2.2 i (List.mem_range.mp hi) j (List.mem_range.mp hj)

theorem flatten_ne {a : Mat Num} (h1 : 0 < a.rows) (h2 : 0 < a.cols) : flattenMat a ≠ [] := by
  intro e
  have : a.data 0 0 ∈ flattenMat a := List.mem_flatMap.mpr ⟨0, List.mem_range.mpr h1, List.mem_map.mpr ⟨0, List.mem_range.mpr h2, rfl⟩⟩
  rw [e] at this
  simp at this

theorem compareArr_pass {n : ℕ} {p q : Option (Arr Num)} (hn : 0 < n) (h : AgreeArr n p q) : compareArr p q = some true := by
  obtain ⟨a, b, rfl, rfl, hs⟩ := h
  simp only [compareArr, Option.bind_eq_bind, Option.bind_some, ← toList_same hs]
  refine checkAgreement_self (by norm_num [testRtol]) (by norm_num [testAtol]) ?_
  intro e
  have := congrArg List.length e
  simp [Arr.toList, hs.1] at this
  omega

theorem compareMat_pass {m n : ℕ} {p q : Option (Mat Num)} (hm : 0 < m) (hn : 0 < n) (h : AgreeMat m n p q) : compareMat p q = some true := by
  obtain ⟨a, b, rfl, rfl, hs⟩ := h
  simp only [compareMat, Option.bind_eq_bind, Option.bind_some, ← flatten_same hs]
  exact checkAgreement_self (by norm_num [testRtol]) (by norm_num [testAtol]) (flatten_ne (by rw [hs.1]; exact hm) (by rw [hs.2.2.1]; exact hn))

/-- Row by row, a table and the vector of its entries. -/
theorem flatten_vec {m n : ℕ} {a : Mat Num} {b : Arr Num} (hr : a.rows = m) (hc : a.cols = n) (hb : b.size = m * n)
    (h : ∀ i < m, ∀ j < n, a.data i j = b.data (i * n + j)) : flattenMat a = b.toList := by
  unfold flattenMat Arr.toList
  rw [hr, hc, hb]
  clear hr hc hb
  induction m with
  | zero => simp
  | succ m ih =>
    rw [List.range_succ, List.flatMap_append, ih fun i hi => h i (by omega), Nat.succ_mul, List.range_add, List.map_append]
    congr 1
    simp only [List.flatMap_cons, List.flatMap_nil, List.append_nil, List.map_map]
    exact List.map_congr_left fun j hj => h m (by omega) j (List.mem_range.mp hj)

theorem compareFlat_pass {m n : ℕ} {p : Option (Mat Num)} {q : Option (Arr Num)} (hm : 0 < m) (hn : 0 < n)
    (h : ∃ a b, p = some a ∧ q = some b ∧ a.rows = m ∧ a.cols = n ∧ b.size = m * n ∧ ∀ i < m, ∀ j < n, a.data i j = b.data (i * n + j)) :
    compareFlat p q = some true := by
  obtain ⟨a, b, rfl, rfl, hr, hc, hb, hd⟩ := h
  simp only [compareFlat, Option.bind_eq_bind, Option.bind_some, ← flatten_vec hr hc hb hd]
  exact checkAgreement_self (by norm_num [testRtol]) (by norm_num [testAtol]) (flatten_ne (by rw [hr]; exact hm) (by rw [hc]; exact hn))

/-- One difference above the absolute tolerance makes the comparison fail. -/
theorem checkAgreement_detects {rtol atol : ℚ} {l : List (ℚ × ℚ)} {p : ℚ × ℚ} (hp : p ∈ l) (h : atol < |p.1 - p.2|) :
    checkAgreement rtol atol (l.map (fun p => fin p.1)) (l.map (fun p => fin p.2)) = some false := by
  have hne : l ≠ [] := List.ne_nil_of_mem hp
  obtain ⟨M, t1, t2⟩ := npMax_fin (l := l.map Prod.fst) (by simpa using hne)
  have ht : npMax (l.map (fun p => fin p.1)) = some (fin M) := by rw [← t1, List.map_map]; rfl
  have he : List.zipWith (fun a b => Num.abs (a - b)) (l.map (fun p => fin p.1)) (l.map (fun p => fin p.2)) = (l.map (fun p => |p.1 - p.2|)).map fin := by
    rw [List.zipWith_map, List.zipWith_self, List.map_map]
    exact List.map_congr_left fun p _ => by simp
  obtain ⟨E, e1, e2, e3⟩ := npMax_fin (l := l.map (fun p => |p.1 - p.2|)) (by simpa using hne)
  have hE : atol < E := lt_of_lt_of_le h (e3 (List.mem_map.mpr ⟨p, hp, rfl⟩))
  have hm : ∀ k : List Num, k ≠ [] → ∃ v, npMax k = some v := fun k hk => by
    cases k with
    | nil => exact absurd rfl hk
    | cons x k => exact ⟨_, rfl⟩
  obtain ⟨R, hR⟩ := hm (((l.map (fun p => |p.1 - p.2|)).map fin).map (fun e => npDiv e (Num.abs (fin M + fin tiny)))) (by simpa using hne)
  unfold checkAgreement scaleOf
  rw [if_neg (by simp), he]
  dsimp only
  rw [e1, ht]
  simp only [Option.bind_eq_bind, Option.bind_some]
  rw [hR]
  simp [gt, lt_fin, hE]

theorem toList_is {n : ℕ} {a b : Arr Num} {x y : ℕ → ℚ} (ha : a.Is n x) (hb : b.Is n y) :
    a.toList = ((List.range n).map (fun i => (x i, y i))).map (fun p => fin p.1) ∧
      b.toList = ((List.range n).map (fun i => (x i, y i))).map (fun p => fin p.2) := by
  simp only [Arr.toList, ha.1, hb.1, List.map_map]
  exact ⟨List.map_congr_left fun i hi => ha.2 i (List.mem_range.mp hi), List.map_congr_left fun i hi => hb.2 i (List.mem_range.mp hi)⟩

theorem flatten_is {m n : ℕ} {a : Mat Num} {x : ℕ → ℕ → ℚ} (ha : a.Is m n x) :
    flattenMat a = ((List.range m).flatMap (fun i => (List.range n).map (fun j => x i j))).map fin := by
  simp only [flattenMat, ha.1, ha.2.1, List.map_flatMap, List.map_map]
  exact List.flatMap_congr fun i hi => List.map_congr_left fun j hj => ha.2.2 i (List.mem_range.mp hi) j (List.mem_range.mp hj)

theorem flatten_pairs {m n : ℕ} {a b : Mat Num} {x y : ℕ → ℕ → ℚ} (ha : a.Is m n x) (hb : b.Is m n y) :
    flattenMat a = ((List.range m).flatMap (fun i => (List.range n).map (fun j => (x i j, y i j)))).map (fun p => fin p.1) ∧
      flattenMat b = ((List.range m).flatMap (fun i => (List.range n).map (fun j => (x i j, y i j)))).map (fun p => fin p.2) := by
  rw [flatten_is ha, flatten_is hb]
  simp only [List.map_flatMap, List.map_map]
  exact ⟨rfl, rfl⟩

theorem agreeArr_is {n : ℕ} {p q : Option (Arr Num)} {a b : Arr Num} {f : ℕ → ℚ} (h1 : p = some a) (h2 : q = some b) (ha : a.Is n f) (hb : b.Is n f) :
    AgreeArr n p q := ⟨a, b, h1, h2, ha.1, hb.1, fun i hi => by rw [ha.2 i hi, hb.2 i hi]⟩

theorem agreeMat_is {m n : ℕ} {p q : Option (Mat Num)} {a b : Mat Num} {f : ℕ → ℕ → ℚ} (h1 : p = some a) (h2 : q = some b) (ha : a.Is m n f)
    (hb : b.Is m n f) : AgreeMat m n p q :=
  ⟨a, b, h1, h2, ha.1, hb.1, ha.2.1, hb.2.1, fun i hi j hj => by rw [ha.2.2 i hi j hj, hb.2.2 i hi j hj]⟩

/-- The entries of a list of rows that are the rows of a table. -/
theorem flattenArrs_eq {T c : ℕ} {l : List (Arr Num)} {M : Mat Num} (hl : l.length = T) (hr : M.rows = T) (hc : M.cols = c)
    (h : ∀ j < T, ∃ row, l[j]? = some row ∧ row.size = c ∧ ∀ a < c, row.data a = M.data j a) : flattenArrs l = flattenMat M := by
  have : l = (List.range T).map (fun j => (l[j]?).getD (Arr.fill 0 0)) := by
    refine List.ext_getElem (by simp [hl]) fun j h1 h2 => ?_
    simp [List.getElem?_eq_getElem h1]
  rw [flattenArrs, this, List.flatMap_map, flattenMat, hr, hc]
  refine List.flatMap_congr fun j hj => ?_
  obtain ⟨row, e1, e2, e3⟩ := h j (List.mem_range.mp hj)
  rw [e1, Option.getD_some, Arr.toList, e2]
  exact List.map_congr_left fun a ha => e3 a (List.mem_range.mp ha)

theorem mem_flatten {M : Mat Num} {v : Num} (h : v ∈ flattenMat M) : ∃ i < M.rows, ∃ j < M.cols, v = M.data i j := by
  obtain ⟨i, hi, h⟩ := List.mem_flatMap.mp h
  obtain ⟨j, hj, rfl⟩ := List.mem_map.mp h
  exact ⟨i, List.mem_range.mp hi, j, List.mem_range.mp hj, rfl⟩

theorem flatten_mem {M : Mat Num} {i j : ℕ} (hi : i < M.rows) (hj : j < M.cols) : M.data i j ∈ flattenMat M :=
  List.mem_flatMap.mpr ⟨i, List.mem_range.mpr hi, List.mem_map.mpr ⟨j, List.mem_range.mpr hj, rfl⟩⟩

/-- A finite entry that is the greatest one. -/
theorem exists_greatest {l : List Num} (h : ∀ v ∈ l, v = pinf ∨ ∃ q, v = fin q) (h0 : fin 0 ∈ l) :
    ∃ M : ℚ, IsGreatest {q | fin q ∈ l} M ∧ 0 ≤ M := by
  obtain ⟨M, h1, h2⟩ := (l.toFinset.image Num.val ∩ (l.toFinset.filter (fun v => v ≠ pinf)).image Num.val).exists_max_image id
    ⟨0, by simp only [Finset.mem_inter, Finset.mem_image, Finset.mem_filter, List.mem_toFinset]
           exact ⟨⟨_, h0, rfl⟩, ⟨_, ⟨h0, by simp⟩, rfl⟩⟩⟩
  simp only [Finset.mem_inter, Finset.mem_image, Finset.mem_filter, List.mem_toFinset] at h1 h2
  refine ⟨M, ⟨?_, fun q hq => ?_⟩, ?_⟩
  · obtain ⟨v, ⟨hv, hne⟩, e⟩ := h1.2
    rcases h v hv with rfl | ⟨q, rfl⟩
    · exact absurd rfl hne
    · simp only [Num.val_fin] at e; subst e; exact hv
  · exact h2 q ⟨⟨_, hq, rfl⟩, ⟨_, ⟨hq, by simp⟩, rfl⟩⟩
  · exact h2 0 ⟨⟨_, h0, rfl⟩, ⟨_, ⟨h0, by simp⟩, rfl⟩⟩

section tables
variable {T cap sz : ℕ} {nz : List ℕ} {w : Arr ℕ} {wf : ℕ → ℕ} {m : Arr Num} {mf : ℕ → ℚ}

theorem bRow_fin (hf : ∀ t < T, wf t ≤ cap) (k : ℕ) (hk : k ≤ T) : ∀ a, ∃ q, bRow cap T wf mf k a = fin q := by
  induction k with
  | zero => exact fun a => ⟨0, rfl⟩
  | succ k ih =>
    intro a
    by_cases h : wf (T - (k + 1)) = 0
    · obtain ⟨q, e⟩ := ih (by omega) a
      exact ⟨q, by rw [bRow, if_pos h, e]⟩
    · rw [bRow, if_neg h, bwdVal]
      obtain ⟨q, e⟩ := ih (by omega) a
      obtain ⟨q', e'⟩ := ih (by omega) (a + wf (T - (k + 1)))
      split
      · simp only [e, e', fin_add, cmin_fin]; exact ⟨_, rfl⟩
      · exact ⟨q, e⟩

theorem forward_files (ok : DeptOk T cap nz sz w wf) (hm : m.Is T mf) :
    ∃ y, utForwardFiles T ⟨cap, nz, sz, w, m⟩ = some (y, y) ∧ (∀ v ∈ y, v = pinf ∨ ∃ q, v = fin q) ∧ fin 0 ∈ y := by
  obtain ⟨F, f1, f2, f3⟩ := pyForward_length (pyNz_ok ok) hm
  obtain ⟨M, m1, m2, m3, m4⟩ := knapForward_spec ok hm (st := Mat.fill (T + 1) (cap + 1) 0) rfl rfl
  have he : flattenArrs F = flattenMat M := flattenArrs_eq f2 m2 m3 fun j hj => by
    obtain ⟨row, r1, r2, r3⟩ := f3 j (by omega)
    exact ⟨row, r1, r2, fun a ha => (r3 a (by omega)).unique (m4 j (by omega) a (by omega))⟩
  refine ⟨flattenMat M, ?_, fun v hv => ?_, ?_⟩
  · simp only [utForwardFiles, f1, m1, Option.bind_eq_bind, Option.bind_some, he]
  · obtain ⟨i, hi, j, hj, rfl⟩ := mem_flatten hv
    rcases m4 i (by omega) j (by omega) with ⟨-, e⟩ | ⟨q, e, -⟩
    · exact Or.inl e
    · exact Or.inr ⟨q, e⟩
  · have h0 : M.data 0 0 = fin 0 := by
      refine (m4 0 (by omega) 0 (by omega)).unique ?_
      refine isMin_fin ⟨⟨∅, by simp, by simp, by simp [cost]⟩, ?_⟩
      rintro q ⟨S, h1, -, rfl⟩
      have : S = ∅ := by
        rw [← Finset.subset_empty]
        intro t ht
        have := h1 ht
        rw [mem_users] at this
        omega
      simp [this, cost]
    rw [← h0]
    exact flatten_mem (by omega) (by omega)

theorem backward_files (ok : DeptOk T cap nz sz w wf) (hm : m.Is T mf) :
    ∃ y, utBackwardFiles T ⟨cap, nz, sz, w, m⟩ = some (y, y) ∧ (∀ v ∈ y, v = pinf ∨ ∃ q, v = fin q) ∧ fin 0 ∈ y := by
  obtain ⟨F, f1, f2, f3⟩ := pyBackward_rows (pyNz_ok ok) hm
  obtain ⟨M, m1, m2, m3, m4⟩ := knapBackward_rows ok hm (st := Mat.fill (T + 1) (cap + 1) 0) rfl rfl
  have he : flattenArrs F = flattenMat M := flattenArrs_eq f2 m2 m3 fun j hj => by
    obtain ⟨row, r1, r2, r3⟩ := f3 j (by omega)
    exact ⟨row, r1, r2, fun a ha => by rw [r3 a (by omega), m4 j (by omega) a (by omega)]⟩
  have hf : ∀ t < T, wf t ≤ cap := fun t ht => by
    by_cases h : wf t = 0
    · omega
    · exact ok.fits t ((ok.mem t).mpr ⟨ht, h⟩)
  refine ⟨flattenMat M, ?_, fun v hv => ?_, ?_⟩
  · simp only [utBackwardFiles, f1, m1, Option.bind_eq_bind, Option.bind_some, he]
  · obtain ⟨i, hi, j, hj, rfl⟩ := mem_flatten hv
    rw [m4 i (by omega) j (by omega)]
    exact Or.inr (bRow_fin hf _ (by omega) j)
  · have h0 : M.data T 0 = fin 0 := by
      rw [m4 T le_rfl 0 (by omega), Nat.sub_self]; rfl
    rw [← h0]
    exact flatten_mem (by omega) (by omega)

theorem rowsOf_rd {F : Mat Num} {n c : ℕ} (hr : F.rows = n + 1) (hc : F.cols = c + 1) : ∀ j ≤ n, ∀ a ≤ c, rowsRd (rowsOf F) j a = some (F.data j a) := by
  intro j hj a ha
  simp only [rowsRd, rowsOf, List.getElem?_map, List.getElem?_range (show j < F.rows by omega), Option.map_some, Option.bind_eq_bind, Option.bind_some]
  exact Arr.rd_of_lt (show a < F.cols by omega)

theorem minElement_some {l : List Num} (h : l ≠ []) : ∃ v, minElement l = some v := by
  rcases l with _ | ⟨x, l⟩
  · exact absurd rfl h
  · exact ⟨_, rfl⟩

theorem knapOut_total (ok : DeptOk T cap nz sz w wf) (hm : m.Is T mf) {F B : Mat Num} (hFr : F.rows = T + 1) (hFc : F.cols = cap + 1)
    (hBr : B.rows = T + 1) (hBc : B.cols = cap + 1) {t : ℕ} (ht : t < T) (hne : wf t ≠ 0) :
    ∃ v, ∀ out : Arr Num, out.size = T → knapOut cap w m F B t out = some ⟨out.size, fun i => if i = t then v else out.data i⟩ := by
  have hfit : wf t ≤ cap := ok.fits t ((ok.mem t).mpr ⟨ht, hne⟩)
  have hw : w.rd t = some (wf t) := by rw [Arr.rd_of_lt (by rw [ok.w_size]; exact ht), ok.w_data t ht]
  have hmt : m.rd t = some (fin (mf t)) := hm.rd ht
  by_cases h0 : t = 0
  · subst h0
    refine ⟨F.data 0 0 + B.data (0 + 1) (wf 0) + fin (mf 0) - (F.data 0 0 + B.data (0 + 1) 0) - fin (mf 0), fun out ho => ?_⟩
    simp only [knapOut, hw, hmt, Option.bind_eq_bind, Option.bind_some, ne_eq, hne, not_false_eq_true, if_true]
    rw [Mat.rd_of_lt (by omega) (by omega), Mat.rd_of_lt (by omega) (by omega), Mat.rd_of_lt (by omega) (by omega)]
    exact Arr.wr_of_lt (by omega)
  obtain ⟨p, h1, h2⟩ := loopUp_inv (n := cap + 1) (body := knapPaths cap (wf t) (fin (mf t)) t F B) (s := ([], []))
    (fun k p => 0 < k → p.1 ≠ [] ∧ p.2 ≠ []) (by simp) (by
      rintro k hk ⟨a, b⟩ hp
      unfold knapPaths
      by_cases hle : k + wf t ≤ cap
      · simp only [if_pos hle]
        rw [Mat.rd_of_lt (by omega) (by omega), Mat.rd_of_lt (by omega) (by omega), Mat.rd_of_lt (by omega) (by omega)]
        exact ⟨_, rfl, fun _ => ⟨by simp, by simp⟩⟩
      · simp only [if_neg hle]
        rw [Mat.rd_of_lt (by omega) (by omega), Mat.rd_of_lt (by omega) (by omega)]
        exact ⟨_, rfl, fun _ => ⟨(hp (by omega)).1, by simp⟩⟩)
  obtain ⟨s, hs⟩ := minElement_some (h2 (by omega)).1
  obtain ⟨d, hd⟩ := minElement_some (h2 (by omega)).2
  refine ⟨s - d - fin (mf t), fun out ho => ?_⟩
  simp only [knapOut, hw, hmt, Option.bind_eq_bind, Option.bind_some, ne_eq, hne, not_false_eq_true, if_true, h0, if_false, h1, hs, hd]
  exact Arr.wr_of_lt (by omega)

theorem output_rows (ok : DeptOk T cap nz sz w wf) (hm : m.Is T mf) {F B : Mat Num} (hFr : F.rows = T + 1) (hFc : F.cols = cap + 1)
    (hBr : B.rows = T + 1) (hBc : B.cols = cap + 1) :
    ∃ a b, utOutputRows T (⟨cap, nz, sz, w, m⟩, F, B) = some (a, b) ∧ SameArr T a b := by
  have ok' := pyNz_ok ok
  have hv : ∀ t, ∃ v, t < T → wf t ≠ 0 → ∀ out : Arr Num, out.size = T →
      knapOut cap w m F B t out = some ⟨out.size, fun i => if i = t then v else out.data i⟩ := fun t => by
    by_cases h : t < T ∧ wf t ≠ 0
    · obtain ⟨v, hv⟩ := knapOut_total ok hm hFr hFc hBr hBc h.1 h.2
      exact ⟨v, fun _ _ => hv⟩
    · exact ⟨0, fun h1 h2 => absurd ⟨h1, h2⟩ h⟩
  choose v hv using hv
  obtain ⟨a, a1, a2, a3⟩ := loopList_inv_idx (l := pyNz w) (body := pyOut cap w m (rowsOf F) (rowsOf B)) (s := Arr.fill T 0)
    (fun k r => r.size = T ∧ ∀ i < T, r.data i = if i ∈ (pyNz w).take k then v i else 0) ⟨rfl, fun i _ => by simp [Arr.fill]⟩ (by
      rintro k hk r ⟨r1, r2⟩
      have hmem := (ok'.mem _).mp (List.getElem_mem hk)
      refine ⟨⟨r.size, fun i => if i = (pyNz w)[k] then v (pyNz w)[k] else r.data i⟩, ?_, r1, fun i hi => ?_⟩
      · rw [pyOut_eq ok' hmem.1 hmem.2 hFr hFc hBr hBc (rowsOf_rd hFr hFc) (rowsOf_rd hBr hBc)]
        exact hv _ hmem.1 hmem.2 r r1
      · simp only
        have ht : i ∈ (pyNz w).take (k + 1) ↔ i ∈ (pyNz w).take k ∨ i = (pyNz w)[k] := by
          rw [List.take_succ_eq_append_getElem hk, List.mem_append, List.mem_singleton]
        rw [r2 i hi]
        by_cases e : i = (pyNz w)[k]
        · rw [if_pos e, if_pos (ht.mpr (Or.inr e)), e]
        · rw [if_neg e]
          exact if_congr ⟨fun h => ht.mpr (Or.inl h), fun h => (ht.mp h).resolve_right e⟩ rfl rfl)
  obtain ⟨b, b1, b2, b3⟩ := loopUp_inv (n := w.size) (body := knapOut cap w m F B) (s := Arr.fill T 0)
    (fun k r => r.size = T ∧ ∀ i < T, r.data i = if i < k ∧ wf i ≠ 0 then v i else 0) ⟨rfl, fun i _ => by simp [Arr.fill]⟩ (by
      rintro k hk r ⟨r1, r2⟩
      have hkT : k < T := by rw [ok.w_size] at hk; exact hk
      by_cases hw : wf k = 0
      · refine ⟨⟨r.size, fun i => if i = k then 0 else r.data i⟩, ?_, r1, fun i hi => ?_⟩
        · have : w.rd k = some 0 := by rw [Arr.rd_of_lt hk, ok.w_data k hkT, hw]
          simp only [knapOut, this, Option.bind_eq_bind, Option.bind_some, ne_eq, not_true, if_false]
          exact Arr.wr_of_lt (by omega)
        · simp only
          rw [r2 i hi]
          by_cases e : i = k
          · subst e; simp [hw]
          · rw [if_neg e]
            refine if_congr ?_ rfl rfl
            constructor
            · rintro ⟨h1, h2⟩; exact ⟨by omega, h2⟩
            · rintro ⟨h1, h2⟩; exact ⟨by omega, h2⟩
      · refine ⟨_, hv k hkT hw r r1, r1, fun i hi => ?_⟩
        simp only
        rw [r2 i hi]
        by_cases e : i = k
        · subst e; simp [hw]
        · rw [if_neg e]
          refine if_congr ?_ rfl rfl
          constructor
          · rintro ⟨h1, h2⟩; exact ⟨by omega, h2⟩
          · rintro ⟨h1, h2⟩; exact ⟨by omega, h2⟩)
  refine ⟨a, b, ?_, a2, b2, fun i hi => ?_⟩
  · simp only [utOutputRows, knapExtrinsic, a1, b1, Option.bind_eq_bind, Option.bind_some]
  · rw [a3 i hi, b3 i hi, List.take_length]
    refine if_congr ?_ rfl rfl
    rw [ok'.mem, ok.w_size]

end tables

/-- The filter of the Python program on the same table again and again. -/
theorem pyFilterRun_is {m n : ℕ} {flag : Bool} {alpha : ℚ} (hfa : flag = true → alpha ≠ 0) {dummy : Mat Num} {r : ℕ → ℕ → ℚ} (hd : dummy.Is m n r)
    (K : ℕ) : ∃ u o, pyFilterRun flag alpha dummy (K + 1) = some (some u, o) ∧ u.Is m n (fun i j => damped flag alpha (fun _ => r i j) K) ∧
      (flag = true → ∃ v, o = some v ∧ v.Is m n (fun i j => damped flag alpha (fun _ => r i j) K)) := by
  induction K with
  | zero =>
    obtain ⟨u, o, h1, h2, h3⟩ := pyFilter_is (k := 0) (old := none) (p := fun _ _ => 0) hfa hd (fun h => absurd rfl h)
    refine ⟨u, o, ?_, h2.congr fun i _ j _ => ?_, fun hf => ?_⟩
    · simp only [pyFilterRun, loopUp, Option.bind_some, h1, Option.bind_eq_bind]
    · rw [damped_zero, dampStep, if_pos rfl]
    · obtain ⟨v, e, hv⟩ := h3 hf
      exact ⟨v, e, hv.congr fun i _ j _ => by rw [damped_zero, dampStep, if_pos rfl]⟩
  | succ K ih =>
    obtain ⟨u, o, h1, h2, h3⟩ := ih
    obtain ⟨u', o', g1, g2, g3⟩ := pyFilter_is (k := K + 1) (old := o) (p := fun i j => damped flag alpha (fun _ => r i j) K) hfa hd
      (fun _ hf => h3 hf)
    have hs : ∀ i j, dampStep flag alpha (K + 1) (r i j) (damped flag alpha (fun _ => r i j) K) = damped flag alpha (fun _ => r i j) (K + 1) := by
      intro i j
      rw [damped_succ, dampStep, if_neg (Nat.succ_ne_zero K)]
    refine ⟨u', o', ?_, g2.congr fun i _ j _ => hs i j, fun hf => ?_⟩
    · rw [pyFilterRun, loopUp]
      rw [pyFilterRun] at h1
      rw [h1]
      simp only [Option.bind_some, g1, Option.bind_eq_bind]
    · obtain ⟨v, e, hv⟩ := g3 hf
      exact ⟨v, e, hv.congr fun i _ j _ => hs i j⟩

/-- Equal lists of pairs of rows, one after the other. -/
theorem flattenArrs_same {T : ℕ} {l : List (Arr Num × Arr Num)} (h : ∀ p ∈ l, SameArr T p.1 p.2) :
    flattenArrs (l.map Prod.fst) = flattenArrs (l.map Prod.snd) := by
  induction l with
  | nil => rfl
  | cons p l ih =>
    simp only [flattenArrs, List.map_cons, List.flatMap_cons] at ih ⊢
    rw [toList_same (h p (by simp)), ih fun q hq => h q (by simp [hq])]

end Verif.Proofs
