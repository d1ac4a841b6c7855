import Verif.Proofs.AssumeNum
import Verif.Proofs.Equality
import Verif.Model.KsatRun

/-! # Infinite values in the k-SAT updates: the variable side -/

namespace Verif.Proofs
open Verif Num Spec Model

variable {C n : ℕ}

theorem usedCosts_num {used : List ℕ} (hu : ∀ v ∈ used, v < n) {cost : Arr Num} (hw : cost.size = n) :
    ∃ r, usedCosts n used cost = some r ∧ r.size = n ∧ ∀ v, r.data v = if v ∈ used then cost.data v else 0 := by
  obtain ⟨r, h1, h2, h3⟩ := loopList_inv_idx (l := used) (body := fun n (out : Arr Num) => do
    let c ← cost.rd n
    out.wr n c) (s := Arr.fill n 0)
    (fun k r => r.size = n ∧ ∀ v, r.data v = if v ∈ used.take k then cost.data v else 0)
    ⟨rfl, fun v => by simp [Arr.fill]⟩
    (by
      rintro k hk r ⟨hr, hd⟩
      have hv : used[k] < n := hu _ (List.getElem_mem hk)
      refine ⟨⟨r.size, fun u => if u = used[k] then cost.data used[k] else r.data u⟩, ?_, hr, ?_⟩
      · rw [Arr.rd_of_lt (by omega)]
        exact Arr.wr_of_lt (by omega)
      · intro v
        simp only [List.take_succ_eq_append_getElem hk, List.mem_append, List.mem_singleton, hd]
        by_cases h : v = used[k]
        · simp [h]
        · simp [h])
  exact ⟨r, h1, h2, fun v => by rw [h3, List.take_length]⟩

/-- The sum of the messages to a variable, in list order. -/
def sumTo (K : Mat Num) (l : List ℕ) (v : ℕ) : Num := l.foldl (fun s c => s + K.data c v) 0

theorem sumList_num {K : Mat Num} (kr : K.rows = C) (kc : K.cols = n) {i : ℕ} (hi : i < n) (l : List ℕ) (hl : ∀ c ∈ l, c < C)
    {a : Arr Num} (ha : a.size = n) :
    ∃ r, loopList l (fun c (sums : Arr Num) => do
      let s ← sums.rd i
      let x ← K.rd c i
      sums.wr i (s + x)) a = some r ∧ r.size = n ∧ r.data i = l.foldl (fun s c => s + K.data c i) (a.data i) ∧
        ∀ k ≠ i, r.data k = a.data k := by
  induction l generalizing a with
  | nil => exact ⟨a, rfl, ha, rfl, fun _ _ => rfl⟩
  | cons c l ih =>
    obtain ⟨r', h3, h4, h5, h6⟩ := ih (fun c hc => hl c (List.mem_cons_of_mem _ hc))
      (a := ⟨a.size, fun k => if k = i then a.data i + K.data c i else a.data k⟩) ha
    refine ⟨r', ?_, h4, ?_, fun k hk => ?_⟩
    · have hc := hl c (by simp)
      simp only [loopList, Arr.rd_of_lt (show i < a.size by omega), Mat.rd_of_lt (show c < K.rows by omega) (show i < K.cols by omega),
        Option.bind_eq_bind, Option.bind_some, Arr.wr_of_lt (show i < a.size by omega)]
      exact h3
    · rw [h5]; simp
    · rw [h6 k hk]; simp [hk]

theorem variableSums_num {K : Mat Num} (kr : K.rows = C) (kc : K.cols = n) {conns : List (List ℕ)} (hlen : conns.length = n)
    (hcl : ∀ l ∈ conns, ∀ c ∈ l, c < C) {costs : Arr Num} (hw : costs.size = n) :
    ∃ r, variableSums n K conns costs = some r ∧ r.size = n ∧ ∀ v < n, r.data v = sumTo K (conns.getD v []) v + costs.data v := by
  obtain ⟨r, h1, h2, h3, -⟩ := loopUp_inv (n := n) (body := fun i (sums : Arr Num) => do
    let l ← conns[i]?
    let sums ← loopList l (fun c sums => do
      let s ← sums.rd i
      let x ← K.rd c i
      sums.wr i (s + x)) sums
    let s ← sums.rd i
    let c ← costs.rd i
    sums.wr i (s + c)) (s := Arr.fill n 0)
    (fun k r => r.size = n ∧ (∀ v < k, r.data v = sumTo K (conns.getD v []) v + costs.data v) ∧ ∀ v, k ≤ v → r.data v = 0)
    ⟨rfl, fun v hv => absurd hv (by omega), fun _ _ => rfl⟩
    (by
      rintro k hk r ⟨hr, hd, hz⟩
      have hk' : k < conns.length := by omega
      obtain ⟨r1, p1, p2, p3, p4⟩ := sumList_num kr kc hk conns[k] (hcl _ (List.getElem_mem hk')) hr
      have hgd : conns.getD k [] = conns[k] := by simp [hk']
      refine ⟨⟨r1.size, fun v => if v = k then r1.data k + costs.data k else r1.data v⟩, ?_, p2, ?_, ?_⟩
      · simp only [List.getElem?_eq_getElem hk', Option.bind_eq_bind, Option.bind_some]
        simp only [Option.bind_eq_bind] at p1
        rw [p1]
        simp only [Option.bind_some, Arr.rd_of_lt (show k < r1.size by omega), Arr.rd_of_lt (show k < costs.size by omega)]
        exact Arr.wr_of_lt (by omega)
      · intro v hv
        by_cases h : v = k
        · subst h
          simp only [if_true, p3, hz v (le_refl _), hgd]
          rfl
        · simp only [h, if_false, p4 v h]
          exact hd v (by omega)
      · intro v hv
        have h : v ≠ k := by omega
        simp only [h, if_false, p4 v h]
        exact hz v (by omega))
  exact ⟨r, h1, h2, h3⟩

theorem variableOut_num {K : Mat Num} (kr : K.rows = C) (kc : K.cols = n) {conns : List (List ℕ)} (hlen : conns.length = n)
    (hcl : ∀ l ∈ conns, ∀ c ∈ l, c < C) {sums : Arr Num} (hs : sums.size = n) {v : ℕ} (hv : v < n)
    {out : Mat Num} (or : out.rows = C) (oc : out.cols = n)
    (ho : ∀ c, out.data c v = 0 ∨ out.data c v = clean (sums.data v - K.data c v)) :
    ∃ r, variableOut sums K conns v out = some r ∧ r.rows = C ∧ r.cols = n ∧ ∀ c u, r.data c u =
      if u = v ∧ c ∈ conns.getD v [] then clean (sums.data v - K.data c v) else out.data c u := by
  have hv' : v < conns.length := by omega
  have hgd : conns.getD v [] = conns[v] := by simp [hv']
  rw [hgd]
  obtain ⟨r, h1, h2, h3, h4⟩ := loopList_inv_idx (l := conns[v]) (body := fun c (out : Mat Num) => do
    let o ← out.rd c v
    let s ← sums.rd v
    let x ← K.rd c v
    if lt (abs o) (abs (s - x)) then out.wr c v (s - x) else some out) (s := out)
    (fun k r => r.rows = C ∧ r.cols = n ∧ ∀ c u, r.data c u =
      if u = v ∧ c ∈ conns[v].take k then clean (sums.data v - K.data c v) else out.data c u)
    ⟨or, oc, fun c u => by simp⟩
    (by
      rintro k hk r ⟨rr, rc, rd⟩
      have hc : conns[v][k] < C := hcl _ (List.getElem_mem hv') _ (List.getElem_mem hk)
      set c := conns[v][k] with hcdef
      have hmem : ∀ c', c' ∈ conns[v].take (k + 1) ↔ c' ∈ conns[v].take k ∨ c' = c := by
        intro c'; rw [List.take_succ_eq_append_getElem hk, List.mem_append, List.mem_singleton]
      have hkept : kept (r.data c v) (sums.data v - K.data c v) = clean (sums.data v - K.data c v) := by
        have : r.data c v = 0 ∨ r.data c v = clean (sums.data v - K.data c v) := by
          rw [rd]
          split_ifs
          · exact Or.inr rfl
          · exact ho c
        rcases this with h | h
        · rw [h, kept_zero]
        · rw [h, kept_clean]
      refine ⟨⟨C, n, fun c' u => if c' = c ∧ u = v then clean (sums.data v - K.data c v) else r.data c' u⟩, ?_, rfl, rfl, ?_⟩
      · rw [← hkept]
        simp only [Mat.rd_of_lt (show c < r.rows by omega) (show v < r.cols by omega), Arr.rd_of_lt (show v < sums.size by omega),
          Mat.rd_of_lt (show c < K.rows by omega) (show v < K.cols by omega), Option.bind_eq_bind, Option.bind_some]
        unfold kept
        by_cases h : lt (abs (r.data c v)) (abs (sums.data v - K.data c v)) = true
        · simp only [h, if_true]
          rw [Mat.wr_of_lt (by omega) (by omega), rr, rc]
        · rw [Bool.not_eq_true] at h
          simp only [h, Bool.false_eq_true, if_false]
          congr 1
          obtain ⟨a, b, d⟩ := r
          simp only at rr rc
          subst rr rc
          congr 1
          funext c' u
          split_ifs with h'
          · rw [h'.1, h'.2]
          · rfl
      · intro c' u
        simp only [hmem, rd]
        by_cases hu : u = v
        · by_cases h1 : c' = c
          · simp [hu, h1]
          · simp [hu, h1]
        · simp [hu])
  refine ⟨r, ?_, h2, h3, fun c u => by rw [h4, List.take_length]⟩
  simp only [variableOut, List.getElem?_eq_getElem hv', Option.bind_eq_bind, Option.bind_some]
  simp only [Option.bind_eq_bind] at h1
  exact h1

/-- Variable node towards the clauses, for arbitrary values. -/
theorem variableToKsat_num {K V : Mat Num} (kr : K.rows = C) (kc : K.cols = n) (hVr : V.rows = C) (hVc : V.cols = n)
    {used : List ℕ} (hu : ∀ v ∈ used, v < n) {conns : List (List ℕ)} (hlen : conns.length = n)
    (hcl : ∀ l ∈ conns, ∀ c ∈ l, c < C) {cost : Arr Num} (hw : cost.size = n) :
    ∃ r, variableToKsat n K V used cost conns = some r ∧ r.rows = C ∧ r.cols = n ∧ ∀ c v, r.data c v =
      if v ∈ used ∧ c ∈ conns.getD v [] then clean (sumTo K (conns.getD v []) v + cost.data v - K.data c v) else 0 := by
  obtain ⟨costs, c1, c2, c3⟩ := usedCosts_num hu hw
  obtain ⟨sums, s1, s2, s3⟩ := variableSums_num kr kc hlen hcl c2
  obtain ⟨r, h1, h2, h3, h4⟩ := loopList_inv_idx (l := used) (body := variableOut sums K conns) (s := Mat.fill V.rows V.cols 0)
    (fun k r => r.rows = C ∧ r.cols = n ∧ ∀ c v, r.data c v = if v ∈ used.take k ∧ c ∈ conns.getD v [] then
      clean (sumTo K (conns.getD v []) v + cost.data v - K.data c v) else 0)
    ⟨hVr, hVc, fun _ _ => by simp [Mat.fill]⟩
    (by
      rintro k hk r ⟨rr, rc, rd⟩
      have hv : used[k] < n := hu _ (List.getElem_mem hk)
      set v := used[k] with hvdef
      have hvu : v ∈ used := List.getElem_mem hk
      have hy : sums.data v = sumTo K (conns.getD v []) v + cost.data v := by rw [s3 v hv, c3, if_pos hvu]
      obtain ⟨r', p1, p2, p3, p4⟩ := variableOut_num kr kc hlen hcl s2 hv rr rc (fun c => by
        rw [rd, hy]
        split_ifs
        · exact Or.inr rfl
        · exact Or.inl rfl)
      refine ⟨r', p1, p2, p3, fun c u => ?_⟩
      rw [p4, hy, rd]
      simp only [List.take_succ_eq_append_getElem hk, List.mem_append, List.mem_singleton, ← hvdef]
      by_cases hu' : u = v
      · rw [hu']
        by_cases hc : c ∈ conns.getD v []
        · rw [if_pos ⟨rfl, hc⟩, if_pos ⟨Or.inr rfl, hc⟩]
        · rw [if_neg (fun h => hc h.2), if_neg (fun h => hc h.2), if_neg (fun h => hc h.2)]
      · simp [hu'])
  refine ⟨r, ?_, h2, h3, fun c u => by rw [h4, List.take_length]⟩
  simp only [variableToKsat, c1, s1, Option.bind_eq_bind, Option.bind_some]
  exact h1

/-- A sum of values that agree with `b`. -/
theorem agrees_foldl {b : Bool} {g : ℕ → Num} {l : List ℕ} (hg : ∀ c ∈ l, Agrees b (g c)) {a : Num} (ha : Agrees b a) :
    Agrees b (l.foldl (fun s c => s + g c) a) ∧
      (IsInf (l.foldl (fun s c => s + g c) a) ↔ IsInf a ∨ ∃ c ∈ l, IsInf (g c)) := by
  induction l generalizing a with
  | nil => exact ⟨ha, by simp⟩
  | cons c l ih =>
    have h := agrees_add ha (hg c (by simp))
    have h' := ih (fun c hc => hg c (List.mem_cons_of_mem _ hc)) h.1
    refine ⟨h'.1, ?_⟩
    rw [List.foldl_cons, h'.2, h.2]
    simp [or_assoc]

/-- The outputs: sums of the clause messages. -/
theorem ksatExtrinsic_num {K : Mat Num} (kr : K.rows = C) (kc : K.cols = n) {out : Arr Num} (ho : out.size = n) :
    ∃ r, ksatExtrinsic n C K out = some r ∧ r.size = n ∧ ∀ v < n, r.data v = (List.range C).foldl (fun s c => s + K.data c v) (out.data v) := by
  obtain ⟨r, h1, h2, h3, -⟩ := loopUp_inv (n := n) (body := fun i (out : Arr Num) => loopUp C (fun j out => do
      let o ← out.rd i
      let x ← K.rd j i
      out.wr i (o + x)) out) (s := out)
    (fun k r => r.size = n ∧ (∀ v < k, r.data v = (List.range C).foldl (fun s c => s + K.data c v) (out.data v)) ∧
      ∀ v, k ≤ v → r.data v = out.data v)
    ⟨ho, fun v hv => absurd hv (by omega), fun _ _ => rfl⟩
    (by
      rintro k hk r ⟨hr, hd, hz⟩
      obtain ⟨r', p1, p2, p3, p4⟩ := loopUp_inv (n := C) (body := fun j (out : Arr Num) => do
          let o ← out.rd k
          let x ← K.rd j k
          out.wr k (o + x)) (s := r)
        (fun j r' => r'.size = n ∧ r'.data k = (List.range j).foldl (fun s c => s + K.data c k) (r.data k) ∧
          ∀ v ≠ k, r'.data v = r.data v)
        ⟨hr, rfl, fun _ _ => rfl⟩
        (by
          rintro j hj r' ⟨q1, q2, q3⟩
          refine ⟨⟨r'.size, fun v => if v = k then r'.data k + K.data j k else r'.data v⟩, ?_, q1, ?_, ?_⟩
          · simp only [Arr.rd_of_lt (show k < r'.size by omega), Mat.rd_of_lt (show j < K.rows by omega) (show k < K.cols by omega),
              Option.bind_eq_bind, Option.bind_some]
            exact Arr.wr_of_lt (by omega)
          · simp [List.range_succ, q2]
          · intro v hv
            simp only [hv, if_false]
            exact q3 v hv)
      refine ⟨r', p1, p2, ?_, ?_⟩
      · intro v hv
        by_cases h : v = k
        · rw [h, p3, hz k (le_refl _)]
        · rw [p4 v h]; exact hd v (by omega)
      · intro v hv
        rw [p4 v (by omega)]; exact hz v (by omega))
  exact ⟨r, h1, h2, h3⟩

end Verif.Proofs
