import Verif.Proofs.KsatStable
import Verif.Spec.Locality
import Verif.Proofs.Autarky

/-! How far the messages of the k-SAT solver see. -/

namespace Verif.Proofs
open Verif Num Spec Model Properties

theorem near_mono {F : List (List (ℕ × ℤ))} {v u i j : ℕ} (hij : i ≤ j) (h : Within F v i u) : Within F v j u := by
  induction hij with
  | refl => exact h
  | step _ ih => exact Or.inl ih

theorem varsOf_lt {F : List (List (ℕ × ℤ))} {c v : ℕ} (h : v ∈ varsOf F c) : c < F.length := by
  by_contra hn
  rw [varsOf, List.getD_eq_getElem?_getD, List.getElem?_eq_none (by omega)] at h
  simp at h

theorem near_step {F : List (List (ℕ × ℤ))} {v u u' j c : ℕ} (h : Within F v j u) (hu : u ∈ varsOf F c) (hu' : u' ∈ varsOf F c) : Within F v (j + 1) u' := by
  have hc := varsOf_lt hu
  obtain ⟨a, ha, rfl⟩ := List.mem_map.mp (List.mem_toFinset.mp hu)
  obtain ⟨b, hb, rfl⟩ := List.mem_map.mp (List.mem_toFinset.mp hu')
  refine Or.inr ⟨F.getD c [], ?_, a, ha, b, hb, h, rfl⟩
  rw [List.getD_eq_getElem?_getD, List.getElem?_eq_getElem hc]; exact List.getElem_mem hc

/-- The message to a variable depends only on the messages of the others. -/
theorem clause_congr {k : ℕ} {v : ℕ → ℕ} {ty : ℕ → ℤ} {m m' : ℕ → ℚ} (hinj : ∀ i < k, ∀ j < k, v i = v j → i = j)
    (hty : ∀ j < k, ty j = 1 ∨ ty j = -1) (hk : 2 ≤ k) {u : ℕ} (hu : u ∈ clauseVars k v) {q q' : ℚ}
    (h : IsMessage (clauseVars k v) (ClauseSat k v ty) m u (fin q)) (h' : IsMessage (clauseVars k v) (ClauseSat k v ty) m' u (fin q'))
    (hm : ∀ u' ∈ clauseVars k v, u' ≠ u → m u' = m' u') : q = q' := by
  obtain ⟨s, hs, rfl⟩ := Finset.mem_image.mp hu
  have hs := Finset.mem_range.mp hs
  obtain ⟨j, hj, hjs, hmin, rfl⟩ := clause_closed hinj hty hk hs h
  obtain ⟨i, hi, his, hmin', rfl⟩ := clause_closed hinj hty hk hs h'
  have hd : ∀ l < k, l ≠ s → m (v l) = m' (v l) := fun l hl hne =>
    hm _ (Finset.mem_image.mpr ⟨l, Finset.mem_range.mpr hl, rfl⟩) fun e => hne (hinj l hl s hs e)
  have h1 := hmin i hi his
  have h2 := hmin' j hj hjs
  rw [hd i hi his] at h1
  rw [← hd j hj hjs] at h2
  rw [le_antisymm h1 h2]

section
variable {n k : ℕ} {t : KsatTables} (hf : KFormula n k t.clauses t.used t.conns)
include hf

theorem occ_iff {c v : ℕ} : c ∈ occurrences t.clauses.length k ⟨t.clauses.length, k, litVar t⟩ v ↔ v ∈ varsOf t.clauses c := by
  constructor
  · intro h
    obtain ⟨h1, h2⟩ := Finset.mem_filter.mp h
    rw [← clauseVars_eq hf (Finset.mem_range.mp h1)]; exact h2
  · intro h
    refine Finset.mem_filter.mpr ⟨Finset.mem_range.mpr (varsOf_lt h), ?_⟩
    show v ∈ clauseVars k (litVar t c)
    rw [clauseVars_eq hf (varsOf_lt h)]; exact h

theorem varsOf_used {c v : ℕ} (h : v ∈ varsOf t.clauses c) : v ∈ t.used := by
  obtain ⟨a, ha, rfl⟩ := List.mem_map.mp (List.mem_toFinset.mp h)
  exact hf.tables.used_mem _ (getD_mem hf (varsOf_lt h)) _ ha

end

section
variable {n n' k : ℕ} {t t' : KsatTables} (hf : KFormula n k t.clauses t.used t.conns) (hf' : KFormula n' k t'.clauses t'.used t'.conns) (hk : 2 ≤ k)
  {w w' : ℕ → ℚ} {flag : Bool} {alpha : ℚ} {x r x' r' : ℕ → ℕ → ℕ → ℚ} {v K : ℕ}
  (hcl : ∀ u, Within t.clauses v K u → ∀ c, u ∈ varsOf t.clauses c ∨ u ∈ varsOf t'.clauses c → t'.clauses.getD c [] = t.clauses.getD c [])
  (hw : ∀ u, Within t.clauses v (K + 1) u → w' u = w u)
  (h : IsKsatTrace t.clauses.length k n ⟨t.clauses.length, k, litVar t⟩ ⟨t.clauses.length, k, litSign t⟩ w flag alpha
        (fun c v => if ∃ s < k, litVar t c s = v then w v else 0) x r)
  (h' : IsKsatTrace t'.clauses.length k n' ⟨t'.clauses.length, k, litVar t'⟩ ⟨t'.clauses.length, k, litSign t'⟩ w' flag alpha
        (fun c v => if ∃ s < k, litVar t' c s = v then w' v else 0) x' r')
include hf hf' hcl

omit hf hf' in
theorem same_vars {u c : ℕ} (hu : Within t.clauses v K u) : u ∈ varsOf t'.clauses c ↔ u ∈ varsOf t.clauses c := by
  constructor
  · intro h1
    have e := hcl u hu c (Or.inr h1)
    rw [varsOf, e] at h1; exact h1
  · intro h1
    have e := hcl u hu c (Or.inl h1)
    rw [varsOf, e]; exact h1

theorem same_occ {u : ℕ} (hu : Within t.clauses v K u) : occurrences t'.clauses.length k ⟨t'.clauses.length, k, litVar t'⟩ u =
    occurrences t.clauses.length k ⟨t.clauses.length, k, litVar t⟩ u := by
  ext c
  rw [occ_iff hf', occ_iff hf, same_vars hcl hu]

include hk hw h h'

/-- Two runs that agree on the clauses within distance `K` and the costs within distance `K + 1` send the same messages near `v`. -/
theorem trace_local (i : ℕ) : (∀ j u c, j + i ≤ K → Within t.clauses v j u → u ∈ varsOf t.clauses c → r' i c u = r i c u) := by
  have hstep : ∀ i, (∀ j u c, j + i ≤ K + 1 → Within t.clauses v j u → u ∈ varsOf t.clauses c → (∃ u' ∈ varsOf t.clauses c, Within t.clauses v K u') → x' i c u = x i c u) →
      ∀ j u c, j + i ≤ K → Within t.clauses v j u → u ∈ varsOf t.clauses c → r' i c u = r i c u := by
    intro i hx j u c hj hu huc
    have huK := near_mono (show j ≤ K by omega) hu
    have e := hcl u huK c (Or.inl huc)
    have huc' := (same_vars hcl (c := c) huK).mpr huc
    have hc := varsOf_lt huc
    have hc' := varsOf_lt huc'
    have e1 : litVar t' c = litVar t c := by funext s; simp only [litVar, e]
    have e2 : litSign t' c = litSign t c := by funext s; simp only [litSign, e]
    have m1 := h.clause i c hc u (show u ∈ clauseVars k (litVar t c) by rw [clauseVars_eq hf hc]; exact huc)
    have m2 := h'.clause i c hc' u (show u ∈ clauseVars k (litVar t' c) by rw [clauseVars_eq hf' hc']; exact huc')
    have m2 : IsMessage (clauseVars k (litVar t' c)) (ClauseSat k (litVar t' c) (litSign t' c)) (x' i c) u (fin (r' i c u)) := m2
    rw [e1, e2] at m2
    refine clause_congr (lit_inj hf hc) (fun _ hs => lit_sign hf hc hs) hk (by rw [clauseVars_eq hf hc]; exact huc) m2 m1 fun u' hu' _ => ?_
    rw [clauseVars_eq hf hc] at hu'
    exact hx (j + 1) u' c (by omega) (near_step hu huc hu') hu' ⟨u, huc, huK⟩
  induction i using Nat.strong_induction_on with
  | _ i ih =>
    refine hstep i fun j u c hj hu huc hnear => ?_
    obtain ⟨a, ha, haK⟩ := hnear
    have e := hcl a haK c (Or.inl ha)
    have huc' : u ∈ varsOf t'.clauses c := by rw [varsOf, e]; exact huc
    have hc := varsOf_lt huc
    have hc' := varsOf_lt huc'
    have hv := clauseVars_eq hf hc
    have hv' := clauseVars_eq hf' hc'
    cases i with
    | zero =>
      have m1 : ∃ s < k, litVar t c s = u := by
        rw [← hv] at huc; simpa [clauseVars] using huc
      have m2 : ∃ s < k, litVar t' c s = u := by
        rw [← hv'] at huc'; simpa [clauseVars] using huc'
      rw [h.init c hc u (hf.tables.used_lt u (varsOf_used hf huc)), h'.init c hc' u (hf'.tables.used_lt u (varsOf_used hf' huc')), if_pos m1, if_pos m2]
      exact hw u (near_mono (by omega) hu)
    | succ i =>
      have huK := near_mono (show j ≤ K by omega) hu
      rw [h.var i c hc u (show u ∈ clauseVars k (litVar t c) by rw [hv]; exact huc),
        h'.var i c hc' u (show u ∈ clauseVars k (litVar t' c) by rw [hv']; exact huc'), hw u (Or.inl huK), same_occ hf hf' hcl huK]
      congr 1
      refine Finset.sum_congr rfl fun d hd => damped_congr fun l hl => ?_
      exact ih l (by omega) j u d (by omega) hu ((occ_iff hf).mp (Finset.mem_erase.mp hd).2)

end

section
variable {n k : ℕ} {t : KsatTables} (hf : KFormula n k t.clauses t.used t.conns) (hk : 2 ≤ k) {w : ℕ → ℚ} {flag : Bool} {alpha : ℚ}
  (hu : flag = false ∨ alpha = 0) {x r : ℕ → ℕ → ℕ → ℚ} {x0 : ℕ → ℕ → ℚ} (hx0 : ∀ c < t.clauses.length, ∀ v ∈ varsOf t.clauses c, x0 c v = w v)
  (h : IsKsatTrace t.clauses.length k n ⟨t.clauses.length, k, litVar t⟩ ⟨t.clauses.length, k, litSign t⟩ w flag alpha x0 x r)
include hf hk hu hx0 h

/-- Without damping a message is settled after as many iterations as there are clauses on the longest walk behind it. -/
theorem depth_settled : ∀ d c v, v ∈ varsOf t.clauses c → Depth t.clauses d c v → ∀ i, d ≤ i + 1 → r i c v = r (d - 1) c v := by
  intro d
  induction d with
  | zero => intro c v _ hd; exact hd.elim
  | succ d ih =>
    intro c v hv hd i hi
    have hc := varsOf_lt hv
    refine clause_congr (lit_inj hf hc) (fun _ hs => lit_sign hf hc hs) hk (by rw [clauseVars_eq hf hc]; exact hv)
      (h.clause i c hc v (show v ∈ clauseVars k (litVar t c) by rw [clauseVars_eq hf hc]; exact hv))
      (h.clause d c hc v (show v ∈ clauseVars k (litVar t c) by rw [clauseVars_eq hf hc]; exact hv)) fun u hu' hne => ?_
    have huc : u ∈ varsOf t.clauses c := by rw [← clauseVars_eq hf hc]; exact hu'
    have hx : ∀ j, d ≤ j → x j c u = w u + ∑ c' ∈ (occurrences t.clauses.length k ⟨t.clauses.length, k, litVar t⟩ u).erase c, r (d - 1) c' u := by
      intro j hj
      cases j with
      | zero =>
        obtain rfl : d = 0 := by omega
        have hcl : (occurrences t.clauses.length k ⟨t.clauses.length, k, litVar t⟩ u).erase c = ∅ := by
          refine Finset.eq_empty_of_forall_notMem fun c' hc' => ?_
          obtain ⟨h1, h2⟩ := Finset.mem_erase.mp hc'
          exact hd u huc hne c' h1 ((occ_iff hf).mp h2)
        rw [hcl, Finset.sum_empty, add_zero, h.init c hc u (hf.tables.used_lt u (varsOf_used hf huc)), hx0 c hc u huc]
      | succ j =>
        rw [h.var j c hc u hu']
        congr 1
        refine Finset.sum_congr rfl fun c' hc' => ?_
        obtain ⟨h1, h2⟩ := Finset.mem_erase.mp hc'
        have h2 := (occ_iff hf).mp h2
        rw [undamped hu]
        exact ih c' u h2 (hd u huc hne c' h1 h2) j (by omega)
    rw [hx i (by omega), hx d le_rfl]

end

/-! ## Chains of implications -/

/-- The formula with the clauses "`i` implies `i + 1`" for `i = 0 .. m - 1`, and its tables. -/
def chainTables (m : ℕ) : KsatTables where
  used := List.range (m + 1)
  clauses := (List.range m).map fun i => [(i, -1), (i + 1, 1)]
  conns := (List.range (m + 1)).map fun v => (if v < m then [(v, -1)] else []) ++ (if 0 < v then [(v - 1, 1)] else [])

theorem chain_getD {m c : ℕ} : (chainTables m).clauses.getD c [] = if c < m then [(c, -1), (c + 1, 1)] else [] := by
  unfold chainTables
  rw [List.getD_eq_getElem?_getD]
  split
  · rename_i h; simp [h]
  · rename_i h; rw [List.getElem?_eq_none (by simpa using h)]; rfl

theorem chain_vars {m c v : ℕ} : v ∈ varsOf (chainTables m).clauses c ↔ c < m ∧ (v = c ∨ v = c + 1) := by
  rw [varsOf, chain_getD]
  split
  · rename_i h; simp [h]
  · rename_i h; simp [h]

theorem chain_ok (m : ℕ) : KFormula (m + 1) 2 (chainTables m).clauses (chainTables m).used (chainTables m).conns := by
  have hconn : ∀ v < m + 1, (chainTables m).conns.getD v [] = (if v < m then [(v, (-1 : ℤ))] else []) ++ (if 0 < v then [(v - 1, 1)] else []) := by
    intro v hv
    rw [List.getD_eq_getElem?_getD]
    simp only [chainTables, List.getElem?_map, List.getElem?_range hv, Option.map_some, Option.getD_some]
  refine kformula_of_checks ?_ (by simp [chainTables]) ?_ ?_ ?_ (by simp [chainTables]) ?_
  · intro cl hcl
    simp only [chainTables, List.mem_map, List.mem_range] at hcl
    obtain ⟨i, -, rfl⟩ := hcl
    simp
  · intro v hv p hp
    rw [hconn v hv] at hp
    rw [chain_getD]
    rcases List.mem_append.mp hp with h | h
    · split at h
      · rename_i h1
        obtain rfl := List.mem_singleton.mp h
        simp [h1]
      · simp at h
    · split at h
      · rename_i h1
        obtain rfl := List.mem_singleton.mp h
        rw [if_pos (show v - 1 < m by omega)]
        simp; omega
      · simp at h
  · intro c hc l hl
    have hc : c < m := by simpa [chainTables] using hc
    rw [chain_getD, if_pos hc] at hl
    simp only [List.mem_cons, List.not_mem_nil, or_false] at hl
    rcases hl with rfl | rfl
    · rw [hconn c (by omega), if_pos hc]; simp
    · rw [hconn (c + 1) (by omega)]; simp
  · intro cl hcl l hl
    simp only [chainTables, List.mem_map, List.mem_range] at hcl
    obtain ⟨i, hi, rfl⟩ := hcl
    simp only [List.mem_cons, List.not_mem_nil, or_false] at hl
    simp only [chainTables, List.mem_range]
    rcases hl with rfl | rfl <;> simp <;> omega
  · intro l hl
    simp only [chainTables, List.mem_map, List.mem_range] at hl
    obtain ⟨v, hv, rfl⟩ := hl
    split <;> split <;> simp
    omega

theorem chain_forest (m : ℕ) : Forest (varsOf (chainTables m).clauses) (List.range m) := by
  have : ∀ d a, a + d = m → Forest (varsOf (chainTables m).clauses) (List.range' a d) := by
    intro d
    induction d with
    | zero => intro a _; trivial
    | succ d ih =>
      intro a ha
      refine ⟨⟨a + 1, chain_vars.mpr ⟨by omega, Or.inr rfl⟩, fun c' hc' v hv hv' => ?_⟩, ih (a + 1) (by omega)⟩
      rw [List.mem_range'_1] at hc'
      rw [chain_vars] at hv hv'
      omega
  rw [List.range_eq_range']
  exact this m 0 (by omega)

theorem chain_acyclic (m : ℕ) : (incidence (chainTables m).clauses.length (varsOf (chainTables m).clauses)).IsAcyclic := by
  refine acyclic_of_forest (order := List.range m) ?_ (chain_forest m)
  simp [chainTables]

theorem chain_depth {m : ℕ} : ∀ d c, c < m → m ≤ c + d → Depth (chainTables m).clauses d c c := by
  intro d
  induction d with
  | zero => intro c h1 h2; omega
  | succ d ih =>
    intro c h1 h2 u hu hne c' hc' hu'
    rw [chain_vars] at hu hu'
    obtain rfl : c' = u := by omega
    exact ih c' (by omega) (by omega)

theorem chain_near {m j u : ℕ} (h : Within (chainTables m).clauses 0 j u) : u ≤ j := by
  induction j generalizing u with
  | zero => exact h.le
  | succ j ih =>
    rcases h with h | ⟨cl, hcl, a, ha, b, hb, h, rfl⟩
    · exact (ih h).trans (Nat.le_succ j)
    · have := ih h
      simp only [chainTables, List.mem_map, List.mem_range] at hcl
      obtain ⟨i, hi, rfl⟩ := hcl
      simp only [List.mem_cons, List.not_mem_nil, or_false] at ha hb
      rcases ha with rfl | rfl <;> rcases hb with rfl | rfl <;> dsimp only at this ⊢ <;> omega

/-- Every satisfying assignment that contains the first variable contains them all. -/
theorem chain_sat {m : ℕ} {S : Finset ℕ} : Satisfies (chainTables m).clauses S ↔ ∀ c < m, c ∈ S → c + 1 ∈ S := by
  unfold Satisfies violated
  rw [List.filter_eq_nil_iff]
  simp only [List.mem_range, decide_eq_true_eq]
  constructor
  · intro h c hc hS
    have := h c (by simpa [chainTables] using hc)
    rw [chain_getD, if_pos hc] at this
    simp [LitTrue, hS] at this
    exact this
  · intro h c hc h2
    have hc : c < m := by simpa [chainTables] using hc
    rw [chain_getD, if_pos hc] at h2
    simp [LitTrue] at h2
    exact h2.2 (h c hc h2.1)

end Verif.Proofs
