import Verif.Proofs.KsatStable
import Verif.Spec.Autarky

/-! Messages of the k-SAT solver around a partial assignment that satisfies every clause it touches. -/

namespace Verif.Proofs
open Verif Num Spec Model Properties

theorem damped_nonneg_upto {flag : Bool} {alpha : ℚ} (ha : flag = true → 0 ≤ alpha ∧ alpha ≤ 1) {r : ℕ → ℚ} {k : ℕ} (hr : ∀ j ≤ k, 0 ≤ r j) :
    0 ≤ damped flag alpha r k := by
  rw [damped_congr (r' := fun j => if j ≤ k then r j else 0) (fun j hj => by simp [hj])]
  exact damped_nonneg ha (fun j => by beta_reduce; split; exacts [hr j ‹_›, le_rfl]) k

theorem damped_nonpos_upto {flag : Bool} {alpha : ℚ} (ha : flag = true → 0 ≤ alpha ∧ alpha ≤ 1) {r : ℕ → ℚ} {k : ℕ} (hr : ∀ j ≤ k, r j ≤ 0) :
    damped flag alpha r k ≤ 0 := by
  rw [damped_congr (r' := fun j => if j ≤ k then r j else 0) (fun j hj => by simp [hj])]
  exact damped_nonpos ha (fun j => by beta_reduce; split; exacts [hr j ‹_›, le_rfl]) k

section
variable {n k : ℕ} {t : KsatTables} (hf : KFormula n k t.clauses t.used t.conns) (hk : 2 ≤ k) {flag : Bool} {alpha : ℚ}
include hf hk

/-- A clause with another literal that its own message already makes true says nothing. -/
theorem message_zero {w : ℕ → ℚ} {x0 : ℕ → ℕ → ℚ} {x r : ℕ → ℕ → ℕ → ℚ}
    (h : IsKsatTrace t.clauses.length k n ⟨t.clauses.length, k, litVar t⟩ ⟨t.clauses.length, k, litSign t⟩ w flag alpha x0 x r)
    (j : ℕ) {c : ℕ} (hc : c < t.clauses.length) {v u : ℕ} {g : ℤ} (hv : v ∈ varsOf t.clauses c) (hu : (u, g) ∈ t.clauses.getD c []) (hne : u ≠ v)
    (hx : x j c u * (g : ℚ) ≤ 0) : r j c v = 0 := by
  rw [← clauseVars_eq hf hc] at hv
  have hm := h.clause j c hc v hv
  obtain ⟨s, hs, rfl⟩ := Finset.mem_image.mp hv
  obtain ⟨i, -, -, hmin, hq⟩ := clause_closed (lit_inj hf hc) (fun _ hs => lit_sign hf hc hs) hk (Finset.mem_range.mp hs) hm
  obtain ⟨s', hs', e⟩ := mem_lit hf hc hu
  obtain ⟨rfl, rfl⟩ := Prod.mk.inj e
  have hss : s' ≠ s := fun e => hne (by rw [e])
  have := (hmin s' hs' hss).trans hx
  rw [hq, min_eq_right (by linarith)]; simp

variable {w : ℕ → ℚ} {x r : ℕ → ℕ → ℕ → ℚ} (ha : flag = true → 0 ≤ alpha ∧ alpha ≤ 1) {A : Finset ℕ} {σ : ℕ → Bool}
  (hA : Autarky t.clauses A σ) (hw : Favours w A σ)
  (h : IsKsatTrace t.clauses.length k n ⟨t.clauses.length, k, litVar t⟩ ⟨t.clauses.length, k, litSign t⟩ w flag alpha
        (fun c v => if ∃ s < k, litVar t c s = v then w v else 0) x r)
include hA h

omit ha hw in
/-- One iteration: messages on the side of `σ` give clause messages on the side of `σ`. -/
theorem autarky_clause {j : ℕ} (hx : ∀ c < t.clauses.length, ∀ v ∈ varsOf t.clauses c, v ∈ A → (σ v = true → x j c v ≤ 0) ∧ (σ v = false → 0 ≤ x j c v))
    {c : ℕ} (hc : c < t.clauses.length) {v : ℕ} (hv : v ∈ varsOf t.clauses c) :
    (v ∈ A → (σ v = true → r j c v ≤ 0) ∧ (σ v = false → 0 ≤ r j c v)) ∧ (v ∉ A → (∃ u ∈ varsOf t.clauses c, u ∈ A) → r j c v = 0) := by
  have key : ∀ u g, (u, g) ∈ t.clauses.getD c [] → u ∈ A → LitTrue σ (u, g) → u ≠ v → r j c v = 0 := by
    intro u g hu huA hl hne
    refine message_zero hf hk h j hc hv hu hne ?_
    have := hx c hc u (by simp only [varsOf, List.mem_toFinset, List.mem_map]; exact ⟨_, hu, rfl⟩) huA
    rcases hl with ⟨e, e'⟩ | ⟨e, e'⟩
    · have e : g = 1 := e
      rw [e]; simpa using this.1 e'
    · have e : g = -1 := e
      rw [e]; simpa using this.2 e'
  obtain ⟨l, hl, rfl⟩ := List.mem_map.mp (List.mem_toFinset.mp hv)
  constructor
  · intro hvA
    obtain ⟨⟨u, g⟩, hu, huA, hlt⟩ := hA _ (getD_mem hf hc) ⟨l, hl, hvA⟩
    by_cases hne : u = l.1
    · have hs := message_sign hf hk h j hc hu
      subst hne
      rcases hlt with ⟨e, e'⟩ | ⟨e, e'⟩
      · exact ⟨fun _ => hs.1 e, fun e'' => by rw [e''] at e'; exact absurd e' (by simp)⟩
      · exact ⟨fun e'' => by rw [e''] at e'; exact absurd e' (by simp), fun _ => hs.2 e⟩
    · rw [key u g hu huA hlt hne]; exact ⟨fun _ => le_rfl, fun _ => le_rfl⟩
  · rintro hvA ⟨u', hu', hu'A⟩
    obtain ⟨l', hl', rfl⟩ := List.mem_map.mp (List.mem_toFinset.mp hu')
    obtain ⟨⟨u, g⟩, hu, huA, hlt⟩ := hA _ (getD_mem hf hc) ⟨l', hl', hu'A⟩
    exact key u g hu huA hlt (fun e => hvA (e ▸ huA))

include ha hw

/-- All messages from variables of `A` stay on the side of `σ`. -/
theorem autarky_var (j : ℕ) : ∀ c < t.clauses.length, ∀ v ∈ varsOf t.clauses c, v ∈ A → (σ v = true → x j c v ≤ 0) ∧ (σ v = false → 0 ≤ x j c v) := by
  induction j using Nat.strong_induction_on with
  | _ j ih =>
    intro c hc v hv hvA
    have hv' := hv
    rw [← clauseVars_eq hf hc] at hv'
    cases j with
    | zero =>
      have m1 : ∃ s < k, litVar t c s = v := by simpa [clauseVars] using hv'
      rw [h.init c hc v (hf.tables.used_lt v (vars_used hf hc hv)), if_pos m1]
      exact hw v hvA
    | succ j =>
      rw [h.var j c hc v hv']
      have hr : ∀ d ∈ (occurrences t.clauses.length k ⟨t.clauses.length, k, litVar t⟩ v).erase c, ∀ i ≤ j,
          (σ v = true → r i d v ≤ 0) ∧ (σ v = false → 0 ≤ r i d v) := by
        intro d hd i hi
        obtain ⟨h1, h2⟩ := Finset.mem_filter.mp (Finset.mem_of_mem_erase hd)
        have h1 := Finset.mem_range.mp h1
        exact (autarky_clause hf hk hA h (ih i (by omega)) h1 (by rw [← clauseVars_eq hf h1]; exact h2)).1 hvA
      constructor
      · intro e
        have := Finset.sum_nonpos fun d hd => damped_nonpos_upto ha (k := j) fun i hi => (hr d hd i hi).1 e
        linarith [(hw v hvA).1 e]
      · intro e
        have := Finset.sum_nonneg fun d hd => damped_nonneg_upto ha (k := j) fun i hi => (hr d hd i hi).2 e
        linarith [(hw v hvA).2 e]

theorem autarky_message (j : ℕ) {c : ℕ} (hc : c < t.clauses.length) {v : ℕ} (hv : v ∈ varsOf t.clauses c) :
    (v ∈ A → (σ v = true → r j c v ≤ 0) ∧ (σ v = false → 0 ≤ r j c v)) ∧ (v ∉ A → (∃ u ∈ varsOf t.clauses c, u ∈ A) → r j c v = 0) :=
  autarky_clause hf hk hA h (autarky_var hf hk ha hA hw h j) hc hv

end

/-- The clauses kept by a filter, by number. -/
theorem filter_numbers (F : List (List (ℕ × ℤ))) (p : List (ℕ × ℤ) → Bool) :
    F.filter p = ((List.range F.length).filter (fun c => p (F.getD c []))).map (fun c => F.getD c []) := by
  have e : F = (List.range F.length).map (fun c => F.getD c []) := by
    refine List.ext_getElem (by simp) fun i h1 h2 => ?_
    simp [List.getElem?_eq_getElem h1]
  conv_lhs => rw [e]
  rw [List.filter_map]
  rfl

section
variable {n k : ℕ} {t t' : KsatTables} (hf : KFormula n k t.clauses t.used t.conns) (hf' : KFormula n k t'.clauses t'.used t'.conns) (hk : 2 ≤ k)
  {flag : Bool} {alpha : ℚ} {w : ℕ → ℚ} {x r x' r' : ℕ → ℕ → ℕ → ℚ} (ha : flag = true → 0 ≤ alpha ∧ alpha ≤ 1) {A : Finset ℕ} {σ : ℕ → Bool}
  (hA : Autarky t.clauses A σ) (hw : Favours w A σ) (ht : t'.clauses = untouched t.clauses A)
  (h : IsKsatTrace t.clauses.length k n ⟨t.clauses.length, k, litVar t⟩ ⟨t.clauses.length, k, litSign t⟩ w flag alpha
        (fun c v => if ∃ s < k, litVar t c s = v then w v else 0) x r)
  (h' : IsKsatTrace t'.clauses.length k n ⟨t'.clauses.length, k, litVar t'⟩ ⟨t'.clauses.length, k, litSign t'⟩ w flag alpha
        (fun c v => if ∃ s < k, litVar t' c s = v then w v else 0) x' r')

omit hf hf' in
include ht in
/-- Numbers of the remaining clauses in the original formula. -/
theorem untouched_numbers : ∃ f : ℕ → ℕ,
    (∀ c < t'.clauses.length, f c < t.clauses.length ∧ t'.clauses.getD c [] = t.clauses.getD (f c) [] ∧ ∀ u ∈ varsOf t.clauses (f c), u ∉ A) ∧
    (∀ c < t'.clauses.length, ∀ d < t'.clauses.length, f c = f d → c = d) ∧
    ∀ d < t.clauses.length, (∀ u ∈ varsOf t.clauses d, u ∉ A) → ∃ c < t'.clauses.length, f c = d := by
  set p : List (ℕ × ℤ) → Bool := fun cl => decide (∀ l ∈ cl, l.1 ∉ A) with hp
  set L := (List.range t.clauses.length).filter (fun c => p (t.clauses.getD c [])) with hL
  have e : t'.clauses = L.map (fun c => t.clauses.getD c []) := by rw [ht, hL]; exact filter_numbers _ _
  have hlen : t'.clauses.length = L.length := by rw [e]; simp
  have hnd : L.Nodup := List.Nodup.filter _ List.nodup_range
  have hp' : ∀ d, p (t.clauses.getD d []) = true ↔ ∀ u ∈ varsOf t.clauses d, u ∉ A := by
    intro d
    rw [hp, decide_eq_true_iff]
    simp only [varsOf, List.mem_toFinset, List.mem_map]
    constructor
    · rintro h u ⟨l, hl, rfl⟩; exact h l hl
    · intro h l hl; exact h _ ⟨l, hl, rfl⟩
  refine ⟨fun c => L.getD c 0, fun c hc => ?_, fun c hc d hd e' => ?_, fun d hd hu => ?_⟩
  · rw [hlen] at hc
    have hm : L.getD c 0 ∈ L := by rw [List.getD_eq_getElem?_getD, List.getElem?_eq_getElem hc]; exact List.getElem_mem hc
    have hm' := hm
    rw [hL, List.mem_filter, List.mem_range] at hm'
    refine ⟨hm'.1, ?_, (hp' _).mp hm'.2⟩
    rw [e]
    simp [List.getD_eq_getElem?_getD, List.getElem?_eq_getElem hc]
  · rw [hlen] at hc hd
    beta_reduce at e'
    rw [List.getD_eq_getElem?_getD, List.getD_eq_getElem?_getD, List.getElem?_eq_getElem hc, List.getElem?_eq_getElem hd] at e'
    exact (List.Nodup.getElem_inj_iff hnd).mp e'
  · have hm : d ∈ L := by rw [hL, List.mem_filter, List.mem_range]; exact ⟨hd, (hp' d).mpr hu⟩
    obtain ⟨c, hc, e'⟩ := List.getElem_of_mem hm
    exact ⟨c, by rw [hlen]; exact hc, by beta_reduce; rw [List.getD_eq_getElem?_getD, List.getElem?_eq_getElem hc]; exact e'⟩

include hf hf' hk ha hA hw ht h h'

/-- Outside `A` the solver sees only the clauses that `A` does not touch. -/
theorem autarky_outside : ∃ f : ℕ → ℕ, ∀ j, (∀ c < t'.clauses.length, ∀ v ∈ varsOf t'.clauses c, r' j c v = r j (f c) v) ∧
    ∀ v ∉ A, ∑ c ∈ occurrences t.clauses.length k ⟨t.clauses.length, k, litVar t⟩ v, damped flag alpha (fun i => r i c v) j =
      ∑ c ∈ occurrences t'.clauses.length k ⟨t'.clauses.length, k, litVar t'⟩ v, damped flag alpha (fun i => r' i c v) j := by
  obtain ⟨f, f1, f2, f3⟩ := untouched_numbers ht
  have hvars : ∀ c < t'.clauses.length, varsOf t'.clauses c = varsOf t.clauses (f c) := fun c hc => by simp only [varsOf, (f1 c hc).2.1]
  have hlv : ∀ c < t'.clauses.length, litVar t' c = litVar t (f c) := fun c hc => by funext s; simp only [litVar, (f1 c hc).2.1]
  have hls : ∀ c < t'.clauses.length, litSign t' c = litSign t (f c) := fun c hc => by funext s; simp only [litSign, (f1 c hc).2.1]
  have hmemO : ∀ v c, c ∈ occurrences t.clauses.length k ⟨t.clauses.length, k, litVar t⟩ v ↔ c < t.clauses.length ∧ v ∈ varsOf t.clauses c := by
    intro v c
    unfold occurrences
    rw [Finset.mem_filter, Finset.mem_range]
    exact and_congr_right fun hc => by rw [← clauseVars_eq hf hc]
  have hmemO' : ∀ v c, c ∈ occurrences t'.clauses.length k ⟨t'.clauses.length, k, litVar t'⟩ v ↔ c < t'.clauses.length ∧ v ∈ varsOf t'.clauses c := by
    intro v c
    unfold occurrences
    rw [Finset.mem_filter, Finset.mem_range]
    exact and_congr_right fun hc => by rw [← clauseVars_eq hf' hc]
  -- sums over the clauses of a variable outside `A`
  have hsum : ∀ v ∉ A, ∀ j, (∀ i ≤ j, ∀ c < t'.clauses.length, ∀ v ∈ varsOf t'.clauses c, r' i c v = r i (f c) v) →
      ∀ (S : Finset ℕ) (S' : Finset ℕ), S ⊆ occurrences t.clauses.length k ⟨t.clauses.length, k, litVar t⟩ v →
      S' ⊆ occurrences t'.clauses.length k ⟨t'.clauses.length, k, litVar t'⟩ v →
      (∀ c < t'.clauses.length, c ∈ S' ↔ f c ∈ S) →
      ∑ c ∈ S, damped flag alpha (fun i => r i c v) j = ∑ c ∈ S', damped flag alpha (fun i => r' i c v) j := by
    intro v hv j hr S S' hS hS' hSS
    have hinj : Set.InjOn f S' := fun c hc d hd e => f2 c ((hmemO' v c).mp (hS' hc)).1 d ((hmemO' v d).mp (hS' hd)).1 e
    have hsub : S'.image f ⊆ S := by
      intro d hd
      obtain ⟨c, hc, rfl⟩ := Finset.mem_image.mp hd
      exact (hSS c ((hmemO' v c).mp (hS' hc)).1).mp hc
    rw [← Finset.sum_subset hsub, Finset.sum_image hinj]
    · refine Finset.sum_congr rfl fun c hc => damped_congr fun i hi => ?_
      obtain ⟨h1, h2⟩ := (hmemO' v c).mp (hS' hc)
      exact (hr i hi c h1 v h2).symm
    · intro d hd hnd
      obtain ⟨h1, h2⟩ := (hmemO v d).mp (hS hd)
      have ht : ∃ u ∈ varsOf t.clauses d, u ∈ A := by
        by_contra hno
        push Not at hno
        obtain ⟨c, hc, rfl⟩ := f3 d h1 hno
        exact hnd (Finset.mem_image.mpr ⟨c, (hSS c hc).mpr hd, rfl⟩)
      have hz : ∀ i, r i d v = 0 := fun i => (autarky_message hf hk ha hA hw h i h1 h2).2 hv ht
      rw [damped_congr (r' := fun _ => 0) (fun i _ => hz i)]
      unfold damped; simp
  have hmain : ∀ j, ∀ c < t'.clauses.length, ∀ v ∈ varsOf t'.clauses c, r' j c v = r j (f c) v := by
    intro j
    induction j using Nat.strong_induction_on with
    | _ j ih =>
      have hx : ∀ c < t'.clauses.length, ∀ v ∈ varsOf t'.clauses c, x' j c v = x j (f c) v := by
        intro c hc v hv
        have hv2 : v ∈ varsOf t.clauses (f c) := by rw [← hvars c hc]; exact hv
        have hcv' : v ∈ clauseVars k (litVar t' c) := by rw [clauseVars_eq hf' hc]; exact hv
        have hcv : v ∈ clauseVars k (litVar t (f c)) := by rw [clauseVars_eq hf (f1 c hc).1]; exact hv2
        cases j with
        | zero =>
          have m1 : ∃ s < k, litVar t' c s = v := by simpa [clauseVars] using hcv'
          have m2 : ∃ s < k, litVar t (f c) s = v := by simpa [clauseVars] using hcv
          rw [h'.init c hc v (hf'.tables.used_lt v (vars_used hf' hc hv)), if_pos m1,
            h.init (f c) (f1 c hc).1 v (hf.tables.used_lt v (vars_used hf (f1 c hc).1 hv2)), if_pos m2]
        | succ j =>
          rw [h'.var j c hc v hcv', h.var j (f c) (f1 c hc).1 v hcv]
          congr 1
          refine (hsum v ((f1 c hc).2.2 v hv2) j (fun i hi => ih i (by omega)) _ _ (Finset.erase_subset _ _) (Finset.erase_subset _ _) fun d hd => ?_).symm
          rw [Finset.mem_erase, Finset.mem_erase, hmemO, hmemO', hvars d hd]
          have := (f1 d hd).1
          have e : d ≠ c ↔ f d ≠ f c := not_congr ⟨fun e => by rw [e], fun e => f2 d hd c hc e⟩
          rw [e]; simp [hd, this]
      intro c hc v hv
      have hv2 : v ∈ varsOf t.clauses (f c) := by rw [← hvars c hc]; exact hv
      have hcv' : v ∈ clauseVars k (litVar t' c) := by rw [clauseVars_eq hf' hc]; exact hv
      have hcv : v ∈ clauseVars k (litVar t (f c)) := by rw [clauseVars_eq hf (f1 c hc).1]; exact hv2
      have m' := h'.clause j c hc v hcv'
      have m := h.clause j (f c) (f1 c hc).1 v hcv
      obtain ⟨s, hs, e⟩ := Finset.mem_image.mp hcv
      dsimp only at m m'
      rw [hlv c hc, hls c hc] at m'
      have hs := Finset.mem_range.mp hs
      rw [← e] at m m' ⊢
      have := clause_lipschitz (lit_inj hf (f1 c hc).1) (fun _ hs => lit_sign hf (f1 c hc).1 hs) hk hs (ε := 0) m' m (fun u hu => by
        rw [clauseVars_eq hf (f1 c hc).1, ← hvars c hc] at hu
        rw [hx c hc u hu]; simp)
      have := abs_nonpos_iff.mp this
      linarith
  refine ⟨f, fun j => ⟨hmain j, fun v hv => ?_⟩⟩
  refine hsum v hv j (fun i _ => hmain i) _ _ subset_rfl subset_rfl fun c hc => ?_
  rw [hmemO, hmemO', hvars c hc]
  simp [hc, (f1 c hc).1]

end
/-- The table conditions, reduced to finitely many checks. -/
theorem kformula_of_checks {n k : ℕ} {F : List (List (ℕ × ℤ))} {used : List ℕ} {conns : List (List (ℕ × ℤ))}
    (h1 : ∀ cl ∈ F, cl.length = k ∧ (cl.map Prod.fst).Nodup ∧ ∀ l ∈ cl, l.2 = 1 ∨ l.2 = -1) (h2 : conns.length = n)
    (h3 : ∀ v < n, ∀ p ∈ conns.getD v [], (v, p.2) ∈ F.getD p.1 []) (h4 : ∀ c < F.length, ∀ l ∈ F.getD c [], (c, l.2) ∈ conns.getD l.1 [])
    (h5 : ∀ cl ∈ F, ∀ l ∈ cl, l.1 ∈ used) (h6 : ∀ v ∈ used, v < n) (h7 : ∀ l ∈ conns, (l.map Prod.fst).Nodup) : KFormula n k F used conns := by
  refine ⟨h1, ⟨fun v c s => ⟨fun h => ?_, fun h => ?_⟩, h5, h6⟩, h2, fun v => ?_⟩
  · by_cases hv : v < n
    · exact h3 v hv _ h
    · rw [List.getD_eq_getElem?_getD, List.getElem?_eq_none (by omega)] at h
      simp at h
  · by_cases hc : c < F.length
    · exact h4 c hc _ h
    · rw [List.getD_eq_getElem?_getD, List.getElem?_eq_none (by omega)] at h
      simp at h
  · by_cases hv : v < conns.length
    · rw [List.getD_eq_getElem?_getD, List.getElem?_eq_getElem hv]
      exact h7 _ (List.getElem_mem hv)
    · rw [List.getD_eq_getElem?_getD, List.getElem?_eq_none (by omega)]
      simp

end Verif.Proofs
