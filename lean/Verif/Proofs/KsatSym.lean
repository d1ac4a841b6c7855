import Verif.Proofs.Transport
import Verif.Proofs.KsatCall
import Verif.Spec.SameFormula

/-! The messages of two formulas that differ only in names, signs, order and scale. -/

namespace Verif.Proofs
open Verif Num Spec Model Properties

section
variable {σ ρ : ℕ → ℕ} {eps : ℕ → ℤ} {n n' k : ℕ} {t t' : KsatTables} (hf : KFormula n k t.clauses t.used t.conns)
  (hf' : KFormula n' k t'.clauses t'.used t'.conns) (hsame : SameFormula σ ρ eps t.used t'.used t.clauses t'.clauses)
include hf

theorem vars_used {c v : ℕ} (hc : c < t.clauses.length) (hv : v ∈ varsOf t.clauses c) : v ∈ t.used := by
  unfold varsOf at hv
  rw [List.mem_toFinset] at hv
  obtain ⟨l, hl, rfl⟩ := List.mem_map.mp hv
  exact hf.tables.used_mem _ (getD_mem hf hc) l hl

omit hf in
include hsame in
theorem vars_same {c : ℕ} (hc : c < t.clauses.length) : varsOf t'.clauses (ρ c) = (varsOf t.clauses c).image σ := by
  ext u
  simp only [varsOf, List.mem_toFinset, List.mem_map, Finset.mem_image]
  constructor
  · rintro ⟨l, hl, rfl⟩
    obtain ⟨l', hl', rfl⟩ := List.mem_map.mp ((hsame.clause c hc).mem_iff.mp hl)
    exact ⟨l'.1, ⟨l', hl', rfl⟩, rfl⟩
  · rintro ⟨v, ⟨l, hl, rfl⟩, rfl⟩
    exact ⟨_, (hsame.clause c hc).mem_iff.mpr (List.mem_map.mpr ⟨l, hl, rfl⟩), rfl⟩

include hsame in
theorem sat_same {c : ℕ} (hc : c < t.clauses.length) (S S' : Finset ℕ)
    (hSS : ∀ v ∈ varsOf t.clauses c, (σ v ∈ S' ↔ (v ∈ S ↔ ¬ eps v = -1))) :
    (∃ l ∈ t'.clauses.getD (ρ c) [], LitTrue (fun v => decide (v ∈ S')) l) ↔ ∃ l ∈ t.clauses.getD c [], LitTrue (fun v => decide (v ∈ S)) l := by
  have key : ∀ l ∈ t.clauses.getD c [], (LitTrue (fun v => decide (v ∈ S')) (σ l.1, eps l.1 * l.2) ↔ LitTrue (fun v => decide (v ∈ S)) l) := by
    intro l hl
    have hv : l.1 ∈ varsOf t.clauses c := by
      unfold varsOf; rw [List.mem_toFinset]; exact List.mem_map.mpr ⟨l, hl, rfl⟩
    have h1 := hSS _ hv
    have h2 := hsame.signs _ (vars_used hf hc hv)
    have h3 := (hf.clause _ (getD_mem hf hc)).2.2 l hl
    unfold LitTrue
    rcases h2 with h2 | h2 <;> rcases h3 with h3 | h3 <;> simp [h1, h2, h3]
  constructor
  · rintro ⟨l, hl, h⟩
    obtain ⟨l', hl', rfl⟩ := List.mem_map.mp ((hsame.clause c hc).mem_iff.mp hl)
    exact ⟨l', hl', (key l' hl').mp h⟩
  · rintro ⟨l, hl, h⟩
    exact ⟨_, (hsame.clause c hc).mem_iff.mpr (List.mem_map.mpr ⟨l, hl, rfl⟩), (key l hl).mpr h⟩

omit hf in
include hsame in
theorem places_surj : ∀ d < t.clauses.length, ∃ c < t.clauses.length, ρ c = d := by
  intro d hd
  have := Finset.surj_on_of_inj_on_of_card_le (s := Finset.range t.clauses.length) (t := Finset.range t.clauses.length) (fun c _ => ρ c)
    (fun c hc => Finset.mem_range.mpr (hsame.places c (Finset.mem_range.mp hc)))
    (fun c d hc hd e => hsame.places_inj c (Finset.mem_range.mp hc) d (Finset.mem_range.mp hd) e) le_rfl d (Finset.mem_range.mpr hd)
  obtain ⟨c, hc, e⟩ := this
  exact ⟨c, Finset.mem_range.mp hc, e.symm⟩

include hf' hsame in
theorem occ_same {v : ℕ} (hv : v ∈ t.used) :
    occurrences t'.clauses.length k ⟨t'.clauses.length, k, litVar t'⟩ (σ v) =
      (occurrences t.clauses.length k ⟨t.clauses.length, k, litVar t⟩ v).image ρ := by
  have hmem : ∀ c < t.clauses.length, (σ v ∈ varsOf t'.clauses (ρ c) ↔ v ∈ varsOf t.clauses c) := by
    intro c hc
    rw [vars_same hsame hc, Finset.mem_image]
    constructor
    · rintro ⟨u, hu, e⟩
      rwa [← hsame.names u (vars_used hf hc hu) v hv e]
    · exact fun h => ⟨v, h, rfl⟩
  have hsurj := places_surj hsame
  ext d
  simp only [occurrences, Finset.mem_filter, Finset.mem_range, Finset.mem_image]
  constructor
  · rintro ⟨hd, hm⟩
    rw [clauseVars_eq hf' hd] at hm
    rw [hsame.length] at hd
    obtain ⟨c, hc, rfl⟩ := hsurj d hd
    refine ⟨c, ⟨hc, ?_⟩, rfl⟩
    rw [clauseVars_eq hf hc]
    exact (hmem c hc).mp hm
  · rintro ⟨c, ⟨hc, hm⟩, rfl⟩
    rw [clauseVars_eq hf hc] at hm
    have hc' : ρ c < t'.clauses.length := by rw [hsame.length]; exact hsame.places c hc
    refine ⟨hc', ?_⟩
    rw [clauseVars_eq hf' hc']
    exact (hmem c hc).mpr hm

variable {w w' : ℕ → ℚ} {flag : Bool} {alpha s : ℚ} {x r x' r' : ℕ → ℕ → ℕ → ℚ}
variable (hs : 0 < s) (hw : ∀ v ∈ t.used, w' (σ v) = s * (if eps v = -1 then -1 else 1) * w v)
  (h : IsKsatTrace t.clauses.length k n ⟨t.clauses.length, k, litVar t⟩ ⟨t.clauses.length, k, litSign t⟩ w flag alpha
        (fun c v => if ∃ s < k, litVar t c s = v then w v else 0) x r)
  (h' : IsKsatTrace t'.clauses.length k n' ⟨t'.clauses.length, k, litVar t'⟩ ⟨t'.clauses.length, k, litSign t'⟩ w' flag alpha
        (fun c v => if ∃ s < k, litVar t' c s = v then w' v else 0) x' r')

omit hf in
theorem damped_smul (flag : Bool) (alpha a : ℚ) (r : ℕ → ℚ) (j : ℕ) : damped flag alpha (fun i => a * r i) j = a * damped flag alpha r j := by
  unfold damped
  split
  · rw [mul_left_comm, Finset.mul_sum (a := a)]
    congr 1
    exact Finset.sum_congr rfl fun i _ => by ring
  · rfl

include hf' hsame hs hw h h' in
theorem trace_same (j : ℕ) : ∀ c < t.clauses.length, ∀ v ∈ varsOf t.clauses c,
    x' j (ρ c) (σ v) = s * (if eps v = -1 then -1 else 1) * x j c v ∧ r' j (ρ c) (σ v) = s * (if eps v = -1 then -1 else 1) * r j c v := by
  have hpl : ∀ c < t.clauses.length, ρ c < t'.clauses.length := fun c hc => by rw [hsame.length]; exact hsame.places c hc
  have hlt : ∀ c < t.clauses.length, ∀ v ∈ varsOf t.clauses c, v < n := fun c hc v hv => hf.tables.used_lt _ (vars_used hf hc hv)
  have hr : ∀ j, (∀ c < t.clauses.length, ∀ v ∈ varsOf t.clauses c, x' j (ρ c) (σ v) = s * (if eps v = -1 then -1 else 1) * x j c v) →
      ∀ c < t.clauses.length, ∀ v ∈ varsOf t.clauses c, r' j (ρ c) (σ v) = s * (if eps v = -1 then -1 else 1) * r j c v := by
    intro j hx c hc v hv
    have e1 : clauseVars k (litVar t c) = varsOf t.clauses c := clauseVars_eq hf hc
    have e2 : clauseVars k (litVar t' (ρ c)) = (varsOf t.clauses c).image σ := by rw [clauseVars_eq hf' (hpl c hc), vars_same hsame hc]
    have hσ : ∀ u ∈ varsOf t.clauses c, ∀ v ∈ varsOf t.clauses c, σ u = σ v → u = v := fun u hu v hv =>
      hsame.names u (vars_used hf hc hu) v (vars_used hf hc hv)
    have m1 := marg_of_message (h.clause j c hc v (by rw [e1]; exact hv))
    have m2 := marg_of_message (h'.clause j (ρ c) (hpl c hc) (σ v) (by
      show σ v ∈ clauseVars k (litVar t' (ρ c)); rw [e2]; exact Finset.mem_image_of_mem _ hv))
    simp only [e1, e2] at m1 m2
    have hPQ : ∀ S ⊆ varsOf t.clauses c, (ClauseSat k (litVar t' (ρ c)) (litSign t' (ρ c)) (flipSet (varsOf t.clauses c) σ (fun v => eps v = -1) S) ↔
        ClauseSat k (litVar t c) (litSign t c) S) := by
      intro S hS
      have h1 := clauseSat_iff hf hc S
      rw [e1, Finset.inter_eq_left.mpr hS] at h1
      have h2 := clauseSat_iff hf' (hpl c hc) (flipSet (varsOf t.clauses c) σ (fun v => eps v = -1) S)
      have hsub : flipSet (varsOf t.clauses c) σ (fun v => eps v = -1) S ⊆ (varsOf t.clauses c).image σ :=
        Finset.image_subset_image (Finset.filter_subset _ _)
      rw [e2, Finset.inter_eq_left.mpr hsub] at h2
      rw [h1, h2]
      exact sat_same hf hsame hc S _ fun u hu => mem_flipSet hσ hu
    have m3 := marg_transport hσ hs (hx c hc) hPQ hv m1
    have := marg_unique m2 m3
    rw [hx c hc v hv] at this
    linarith
  have hx : ∀ j, ∀ i < j + 1, ∀ c < t.clauses.length, ∀ v ∈ varsOf t.clauses c,
      x' i (ρ c) (σ v) = s * (if eps v = -1 then -1 else 1) * x i c v ∧ r' i (ρ c) (σ v) = s * (if eps v = -1 then -1 else 1) * r i c v := by
    intro j
    induction j with
    | zero =>
      intro i hi c hc v hv
      obtain rfl : i = 0 := by omega
      have hx0 : ∀ c < t.clauses.length, ∀ v ∈ varsOf t.clauses c, x' 0 (ρ c) (σ v) = s * (if eps v = -1 then -1 else 1) * x 0 c v := by
        intro c hc v hv
        have hu := vars_used hf hc hv
        have m1 : ∃ s < k, litVar t c s = v := by
          have : v ∈ clauseVars k (litVar t c) := by rw [clauseVars_eq hf hc]; exact hv
          simpa [clauseVars] using this
        have m2 : ∃ s < k, litVar t' (ρ c) s = σ v := by
          have : σ v ∈ clauseVars k (litVar t' (ρ c)) := by
            rw [clauseVars_eq hf' (hpl c hc), vars_same hsame hc]; exact Finset.mem_image_of_mem _ hv
          simpa [clauseVars] using this
        rw [h.init c hc v (hlt c hc v hv), h'.init (ρ c) (hpl c hc) (σ v) (hf'.tables.used_lt _ (hsame.used_mem _ hu)), if_pos m1, if_pos m2,
          hw v hu]
      exact ⟨hx0 c hc v hv, hr 0 hx0 c hc v hv⟩
    | succ j ih =>
      have hxs : ∀ c < t.clauses.length, ∀ v ∈ varsOf t.clauses c, x' (j + 1) (ρ c) (σ v) = s * (if eps v = -1 then -1 else 1) * x (j + 1) c v := by
        intro c hc v hv
        have hu := vars_used hf hc hv
        have m1 : v ∈ clauseVars k (litVar t c) := by rw [clauseVars_eq hf hc]; exact hv
        have m2 : σ v ∈ clauseVars k (litVar t' (ρ c)) := by
          rw [clauseVars_eq hf' (hpl c hc), vars_same hsame hc]; exact Finset.mem_image_of_mem _ hv
        have hocc : ∀ d ∈ occurrences t.clauses.length k ⟨t.clauses.length, k, litVar t⟩ v, d < t.clauses.length := fun d hd =>
          Finset.mem_range.mp (Finset.mem_filter.mp hd).1
        have herase : ((occurrences t.clauses.length k ⟨t.clauses.length, k, litVar t⟩ v).image ρ).erase (ρ c) =
            ((occurrences t.clauses.length k ⟨t.clauses.length, k, litVar t⟩ v).erase c).image ρ := by
          ext d
          simp only [Finset.mem_erase, Finset.mem_image]
          constructor
          · rintro ⟨hne, e, he, rfl⟩; exact ⟨e, ⟨fun e' => hne (by rw [e']), he⟩, rfl⟩
          · rintro ⟨e, ⟨hne, he⟩, rfl⟩
            exact ⟨fun e' => hne (hsame.places_inj e (hocc e he) c hc e'), e, he, rfl⟩
        rw [h.var j c hc v m1, h'.var j (ρ c) (hpl c hc) (σ v) m2, hw v hu, occ_same hf hf' hsame hu, herase,
          Finset.sum_image (fun d hd e he eq => hsame.places_inj d (hocc d (Finset.mem_of_mem_erase hd)) e (hocc e (Finset.mem_of_mem_erase he)) eq),
          mul_add, Finset.mul_sum]
        congr 1
        refine Finset.sum_congr rfl fun d hd => ?_
        have hd' := Finset.mem_of_mem_erase hd
        have hdv : v ∈ varsOf t.clauses d := by
          have := (Finset.mem_filter.mp hd').2
          rwa [show clauseVars k ((⟨t.clauses.length, k, litVar t⟩ : Mat ℕ).data d) = varsOf t.clauses d from clauseVars_eq hf (hocc d hd')] at this
        rw [← damped_smul]
        exact damped_congr fun i hi => (ih i (by omega) d (hocc d hd') v hdv).2
      intro i hi c hc v hv
      by_cases e : i = j + 1
      · subst e; exact ⟨hxs c hc v hv, hr (j + 1) hxs c hc v hv⟩
      · exact ih i (by omega) c hc v hv
  exact hx j j (by omega)

end
end Verif.Proofs
