import Verif.Spec.Cover
import Verif.Proofs.Potential
import Mathlib.GroupTheory.Perm.List
import Mathlib.Algebra.BigOperators.Fin
import Mathlib.Data.Fintype.Pi
import Mathlib.Data.Fintype.EquivFin
import Mathlib.Tactic.FieldSimp
import Mathlib.Tactic.Ring
import Mathlib.Algebra.BigOperators.Ring.Finset
import Mathlib.Algebra.Order.BigOperators.Group.Finset

/-! A unique cheapest cycle cover has a strict dual solution. -/

namespace Verif.Proofs
open Verif Spec

theorem cycle_sum {V : Type} (H : V → V → ℚ) (f : V → V) {l : List V} {i : V} (hl : l.IsChain (fun a b => f a = b))
    (hi : l.getLast? = some i) : (l.map (fun u => H u (f u))).sum = chainWeight H l + H i (f i) := by
  induction l with
  | nil => simp at hi
  | cons a l ih =>
    cases l with
    | nil => simp at hi; subst hi; simp [chainWeight]
    | cons b l =>
      rw [List.isChain_cons_cons] at hl
      have hi' : (b :: l).getLast? = some i := by rw [← hi]; rfl
      rw [List.map_cons, List.sum_cons, ih hl.2 hi', hl.1]
      simp only [chainWeight]; ring

theorem chainWeight_sub {V : Type} (W : V → V → ℚ) (d : ℚ) (k : V) (l : List V) :
    chainWeight (fun a b => W a b - d) (k :: l) = chainWeight W (k :: l) - l.length * d := by
  induction l generalizing k with
  | nil => simp [chainWeight]
  | cons b l ih =>
    simp only [chainWeight, ih, List.length_cons]
    push_cast; ring

theorem formPerm_chain {V : Type} [DecidableEq V] {l : List V} (h : l.Nodup) : l.IsChain (fun a b => l.formPerm a = b) := by
  rw [List.isChain_iff_getElem]
  intro i hi
  exact List.formPerm_apply_lt_getElem l h i hi

variable {n : ℕ} {C : ℕ → ℕ → ℚ} {next : ℕ → ℕ}

theorem onlyBest_gap (h : OnlyBest n C next) : ∃ gap : ℚ, 0 < gap ∧ ∀ other, CycleCover n other → (∃ u < n, other u ≠ next u) →
    coverCost n C next + gap ≤ coverCost n C other := by
  let ext : (Fin n → Fin n) → ℕ → ℕ := fun f u => if hu : u < n then f ⟨u, hu⟩ else 0
  let S : Set (Fin n → Fin n) := {f | CycleCover n (ext f) ∧ ∃ u < n, ext f u ≠ next u}
  have hS : ∀ other, CycleCover n other → (∃ u < n, other u ≠ next u) → ∃ f ∈ S, coverCost n C other = coverCost n C (ext f) := by
    intro other ho hd
    have he : ∀ u < n, ext (fun u => ⟨other u, ho.lt u u.2⟩) u = other u := fun u hu => by simp [ext, hu]
    refine ⟨fun u => ⟨other u, ho.lt u u.2⟩, ⟨⟨fun u hu => ?_, fun u hu => ?_, fun u hu v hv => ?_⟩, ?_⟩, ?_⟩
    · rw [he u hu]; exact ho.lt u hu
    · rw [he u hu]; exact ho.ne u hu
    · rw [he u hu, he v hv]; exact ho.inj u hu v hv
    · obtain ⟨u, hu, hne⟩ := hd
      exact ⟨u, hu, by rw [he u hu]; exact hne⟩
    · unfold coverCost
      exact Finset.sum_congr rfl fun u hu => by rw [he u (Finset.mem_range.mp hu)]
  by_cases hne : S.Nonempty
  · obtain ⟨f, hf, hmin⟩ := Set.exists_min_image S (fun f => coverCost n C (ext f)) (Set.toFinite S) hne
    refine ⟨coverCost n C (ext f) - coverCost n C next, by have := h.2 _ hf.1 hf.2; linarith, fun other ho hd => ?_⟩
    obtain ⟨g, hg, he⟩ := hS other ho hd
    have := hmin g hg
    rw [he]; linarith
  · refine ⟨1, by norm_num, fun other ho hd => ?_⟩
    obtain ⟨g, hg, -⟩ := hS other ho hd
    exact absurd ⟨g, hg⟩ hne

/-- Exchanging edges along a cycle gives another cycle cover. -/
theorem exchange (h : CycleCover n next) {k i : Fin n} {l : List (Fin n)} (hn : (k :: l).Nodup)
    (hl : (k :: l).IsChain (fun a b : Fin n => a ≠ b ∧ next b ≠ a)) (hi : (k :: l).getLast? = some i) (hik : i ≠ k ∧ next k ≠ i) :
    ∃ other, CycleCover n other ∧ (∃ u < n, other u ≠ next u) ∧
      coverCost n C other - coverCost n C next =
        chainWeight (fun a b : Fin n => C a (next b) - C a (next a)) (k :: l) + (C i (next k) - C i (next i)) := by
  set f := (k :: l).formPerm with hf
  have hch : (k :: l).IsChain (fun a b => f a = b) := formPerm_chain hn
  have hfi : f i = k := by
    have := List.formPerm_apply_getLast k l
    rwa [show (k :: l).getLast (by simp) = i by rw [List.getLast?_eq_some_getLast (by simp)] at hi; simpa using hi] at this
  have hout : ∀ u, u ∉ k :: l → f u = u := fun u hu => List.formPerm_apply_of_notMem hu
  have harc : ∀ u, u ∈ k :: l → next (f u) ≠ u := by
    intro u hu
    obtain ⟨s, hs, rfl⟩ := List.getElem_of_mem hu
    by_cases hlast : s + 1 < (k :: l).length
    · rw [hf, List.formPerm_apply_lt_getElem _ hn s hlast]
      exact ((List.isChain_iff_getElem.mp hl) s hlast).2
    · have : (k :: l)[s] = i := by
        rw [List.getLast?_eq_getElem?, show (k :: l).length - 1 = s by omega, List.getElem?_eq_getElem hs] at hi
        simpa using hi
      rw [this, hfi]; exact hik.2
  let other : ℕ → ℕ := fun u => if hu : u < n then next (f ⟨u, hu⟩) else 0
  have ho : ∀ u : Fin n, other u = next (f u) := fun u => by simp [other]
  refine ⟨other, ⟨fun u hu => ?_, fun u hu => ?_, fun u hu v hv => ?_⟩, ⟨i, i.2, ?_⟩, ?_⟩
  · rw [ho ⟨u, hu⟩]; exact h.lt _ (f _).2
  · rw [ho ⟨u, hu⟩]
    by_cases hm : (⟨u, hu⟩ : Fin n) ∈ k :: l
    · exact harc _ hm
    · rw [hout _ hm]; exact h.ne u hu
  · rw [ho ⟨u, hu⟩, ho ⟨v, hv⟩]
    intro he
    have := f.injective (Fin.ext (h.inj _ (f _).2 _ (f _).2 he))
    simpa using this
  · rw [ho, hfi]
    intro he
    exact hik.1 (Fin.ext (h.inj _ k.2 _ i.2 he)).symm
  · have hs := cycle_sum (fun a b : Fin n => C a (next b) - C a (next a)) f hch hi
    simp only [hfi] at hs
    rw [← hs]
    unfold coverCost
    rw [Finset.sum_range, Finset.sum_range, ← Finset.sum_sub_distrib]
    rw [← List.sum_toFinset _ hn]
    symm
    apply Finset.sum_subset_zero_on_sdiff (Finset.subset_univ _)
    · intro u hu
      simp only [Finset.mem_sdiff, List.mem_toFinset] at hu
      rw [ho, hout u hu.2, sub_self]
    · intro u _
      rw [ho]

/-- The strict dual solution, with the size of the rest. -/
theorem dual_of_gap {gap δ : ℚ} (h : CoverBy gap n C next) (hδ0 : 0 ≤ δ) (hδ : n * δ ≤ gap) : ∃ u v : ℕ → ℚ,
    (∀ i < n, C i (next i) = u i + v (next i)) ∧ ∀ i < n, ∀ j < n, j ≠ i → j ≠ next i → u i + v j + δ ≤ C i j := by
  obtain ⟨hcov, hgap⟩ := h
  obtain ⟨z, hz⟩ := exists_potential (V := Fin n) (fun a b => a ≠ b ∧ next b ≠ a)
    (fun a b => (C a (next b) - C a (next a)) - δ) (by
      intro k i l h1 h2 h3 h4
      obtain ⟨other, o1, o2, o3⟩ := exchange (C := C) hcov h1 h2 h3 h4
      have o4 := hgap other o1 o2
      have hlen : (l.length : ℚ) + 1 ≤ n := by
        have := h1.length_le_card
        simp only [List.length_cons, Fintype.card_fin] at this
        exact_mod_cast this
      rw [chainWeight_sub]
      nlinarith)
  have hsurj : ∀ j < n, ∃ k : Fin n, next k = j := by
    let g : Fin n → Fin n := fun k => ⟨next k, hcov.lt k k.2⟩
    have hinj : Function.Injective g := by
      intro a b hab
      exact Fin.ext (hcov.inj a a.2 b b.2 (by simpa [g] using hab))
    intro j hj
    obtain ⟨k, hk⟩ := Finite.injective_iff_surjective.mp hinj ⟨j, hj⟩
    exact ⟨k, by simpa [g] using congrArg Fin.val hk⟩
  have hv : ∃ v : ℕ → ℚ, ∀ k : Fin n, v (next k) = z k := by
    classical
    refine ⟨fun j => if hj : j < n then z (hsurj j hj).choose else 0, fun k => ?_⟩
    have hk := hcov.lt k k.2
    simp only [hk, dif_pos]
    congr 1
    exact Fin.ext (hcov.inj _ (hsurj (next k) hk).choose.2 _ k.2 (hsurj (next k) hk).choose_spec)
  obtain ⟨v, hv⟩ := hv
  refine ⟨fun i => C i (next i) - v (next i), v, fun i hi => by ring, fun i hi j hj hji hjn => ?_⟩
  obtain ⟨k, rfl⟩ := hsurj j hj
  have := hz ⟨i, hi⟩ k ⟨by rintro rfl; exact hjn rfl, hji⟩
  have h1 := hv ⟨i, hi⟩
  rw [hv k]
  simp only at h1 this ⊢
  rw [h1]; linarith

/-- The strict dual solution. -/
theorem exists_dual (h : OnlyBest n C next) : ∃ (u v : ℕ → ℚ) (δ : ℚ), 0 < δ ∧ (∀ i < n, C i (next i) = u i + v (next i)) ∧
    ∀ i < n, ∀ j < n, j ≠ i → j ≠ next i → u i + v j + δ ≤ C i j := by
  obtain ⟨gap, hg, hgap⟩ := onlyBest_gap h
  have hn1 : (0 : ℚ) < n + 1 := by positivity
  have hδ0 : 0 < gap / (n + 1) := div_pos hg hn1
  obtain ⟨u, v, h1, h2⟩ := dual_of_gap (δ := gap / (n + 1)) ⟨h.1, hgap⟩ hδ0.le (by
    rw [mul_div_assoc', div_le_iff₀ hn1]; nlinarith)
  exact ⟨u, v, _, hδ0, h1, h2⟩

theorem gap_of_dual (hc : CycleCover n next) {u v : ℕ → ℚ} {δ : ℚ} (h0 : 0 ≤ δ) (h1 : ∀ i < n, C i (next i) = u i + v (next i))
    (h2 : ∀ i < n, ∀ j < n, j ≠ i → j ≠ next i → u i + v j + δ ≤ C i j) {other : ℕ → ℕ} (ho : CycleCover n other)
    (hd : ∃ z < n, other z ≠ next z) : coverCost n C next + δ ≤ coverCost n C other := by
  obtain ⟨z, hz, hne⟩ := hd
  have hsum : ∀ f, CycleCover n f → ∑ i ∈ Finset.range n, v (f i) = ∑ i ∈ Finset.range n, v i := by
    intro f hf
    have hinj : Set.InjOn f (Finset.range n : Finset ℕ) := by
      intro a ha b hb hab
      exact hf.inj a (by simpa using ha) b (by simpa using hb) hab
    have himg : (Finset.range n).image f = Finset.range n := by
      apply Finset.eq_of_subset_of_card_le
      · intro j hj
        obtain ⟨i, hi, rfl⟩ := Finset.mem_image.mp hj
        exact Finset.mem_range.mpr (hf.lt i (Finset.mem_range.mp hi))
      · rw [Finset.card_image_of_injOn hinj]
    rw [← Finset.sum_image hinj, himg]
  have hn : coverCost n C next = ∑ i ∈ Finset.range n, (u i + v i) := by
    unfold coverCost
    rw [Finset.sum_congr rfl fun i hi => h1 i (Finset.mem_range.mp hi), Finset.sum_add_distrib, Finset.sum_add_distrib, hsum next hc]
  have hle : ∀ i ∈ Finset.range n, u i + v (other i) ≤ C i (other i) := by
    intro i hi
    have hi' := Finset.mem_range.mp hi
    by_cases he : other i = next i
    · rw [he, h1 i hi']
    · have := h2 i hi' _ (ho.lt i hi') (ho.ne i hi') he
      linarith
  have hlt : ∑ i ∈ Finset.range n, (u i + v (other i)) + δ ≤ coverCost n C other := by
    have hz' := Finset.mem_range.mpr hz
    unfold coverCost
    rw [← Finset.add_sum_erase _ _ hz', ← Finset.add_sum_erase _ (fun i => C i (other i)) hz']
    have h3 := Finset.sum_le_sum fun i (hi : i ∈ (Finset.range n).erase z) => hle i (Finset.mem_of_mem_erase hi)
    have h4 := h2 z hz _ (ho.lt z hz) (ho.ne z hz) hne
    linarith
  rw [Finset.sum_add_distrib, hsum other ho, ← Finset.sum_add_distrib, ← hn] at hlt
  exact hlt

theorem onlyBest_of_gap {gap : ℚ} (hg : 0 < gap) (h : CoverBy gap n C next) : OnlyBest n C next :=
  ⟨h.1, fun other ho hd => by linarith [h.2 other ho hd]⟩

theorem onlyBest_of_dual (hc : CycleCover n next) {u v : ℕ → ℚ} {δ : ℚ} (h0 : 0 < δ) (h1 : ∀ i < n, C i (next i) = u i + v (next i))
    (h2 : ∀ i < n, ∀ j < n, j ≠ i → j ≠ next i → u i + v j + δ ≤ C i j) : OnlyBest n C next :=
  onlyBest_of_gap h0 ⟨hc, fun _ ho hd => gap_of_dual hc h0.le h1 h2 ho hd⟩

end Verif.Proofs
