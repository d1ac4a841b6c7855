import Verif.Spec.Forest
import Mathlib.Data.Finset.Card

/-! The order of removal in `Forest` exists exactly when the incidence graph has no cycle. -/

namespace Verif.Proofs
open Verif Spec SimpleGraph

section
variable {C : ℕ} {V : ℕ → Finset ℕ}

theorem inc_adj {c v : ℕ} (hc : c < C) (hv : v ∈ V c) : (incidence C V).Adj (.inl c) (.inr v) := ⟨c, hc, v, hv, Or.inl ⟨rfl, rfl⟩⟩

/-- If every constraint of `F` shares two variables with others, there are arbitrarily long walks that never turn back. -/
theorem long_walk {F : Finset ℕ} (hF : ∀ c ∈ F, c < C) (hne : F.Nonempty)
    (h : ∀ c ∈ F, ∀ u, ∃ v ∈ V c, v ≠ u ∧ ∃ c' ∈ F, c' ≠ c ∧ v ∈ V c') (n : ℕ) :
    ∃ c ∈ F, ∃ v, ∃ e, ∃ p : (incidence C V).Walk (.inl c) e, n ≤ p.length ∧ p.edges.IsChain (· ≠ ·) ∧
      (∀ s ∈ p.edges.head?, s = s(.inl c, .inr v)) ∧
      ∀ z ∈ p.support, z ∈ F.image Sum.inl ∪ (F.biUnion V).image Sum.inr := by
  induction n with
  | zero =>
    obtain ⟨c, hc⟩ := hne
    exact ⟨c, hc, 0, _, Walk.nil, le_refl 0, by simp, by simp, by simp [hc]⟩
  | succ n ih =>
    obtain ⟨c, hc, v, e, p, h1, h2, h3, h4⟩ := ih
    obtain ⟨v', hv', hne', c', hc', hcc, hvc⟩ := h c hc v
    refine ⟨c', hc', v', e, Walk.cons (inc_adj (hF c' hc') hvc) (Walk.cons (inc_adj (hF c hc) hv').symm p), ?_, ?_, ?_, ?_⟩
    · simp only [Walk.length_cons]; omega
    · simp only [Walk.edges_cons]
      rw [List.isChain_cons_cons]
      refine ⟨?_, ?_⟩
      · simp [hcc]
      · rw [List.isChain_cons]
        refine ⟨fun s hs e => ?_, h2⟩
        rw [h3 s hs] at e
        simp [hne'] at e
    · simp
    · intro z hz
      simp only [Walk.support_cons, List.mem_cons] at hz
      rcases hz with rfl | rfl | hz
      · simp [hc']
      · simp only [Finset.mem_union, Finset.mem_image, Finset.mem_biUnion]
        exact Or.inr ⟨v', ⟨c, hc, hv'⟩, rfl⟩
      · exact h4 z hz

/-- In a graph without cycles some constraint shares at most one variable with the others. -/
theorem exists_leaf (ha : (incidence C V).IsAcyclic) {F : Finset ℕ} (hF : ∀ c ∈ F, c < C) (hne : F.Nonempty) (hV : ∀ c ∈ F, (V c).Nonempty) :
    ∃ c ∈ F, ∃ u ∈ V c, ∀ c' ∈ F, c' ≠ c → ∀ v ∈ V c, v ∈ V c' → v = u := by
  by_contra hcon
  push Not at hcon
  have h : ∀ c ∈ F, ∀ u, ∃ v ∈ V c, v ≠ u ∧ ∃ c' ∈ F, c' ≠ c ∧ v ∈ V c' := by
    intro c hc u
    obtain ⟨u0, hu0⟩ := hV c hc
    by_cases hu : u ∈ V c
    · obtain ⟨c', h1, h2, v, h3, h4, h5⟩ := hcon c hc u hu
      exact ⟨v, h3, h5, c', h1, h2, h4⟩
    · obtain ⟨c', h1, h2, v, h3, h4, h5⟩ := hcon c hc u0 hu0
      exact ⟨v, h3, fun e => hu (e ▸ h3), c', h1, h2, h4⟩
  obtain ⟨c, hc, v, e, p, h1, h2, h3, h4⟩ := long_walk hF hne h (F.image Sum.inl ∪ (F.biUnion V).image Sum.inr : Finset (ℕ ⊕ ℕ)).card
  have hp := (ha.isPath_iff_isChain p).mpr h2
  have hnd := hp.support_nodup
  have hsub : p.support.toFinset ⊆ F.image Sum.inl ∪ (F.biUnion V).image Sum.inr := by
    intro z hz; exact h4 z (List.mem_toFinset.mp hz)
  have := Finset.card_le_card hsub
  rw [List.toFinset_card_of_nodup hnd, Walk.length_support] at this
  omega

theorem forest_of_acyclic (ha : (incidence C V).IsAcyclic) (hV : ∀ c < C, (V c).Nonempty) :
    ∃ order : List ℕ, order.Perm (List.range C) ∧ Forest V order := by
  have key : ∀ n, ∀ F : Finset ℕ, F.card = n → (∀ c ∈ F, c < C) → ∃ l : List ℕ, l.Nodup ∧ l.toFinset = F ∧ Forest V l := by
    intro n
    induction n with
    | zero =>
      intro F hF _
      exact ⟨[], List.nodup_nil, by simpa using (Finset.card_eq_zero.mp hF).symm, trivial⟩
    | succ n ih =>
      intro F hF hC
      obtain ⟨c, hc, u, hu, hs⟩ := exists_leaf ha hC (Finset.card_pos.mp (by omega)) (fun c hc => hV c (hC c hc))
      obtain ⟨l, h1, h2, h3⟩ := ih (F.erase c) (by rw [Finset.card_erase_of_mem hc]; omega)
        (fun c' hc' => hC c' (Finset.mem_of_mem_erase hc'))
      have hcl : c ∉ l := by
        intro h
        have := List.mem_toFinset.mpr h
        rw [h2] at this
        exact Finset.notMem_erase c F this
      refine ⟨c :: l, List.nodup_cons.mpr ⟨hcl, h1⟩, ?_, ⟨u, hu, ?_⟩, h3⟩
      · rw [List.toFinset_cons, h2, Finset.insert_erase hc]
      · intro c' hc' v hv hv'
        have := List.mem_toFinset.mpr hc'
        rw [h2] at this
        exact hs c' (Finset.mem_of_mem_erase this) (Finset.ne_of_mem_erase this) v hv hv'
  obtain ⟨l, h1, h2, h3⟩ := key C (Finset.range C) (Finset.card_range C) (fun c hc => Finset.mem_range.mp hc)
  refine ⟨l, (List.perm_ext_iff_of_nodup h1 List.nodup_range).mpr fun c => ?_, h3⟩
  rw [← List.mem_toFinset, h2, Finset.mem_range, List.mem_range]

/-- The incidence graph of a list of constraints. -/
def incList (V : ℕ → Finset ℕ) (l : List ℕ) : SimpleGraph (ℕ ⊕ ℕ) where
  Adj a b := ∃ c ∈ l, ∃ v ∈ V c, (a = .inl c ∧ b = .inr v) ∨ (a = .inr v ∧ b = .inl c)
  symm := ⟨fun _ _ ⟨c, hc, v, hv, h⟩ => ⟨c, hc, v, hv, h.symm.imp And.symm And.symm⟩⟩
  loopless := ⟨fun a ⟨c, _, v, _, h⟩ => by rcases h with ⟨h1, h2⟩ | ⟨h1, h2⟩ <;> rw [h1] at h2 <;> cases h2⟩

theorem not_reachable {G : SimpleGraph (ℕ ⊕ ℕ)} {a b : ℕ ⊕ ℕ} (hne : a ≠ b) (h : ∀ z, ¬ G.Adj a z) : ¬ G.Reachable a b := by
  rintro ⟨p⟩
  cases p with
  | nil => exact hne rfl
  | cons hadj _ => exact h _ hadj

theorem acyclic_incList : ∀ l : List ℕ, l.Nodup → Forest V l → (incList V l).IsAcyclic := by
  intro l
  induction l with
  | nil =>
    intro _ _
    have : incList V [] = ⊥ := by
      ext a b; simp [incList]
    rw [this]; exact isAcyclic_bot
  | cons c l ih =>
    rintro hnd ⟨⟨u, hu, hs⟩, hF⟩
    have hcl := (List.nodup_cons.mp hnd).1
    have hl := ih (List.nodup_cons.mp hnd).2 hF
    -- add the edges of `c` one at a time
    have key : ∀ W : Finset ℕ, W ⊆ (V c).erase u →
        ∃ G : SimpleGraph (ℕ ⊕ ℕ), G.IsAcyclic ∧ ∀ a b, G.Adj a b ↔ (incList V l).Adj a b ∨
          ∃ v ∈ insert u W, (a = .inl c ∧ b = .inr v) ∨ (a = .inr v ∧ b = .inl c) := by
      intro W
      induction W using Finset.induction with
      | empty =>
        intro _
        refine ⟨incList V l ⊔ edge (.inl c) (.inr u), hl.sup_edge_of_not_reachable (not_reachable (by simp) ?_), fun a b => ?_⟩
        · rintro z ⟨c', hc', v, hv, ⟨h1, h2⟩ | ⟨h1, h2⟩⟩
          · cases h1; exact hcl hc'
          · cases h1
        · rw [sup_adj, edge_adj]
          refine or_congr Iff.rfl ?_
          simp only [Finset.mem_insert, Finset.notMem_empty, or_false, exists_eq_left]
          constructor
          · exact fun h => h.1
          · intro h
            refine ⟨h, ?_⟩
            rcases h with ⟨rfl, rfl⟩ | ⟨rfl, rfl⟩ <;> simp
      | insert v W hv ihW =>
        intro hW
        obtain ⟨G, g1, g2⟩ := ihW ((Finset.subset_insert _ _).trans hW)
        have hvc := hW (Finset.mem_insert_self v W)
        have hvu := Finset.ne_of_mem_erase hvc
        have hvV := Finset.mem_of_mem_erase hvc
        refine ⟨G ⊔ edge (.inr v) (.inl c), g1.sup_edge_of_not_reachable (not_reachable (by simp) ?_), fun a b => ?_⟩
        · intro z hz
          rcases (g2 _ _).mp hz with ⟨c', hc', v', hv', ⟨h1, h2⟩ | ⟨h1, h2⟩⟩ | ⟨v', hv', ⟨h1, h2⟩ | ⟨h1, h2⟩⟩
          · cases h1
          · cases h1; exact hvu (hs c' hc' v hvV hv')
          · cases h1
          · cases h1
            rcases Finset.mem_insert.mp hv' with h | h
            · exact hvu h
            · exact hv h
        · rw [sup_adj, edge_adj, g2]
          constructor
          · rintro ((h | ⟨v', h1, h2⟩) | ⟨h1, h2⟩)
            · exact Or.inl h
            · exact Or.inr ⟨v', by rcases Finset.mem_insert.mp h1 with h | h <;> simp [h], h2⟩
            · exact Or.inr ⟨v, by simp, h1.symm⟩
          · rintro (h | ⟨v', h1, h2⟩)
            · exact Or.inl (Or.inl h)
            · by_cases e : v' = v
              · subst e
                refine Or.inr ⟨h2.symm, ?_⟩
                rcases h2 with ⟨rfl, rfl⟩ | ⟨rfl, rfl⟩ <;> simp
              · refine Or.inl (Or.inr ⟨v', ?_, h2⟩)
                rcases Finset.mem_insert.mp h1 with h | h
                · simp [h]
                · rcases Finset.mem_insert.mp h with h | h
                  · exact absurd h e
                  · simp [h]
    obtain ⟨G, g1, g2⟩ := key _ (Finset.Subset.refl _)
    have hG : incList V (c :: l) = G := by
      ext a b
      rw [g2, Finset.insert_erase hu]
      simp only [incList, List.mem_cons]
      constructor
      · rintro ⟨c', rfl | hc', v, hv, h⟩
        · exact Or.inr ⟨v, hv, h⟩
        · exact Or.inl ⟨c', hc', v, hv, h⟩
      · rintro (⟨c', hc', v, hv, h⟩ | ⟨v, hv, h⟩)
        · exact ⟨c', Or.inr hc', v, hv, h⟩
        · exact ⟨c, Or.inl rfl, v, hv, h⟩
    rw [hG]; exact g1

theorem acyclic_of_forest {order : List ℕ} (hp : order.Perm (List.range C)) (hF : Forest V order) : (incidence C V).IsAcyclic := by
  have := acyclic_incList order (hp.nodup_iff.mpr List.nodup_range) hF
  have e : incList V order = incidence C V := by
    ext a b
    simp only [incList, incidence, hp.mem_iff, List.mem_range]
  rwa [e] at this

end

end Verif.Proofs
