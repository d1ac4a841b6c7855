import Verif.Proofs.Recurrence
import Verif.Spec.Settled
import Mathlib.Data.Finset.Card
import Mathlib.Algebra.BigOperators.Group.Finset.Piecewise
import Mathlib.Algebra.Order.BigOperators.Group.Finset

/-! Settled min-sum messages: the beliefs are the min-marginal differences of every single constraint, so without ties the decisions are the
cheapest valid assignment of every constraint. -/

namespace Verif.Proofs
open Verif Num Model Spec

/-- A finite message comes from two finite minima. -/
theorem message_minima {ι : Type} {vars : Finset ι} {valid : Finset ι → Prop} {x : ι → ℚ} {v : ι} {r : ℚ} (h : IsMessage vars valid x v (fin r)) :
    ∃ a b, IsLeast (costs vars valid x (fun S => v ∈ S)) a ∧ IsLeast (costs vars valid x (fun S => v ∉ S)) b ∧ r + x v = a - b := by
  have hs : ∀ a b : Num, a - b = a + -b := fun _ _ => rfl
  obtain ⟨a, b, ha, hb, e⟩ := h
  rcases ha with ⟨-, rfl⟩ | ⟨p, rfl, hp⟩ <;> rcases hb with ⟨-, rfl⟩ | ⟨q, rfl, hq⟩
  · cases e
  · simp [hs] at e
  · simp [hs] at e
  · refine ⟨p, q, hp, hq, ?_⟩
    simp only [fin_sub, Num.fin.injEq] at e
    rw [e]; ring

section
variable {ι : Type} [DecidableEq ι] {vars : Finset ι} {valid : Finset ι → Prop} {x b : ι → ℚ}

/-- One constraint whose beliefs are consistent with its messages. -/
theorem settled_valid (hm : ∀ v ∈ vars, IsMessage vars valid x v (fin (b v - x v))) (hne : vars.Nonempty) (hb : ∀ v ∈ vars, b v ≠ 0) :
    valid (vars.filter (fun v => b v < 0)) ∧
    ∀ S ⊆ vars, valid S → ∀ v ∈ vars, (v ∈ S ↔ ¬ b v < 0) → cost x (vars.filter (fun v => b v < 0)) + |b v| ≤ cost x S := by
  have hd : ∀ v ∈ vars, ∃ p q, IsLeast (costs vars valid x (fun S => v ∈ S)) p ∧ IsLeast (costs vars valid x (fun S => v ∉ S)) q ∧ b v = p - q := by
    intro v hv
    obtain ⟨p, q, h1, h2, h3⟩ := message_minima (hm v hv)
    exact ⟨p, q, h1, h2, by rw [← h3]; ring⟩
  obtain ⟨v0, hv0⟩ := hne
  -- a cheapest valid assignment
  obtain ⟨S0, hS0, hval, hmin⟩ : ∃ S0 ⊆ vars, valid S0 ∧ ∀ S ⊆ vars, valid S → cost x S0 ≤ cost x S := by
    obtain ⟨p, q, ⟨⟨S, s1, s2, s3, s4⟩, hp⟩, ⟨⟨S', t1, t2, t3, t4⟩, hq⟩, -⟩ := hd v0 hv0
    rcases le_total p q with h | h
    · refine ⟨S, s1, s2, fun R r1 r2 => ?_⟩
      rw [s4]
      by_cases hv : v0 ∈ R
      · exact hp ⟨R, r1, r2, hv, rfl⟩
      · exact h.trans (hq ⟨R, r1, r2, hv, rfl⟩)
    · refine ⟨S', t1, t2, fun R r1 r2 => ?_⟩
      rw [t4]
      by_cases hv : v0 ∈ R
      · exact h.trans (hp ⟨R, r1, r2, hv, rfl⟩)
      · exact hq ⟨R, r1, r2, hv, rfl⟩
  -- the beliefs in terms of it
  have key : ∀ v ∈ vars, (v ∈ S0 → b v < 0 ∧ ∀ S ⊆ vars, valid S → v ∉ S → cost x S0 - b v ≤ cost x S) ∧
      (v ∉ S0 → 0 < b v ∧ ∀ S ⊆ vars, valid S → v ∈ S → cost x S0 + b v ≤ cost x S) := by
    intro v hv
    obtain ⟨p, q, hp, hq, he⟩ := hd v hv
    constructor
    · intro hin
      have h1 : p = cost x S0 := le_antisymm (hp.2 ⟨S0, hS0, hval, hin, rfl⟩) (by
        obtain ⟨S, s1, s2, s3, s4⟩ := hp.1
        rw [← s4]; exact hmin S s1 s2)
      have h2 : p ≤ q := by
        obtain ⟨S, s1, s2, s3, s4⟩ := hq.1
        rw [h1, ← s4]; exact hmin S s1 s2
      refine ⟨lt_of_le_of_ne (by rw [he]; linarith) (hb v hv), fun S s1 s2 s3 => ?_⟩
      have := hq.2 ⟨S, s1, s2, s3, rfl⟩
      rw [he, ← h1]; linarith
    · intro hin
      have h1 : q = cost x S0 := le_antisymm (hq.2 ⟨S0, hS0, hval, hin, rfl⟩) (by
        obtain ⟨S, s1, s2, s3, s4⟩ := hq.1
        rw [← s4]; exact hmin S s1 s2)
      have h2 : q ≤ p := by
        obtain ⟨S, s1, s2, s3, s4⟩ := hp.1
        rw [h1, ← s4]; exact hmin S s1 s2
      refine ⟨lt_of_le_of_ne (by rw [he]; linarith) (hb v hv).symm, fun S s1 s2 s3 => ?_⟩
      have := hp.2 ⟨S, s1, s2, s3, rfl⟩
      rw [he, ← h1]; linarith
  have hS : vars.filter (fun v => b v < 0) = S0 := by
    ext v
    rw [Finset.mem_filter]
    constructor
    · rintro ⟨hv, hneg⟩
      by_contra hn
      linarith [((key v hv).2 hn).1]
    · intro hv
      exact ⟨hS0 hv, ((key v (hS0 hv)).1 hv).1⟩
  rw [hS]
  refine ⟨hval, fun S s1 s2 v hv hiff => ?_⟩
  by_cases hin : v ∈ S0
  · obtain ⟨h1, h2⟩ := (key v hv).1 hin
    have := h2 S s1 s2 (fun h => hiff.mp h h1)
    rw [abs_of_neg h1]; linarith
  · obtain ⟨h1, h2⟩ := (key v hv).2 hin
    have := h2 S s1 s2 (hiff.mpr (not_lt.mpr h1.le))
    rw [abs_of_pos h1]; linarith

end

section
variable {ι κ : Type} [DecidableEq ι] {vars : Finset ι} {F : Finset κ} {V : κ → Finset ι} {w b : ι → ℚ} {x r : κ → ι → ℚ}

/-- The cost of the decisions by the signs of beliefs, compared with another assignment. -/
theorem sign_sum {A S : Finset ι} (hS : S ⊆ A) : ∑ v ∈ S, b v - ∑ v ∈ A.filter (fun v => b v < 0), b v = ∑ v ∈ A.filter (fun v => v ∈ S ↔ ¬ b v < 0), |b v| := by
  have h1 : S = A.filter (fun v => v ∈ S) := by
    ext v
    rw [Finset.mem_filter]
    exact ⟨fun h => ⟨hS h, h⟩, And.right⟩
  rw [show ∑ v ∈ S, b v = ∑ v ∈ A.filter (fun v => v ∈ S), b v by rw [← h1], Finset.sum_filter, Finset.sum_filter, Finset.sum_filter, ← Finset.sum_sub_distrib]
  refine Finset.sum_congr rfl fun v _ => ?_
  by_cases hv : v ∈ S <;> by_cases hb : b v < 0
  · simp [hv, hb]
  · simp only [hv, hb, if_true, if_false]
    simp [abs_of_nonneg (not_lt.mp hb)]
  · simp only [hv, hb, if_true, if_false]
    simp [abs_of_neg hb]
  · simp [hv, hb]

/-- Settled messages rewrite the costs: every constraint contributes its own cost minus the beliefs of its variables. -/
theorem cost_split (hV : ∀ c ∈ F, V c ⊆ vars) (hw : ∀ v ∈ vars, b v = w v + ∑ c ∈ F.filter (fun c => v ∈ V c), r c v)
    (hx : ∀ c ∈ F, ∀ v ∈ V c, x c v = b v - r c v) {S : Finset ι} (hS : S ⊆ vars) :
    cost w S = ∑ v ∈ S, b v + ∑ c ∈ F, (cost (x c) (V c ∩ S) - ∑ v ∈ V c ∩ S, b v) := by
  have h1 : ∀ c ∈ F, cost (x c) (V c ∩ S) - ∑ v ∈ V c ∩ S, b v = - ∑ v ∈ S, if v ∈ V c then r c v else 0 := by
    intro c hc
    rw [← Finset.sum_filter, Finset.filter_mem_eq_inter, Finset.inter_comm S]
    unfold cost
    rw [← Finset.sum_sub_distrib, ← Finset.sum_neg_distrib]
    refine Finset.sum_congr rfl fun v hv => ?_
    rw [hx c hc v (Finset.mem_inter.mp hv).1]; ring
  rw [Finset.sum_congr rfl h1, Finset.sum_neg_distrib, Finset.sum_comm, ← sub_eq_add_neg, ← Finset.sum_sub_distrib]
  refine Finset.sum_congr rfl fun v hv => ?_
  rw [hw v (hS hv), Finset.sum_filter]; ring

/-- Settled messages without ties: what another assignment costs more than the decisions is at least the sum of the beliefs that
change, counted once for every variable, minus once for every constraint and all but one of its variables. -/
theorem settled_gain (hV : ∀ c ∈ F, V c ⊆ vars) (hw : ∀ v ∈ vars, b v = w v + ∑ c ∈ F.filter (fun c => v ∈ V c), r c v)
    (hx : ∀ c ∈ F, ∀ v ∈ V c, x c v = b v - r c v) {S : Finset ι} (hS : S ⊆ vars) :
    cost w S - cost w (vars.filter (fun v => b v < 0)) = ∑ v ∈ vars.filter (fun v => v ∈ S ↔ ¬ b v < 0), |b v| +
      ∑ c ∈ F, (cost (x c) (V c ∩ S) - cost (x c) ((V c).filter (fun v => b v < 0)) - ∑ v ∈ (V c).filter (fun v => v ∈ S ↔ ¬ b v < 0), |b v|) := by
  rw [cost_split hV hw hx hS, cost_split hV hw hx (Finset.filter_subset _ _), ← sign_sum hS]
  have h1 : ∀ c ∈ F, V c ∩ vars.filter (fun v => b v < 0) = (V c).filter (fun v => b v < 0) := by
    intro c hc
    ext v
    simp only [Finset.mem_inter, Finset.mem_filter]
    exact ⟨fun h => ⟨h.1, h.2.2⟩, fun h => ⟨h.1, hV c hc h.1, h.2⟩⟩
  have h2 : ∀ c ∈ F, (∑ v ∈ V c ∩ S, b v) - ∑ v ∈ (V c).filter (fun v => b v < 0), b v = ∑ v ∈ (V c).filter (fun v => v ∈ S ↔ ¬ b v < 0), |b v| := by
    intro c hc
    rw [sign_sum (Finset.inter_subset_left)]
    refine Finset.sum_congr ?_ fun _ _ => rfl
    ext v
    simp only [Finset.mem_filter, Finset.mem_inter]
    constructor
    · rintro ⟨h, h'⟩; exact ⟨h, by rw [← h']; simp [h]⟩
    · rintro ⟨h, h'⟩; exact ⟨h, by rw [← h']; simp [h]⟩
  have h3 : ∑ c ∈ F, (cost (x c) (V c ∩ S) - cost (x c) ((V c).filter (fun v => b v < 0)) - ∑ v ∈ (V c).filter (fun v => v ∈ S ↔ ¬ b v < 0), |b v|) =
      ∑ c ∈ F, (cost (x c) (V c ∩ S) - ∑ v ∈ V c ∩ S, b v) -
        ∑ c ∈ F, (cost (x c) (V c ∩ vars.filter (fun v => b v < 0)) - ∑ v ∈ V c ∩ vars.filter (fun v => b v < 0), b v) := by
    rw [← Finset.sum_sub_distrib]
    refine Finset.sum_congr rfl fun c hc => ?_
    rw [← h2 c hc, h1 c hc]; ring
  rw [h3]; ring

end

section
open SimpleGraph
variable {ι κ : Type} [DecidableEq ι] [DecidableEq κ] {G : Finset κ} {V : κ → Finset ι}

theorem factor_adj {c : κ} {v : ι} (hc : c ∈ G) (hv : v ∈ V c) : (factorGraph G V).Adj (.inl c) (.inr v) := ⟨c, hc, v, hv, Or.inl ⟨rfl, rfl⟩⟩

/-- If every constraint of `F` shares two variables with others, there are arbitrarily long walks that never turn back. -/
theorem factor_walk {F : Finset κ} (hF : F ⊆ G) {c0 : κ} {v0 : ι} (hc0 : c0 ∈ F)
    (h : ∀ c ∈ F, ∀ u, ∃ v ∈ V c, v ≠ u ∧ ∃ c' ∈ F, c' ≠ c ∧ v ∈ V c') (n : ℕ) :
    ∃ c ∈ F, ∃ v, ∃ e, ∃ p : (factorGraph G V).Walk (.inl c) e, n ≤ p.length ∧ p.edges.IsChain (· ≠ ·) ∧
      (∀ s ∈ p.edges.head?, s = s(.inl c, .inr v)) ∧
      ∀ z ∈ p.support, z ∈ F.image Sum.inl ∪ (F.biUnion V).image Sum.inr := by
  induction n with
  | zero => exact ⟨c0, hc0, v0, _, Walk.nil, le_refl 0, by simp, by simp, by simp [hc0]⟩
  | succ n ih =>
    obtain ⟨c, hc, v, e, p, h1, h2, h3, h4⟩ := ih
    obtain ⟨v', hv', hne', c', hc', hcc, hvc⟩ := h c hc v
    refine ⟨c', hc', v', e, Walk.cons (factor_adj (hF hc') hvc) (Walk.cons (factor_adj (hF hc) hv').symm p), ?_, ?_, ?_, ?_⟩
    · simp only [Walk.length_cons]; omega
    · simp only [Walk.edges_cons]
      rw [List.isChain_cons_cons]
      refine ⟨?_, ?_⟩
      · simp [hcc]
      · rw [List.isChain_cons]
        refine ⟨fun s hs e => ?_, h2⟩
        rw [h3 s hs] at e
        simp [hne'] at e
    · simp
    · intro z hz
      simp only [Walk.support_cons, List.mem_cons] at hz
      rcases hz with rfl | rfl | hz
      · simp [hc']
      · simp only [Finset.mem_union, Finset.mem_image, Finset.mem_biUnion]
        exact Or.inr ⟨v', ⟨c, hc, hv'⟩, rfl⟩
      · exact h4 z hz

theorem factor_leaf (ha : (factorGraph G V).IsAcyclic) {F : Finset κ} (hF : F ⊆ G) (hne : F.Nonempty) (hV : ∀ c ∈ F, (V c).Nonempty) :
    ∃ c ∈ F, ∃ u ∈ V c, ∀ c' ∈ F, c' ≠ c → ∀ v ∈ V c, v ∈ V c' → v = u := by
  by_contra hcon
  push Not at hcon
  have h : ∀ c ∈ F, ∀ u, ∃ v ∈ V c, v ≠ u ∧ ∃ c' ∈ F, c' ≠ c ∧ v ∈ V c' := by
    intro c hc u
    obtain ⟨u0, hu0⟩ := hV c hc
    by_cases hu : u ∈ V c
    · obtain ⟨c', h1, h2, v, h3, h4, h5⟩ := hcon c hc u hu
      exact ⟨v, h3, h5, c', h1, h2, h4⟩
    · obtain ⟨c', h1, h2, v, h3, h4, h5⟩ := hcon c hc u0 hu0
      exact ⟨v, h3, fun e => hu (e ▸ h3), c', h1, h2, h4⟩
  obtain ⟨c0, hc0⟩ := hne
  obtain ⟨v0, -⟩ := hV c0 hc0
  obtain ⟨c, hc, v, e, p, h1, h2, h3, h4⟩ := factor_walk (v0 := v0) hF hc0 h (F.image Sum.inl ∪ (F.biUnion V).image Sum.inr : Finset (κ ⊕ ι)).card
  have hp := (ha.isPath_iff_isChain p).mpr h2
  have hnd := hp.support_nodup
  have hsub : p.support.toFinset ⊆ F.image Sum.inl ∪ (F.biUnion V).image Sum.inr := by
    intro z hz; exact h4 z (List.mem_toFinset.mp hz)
  have := Finset.card_le_card hsub
  rw [List.toFinset_card_of_nodup hnd, Walk.length_support] at this
  omega

/-- Counting along a forest: leaving out one variable of every constraint leaves every variable at most once, and one of them not at all. -/
theorem tree_sum (ha : (factorGraph G V).IsAcyclic) {g : ι → ℚ} {m : κ → ℚ} (hg : ∀ c ∈ G, ∀ v ∈ V c, 0 < g v) (hm : ∀ c ∈ G, ∀ v ∈ V c, g v ≤ m c) :
    ∀ (n : ℕ) (F : Finset κ), F.card = n → F ⊆ G → (∀ c ∈ F, (V c).Nonempty) →
      ∑ c ∈ F, (∑ v ∈ V c, g v - m c) ≤ ∑ v ∈ F.biUnion V, g v ∧ (F.Nonempty → ∑ c ∈ F, (∑ v ∈ V c, g v - m c) < ∑ v ∈ F.biUnion V, g v) := by
  intro n
  induction n with
  | zero =>
    intro F hF _ _
    obtain rfl := Finset.card_eq_zero.mp hF
    simp
  | succ n ih =>
    intro F hF hG hV
    obtain ⟨c, hc, u, hu, hs⟩ := factor_leaf ha hG (Finset.card_pos.mp (by omega)) hV
    obtain ⟨h1, h2⟩ := ih (F.erase c) (by rw [Finset.card_erase_of_mem hc]; omega) ((Finset.erase_subset _ _).trans hG)
      (fun c' hc' => hV c' (Finset.mem_of_mem_erase hc'))
    have hcG := hG hc
    have hdis : Disjoint ((F.erase c).biUnion V) ((V c).erase u) := by
      rw [Finset.disjoint_left]
      intro v hv hv'
      obtain ⟨c', hc', hvc⟩ := Finset.mem_biUnion.mp hv
      exact Finset.ne_of_mem_erase hv' (hs c' (Finset.mem_of_mem_erase hc') (Finset.ne_of_mem_erase hc') v (Finset.mem_of_mem_erase hv') hvc)
    have hsub : (F.erase c).biUnion V ∪ (V c).erase u ⊆ F.biUnion V := by
      intro v hv
      rcases Finset.mem_union.mp hv with h | h
      · obtain ⟨c', hc', hvc⟩ := Finset.mem_biUnion.mp h
        exact Finset.mem_biUnion.mpr ⟨c', Finset.mem_of_mem_erase hc', hvc⟩
      · exact Finset.mem_biUnion.mpr ⟨c, hc, Finset.mem_of_mem_erase h⟩
    have hpos : ∀ v ∈ F.biUnion V, 0 < g v := by
      intro v hv
      obtain ⟨c', hc', hvc⟩ := Finset.mem_biUnion.mp hv
      exact hg c' (hG hc') v hvc
    have hle : ∑ v ∈ (F.erase c).biUnion V, g v + ∑ v ∈ (V c).erase u, g v ≤ ∑ v ∈ F.biUnion V, g v := by
      rw [← Finset.sum_union hdis]
      exact Finset.sum_le_sum_of_subset_of_nonneg hsub fun v hv _ => (hpos v hv).le
    have hc1 : ∑ v ∈ V c, g v - m c ≤ ∑ v ∈ (V c).erase u, g v := by
      rw [← Finset.add_sum_erase (V c) g hu]
      linarith [hm c hcG u hu]
    have hsplit := Finset.add_sum_erase F (fun c => ∑ v ∈ V c, g v - m c) hc
    beta_reduce at hsplit
    rw [← hsplit]
    refine ⟨by linarith, fun _ => ?_⟩
    rcases (F.erase c).eq_empty_or_nonempty with h0 | h0
    · have e1 : F.biUnion V = V c := by
        rw [← Finset.insert_erase hc, h0]; simp
      rw [h0, e1, ← Finset.add_sum_erase (V c) g hu]
      simp only [Finset.sum_empty]
      linarith [hm c hcG u hu, hg c hcG u hu]
    · linarith [h2 h0]

end

section
variable {ι κ : Type} [DecidableEq ι] [DecidableEq κ] {vars : Finset ι} {F : Finset κ} {V : κ → Finset ι} {w b : ι → ℚ} {x r : κ → ι → ℚ}
  {valid : κ → Finset ι → Prop}

/-- Settled messages without ties: no treelike change improves the decisions. -/
theorem settled_local (hV : ∀ c ∈ F, V c ⊆ vars) (hw : ∀ v ∈ vars, b v = w v + ∑ c ∈ F.filter (fun c => v ∈ V c), r c v)
    (hx : ∀ c ∈ F, ∀ v ∈ V c, x c v = b v - r c v) (hm : ∀ c ∈ F, ∀ v ∈ V c, IsMessage (V c) (valid c) (x c) v (fin (r c v)))
    (hb : ∀ v ∈ vars, b v ≠ 0) {S : Finset ι} (hS : S ⊆ vars) (hval : ∀ c ∈ F, valid c (V c ∩ S)) (hne : S ≠ vars.filter (fun v => b v < 0))
    (hac : TreelikeChange F V (vars.filter (fun v => b v < 0)) S) : cost w (vars.filter (fun v => b v < 0)) < cost w S := by
  set D : κ → Finset ι := fun c => (V c).filter (fun v => v ∈ S ↔ ¬ b v < 0) with hD
  have hDeq : ∀ c ∈ F, (V c).filter (fun v => ¬ (v ∈ vars.filter (fun v => b v < 0) ↔ v ∈ S)) = D c := by
    intro c hc
    rw [hD]
    refine Finset.filter_congr fun v hv => ?_
    rw [Finset.mem_filter]
    have := hV c hc hv
    by_cases h1 : v ∈ S <;> by_cases h2 : b v < 0 <;> simp [h1, h2, this]
  have hac' : (factorGraph F D).IsAcyclic := by
    have : factorGraph F (fun c => (V c).filter (fun v => ¬ (v ∈ vars.filter (fun v => b v < 0) ↔ v ∈ S))) = factorGraph F D := by
      ext p q
      simp only [factorGraph]
      constructor
      · rintro ⟨c, hc, v, hv, h⟩
        exact ⟨c, hc, v, by rw [← hDeq c hc]; exact hv, h⟩
      · rintro ⟨c, hc, v, hv, h⟩
        exact ⟨c, hc, v, by rw [hDeq c hc]; exact hv, h⟩
    rw [← this]; exact hac
  set m : κ → ℚ := fun c => cost (x c) (V c ∩ S) - cost (x c) ((V c).filter (fun v => b v < 0)) with hmdef
  have hgain : ∀ c ∈ F, ∀ v ∈ D c, |b v| ≤ m c := by
    intro c hc v hv
    obtain ⟨h1, h2⟩ := Finset.mem_filter.mp hv
    have := (settled_valid (vars := V c) (valid := valid c) (x := x c) (b := b) (fun u hu => by
      have := hm c hc u hu
      rw [show b u - x c u = r c u by rw [hx c hc u hu]; ring]; exact this) ⟨v, h1⟩ (fun u hu => hb u (hV c hc hu))).2 (V c ∩ S) Finset.inter_subset_left
        (hval c hc) v h1 (by rw [← h2]; simp [h1])
    rw [hmdef]; linarith
  have hpos : ∀ v ∈ vars, 0 < |b v| := fun v hv => abs_pos.mpr (hb v hv)
  obtain ⟨t1, t2⟩ := tree_sum (G := F) hac' (g := fun v => |b v|) (m := m) (fun c hc v hv => hpos v (hV c hc (Finset.mem_filter.mp hv).1)) hgain _
    (F.filter (fun c => (D c).Nonempty)) rfl (Finset.filter_subset _ _) (fun c hc => (Finset.mem_filter.mp hc).2)
  have hsum : ∑ c ∈ F, (m c - ∑ v ∈ D c, |b v|) = - ∑ c ∈ F.filter (fun c => (D c).Nonempty), (∑ v ∈ D c, |b v| - m c) := by
    rw [← Finset.sum_neg_distrib, Finset.sum_filter]
    refine Finset.sum_congr rfl fun c hc => ?_
    split_ifs with h
    · ring
    · have h0 := Finset.not_nonempty_iff_eq_empty.mp h
      have : V c ∩ S = (V c).filter (fun v => b v < 0) := by
        ext v
        rw [Finset.mem_inter, Finset.mem_filter]
        refine and_congr_right fun hv => ?_
        have : v ∉ D c := by rw [h0]; simp
        rw [hD] at this
        simp only [Finset.mem_filter, hv, true_and] at this
        tauto
      rw [hmdef, h0]
      simp only [this, Finset.sum_empty]; ring
  have hg := settled_gain hV hw hx hS
  have hsub : (F.filter (fun c => (D c).Nonempty)).biUnion D ⊆ vars.filter (fun v => v ∈ S ↔ ¬ b v < 0) := by
    intro v hv
    obtain ⟨c, hc, hvc⟩ := Finset.mem_biUnion.mp hv
    obtain ⟨h1, h2⟩ := Finset.mem_filter.mp hvc
    exact Finset.mem_filter.mpr ⟨hV c (Finset.mem_filter.mp hc).1 h1, h2⟩
  have hle : ∑ v ∈ (F.filter (fun c => (D c).Nonempty)).biUnion D, |b v| ≤ ∑ v ∈ vars.filter (fun v => v ∈ S ↔ ¬ b v < 0), |b v| :=
    Finset.sum_le_sum_of_subset_of_nonneg hsub fun v _ _ => abs_nonneg _
  have hg' : cost w S - cost w (vars.filter (fun v => b v < 0)) = ∑ v ∈ vars.filter (fun v => v ∈ S ↔ ¬ b v < 0), |b v| + ∑ c ∈ F, (m c - ∑ v ∈ D c, |b v|) := hg
  rw [hsum] at hg'
  rcases (F.filter (fun c => (D c).Nonempty)).eq_empty_or_nonempty with h0 | h0
  · rw [h0] at hg'
    simp only [Finset.sum_empty] at hg'
    have hex : ∃ v ∈ vars, (v ∈ S ↔ ¬ b v < 0) := by
      by_contra hcon
      refine hne (Finset.ext fun v => ?_)
      rw [Finset.mem_filter]
      have h' : v ∈ vars → ¬ (v ∈ S ↔ ¬ b v < 0) := fun hv h => hcon ⟨v, hv, h⟩
      have h'' : v ∈ S → v ∈ vars := fun h => hS h
      tauto
    obtain ⟨v, hv, hiff⟩ := hex
    have : 0 < ∑ v ∈ vars.filter (fun v => v ∈ S ↔ ¬ b v < 0), |b v| :=
      Finset.sum_pos (fun u hu => hpos u (Finset.mem_filter.mp hu).1) ⟨v, Finset.mem_filter.mpr ⟨hv, hiff⟩⟩
    linarith
  · linarith [t2 h0]

end

/-- A message from two explicit minima. -/
theorem message_of_minima {ι : Type} [DecidableEq ι] {vars : Finset ι} {valid : Finset ι → Prop} {x : ι → ℚ} {v : ι} {m : ℚ} (a b : ℚ)
    (ha : (∃ S ∈ vars.powerset, valid S ∧ v ∈ S ∧ cost x S = a) ∧ ∀ S ∈ vars.powerset, valid S → v ∈ S → a ≤ cost x S)
    (hb : (∃ S ∈ vars.powerset, valid S ∧ v ∉ S ∧ cost x S = b) ∧ ∀ S ∈ vars.powerset, valid S → v ∉ S → b ≤ cost x S)
    (hm : m = a - b - x v) : IsMessage vars valid x v (Num.fin m) := by
  obtain ⟨⟨S, s1, s2, s3, s4⟩, hS⟩ := ha
  obtain ⟨⟨T, t1, t2, t3, t4⟩, hT⟩ := hb
  refine ⟨Num.fin a, Num.fin b, Or.inr ⟨a, rfl, ⟨S, Finset.mem_powerset.mp s1, s2, s3, s4⟩, ?_⟩, Or.inr ⟨b, rfl, ⟨T, Finset.mem_powerset.mp t1, t2, t3, t4⟩, ?_⟩, ?_⟩
  · rintro _ ⟨U, u1, u2, u3, rfl⟩
    exact hS U (Finset.mem_powerset.mpr u1) u2 u3
  · rintro _ ⟨U, u1, u2, u3, rfl⟩
    exact hT U (Finset.mem_powerset.mpr u1) u2 u3
  · rw [hm]; simp

/-- A check for messages of small constraints. -/
def MessageCheck {ι : Type} [DecidableEq ι] (vars : Finset ι) (valid : Finset ι → Prop) (x : ι → ℚ) (v : ι) (m : ℚ) : Prop :=
  ∃ S ∈ vars.powerset, ∃ T ∈ vars.powerset, valid S ∧ v ∈ S ∧ valid T ∧ v ∉ T ∧
    (∀ U ∈ vars.powerset, valid U → v ∈ U → cost x S ≤ cost x U) ∧ (∀ U ∈ vars.powerset, valid U → v ∉ U → cost x T ≤ cost x U) ∧
    m = cost x S - cost x T - x v

instance {ι : Type} [DecidableEq ι] (vars : Finset ι) (valid : Finset ι → Prop) [DecidablePred valid] (x : ι → ℚ) (v : ι) (m : ℚ) :
    Decidable (MessageCheck vars valid x v m) := by unfold MessageCheck; infer_instance

theorem message_of_check {ι : Type} [DecidableEq ι] {vars : Finset ι} {valid valid' : Finset ι → Prop} {x : ι → ℚ} {v : ι} {m : ℚ}
    (hv : ∀ S ⊆ vars, (valid' S ↔ valid S)) (h : MessageCheck vars valid' x v m) : IsMessage vars valid x v (Num.fin m) := by
  obtain ⟨S, hS, T, hT, s1, s2, t1, t2, h1, h2, h3⟩ := h
  exact message_of_minima (cost x S) (cost x T)
    ⟨⟨S, hS, (hv S (Finset.mem_powerset.mp hS)).mp s1, s2, rfl⟩, fun U hU hu => h1 U hU ((hv U (Finset.mem_powerset.mp hU)).mpr hu)⟩
    ⟨⟨T, hT, (hv T (Finset.mem_powerset.mp hT)).mp t1, t2, rfl⟩, fun U hU hu => h2 U hU ((hv U (Finset.mem_powerset.mp hU)).mpr hu)⟩ h3

end Verif.Proofs
