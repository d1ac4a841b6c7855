import Verif.Spec.Assignment
import Verif.Proofs.Cover
import Mathlib.Algebra.BigOperators.Option

/-! An assignment that is cheaper than all others has a strict dual solution (prices of teams and projects). -/

namespace Verif.Proofs
open Verif Spec

section
variable {T P : ℕ} {C : ℕ → ℕ → ℚ} {m : ℕ → Option ℕ} {gap : ℚ}

/-- The cheapest of staying idle and the elements of a finite set. -/
theorem exists_pick (n : ℕ) (S : ℕ → Prop) (f : ℕ → ℚ) : ∃ pick : Option ℕ, (∀ x, pick = some x → x < n ∧ S x) ∧
    (∀ x < n, S x → (pick.elim 0 f) ≤ f x) ∧ pick.elim 0 f ≤ 0 := by
  induction n with
  | zero => exact ⟨none, by simp, by simp, le_rfl⟩
  | succ n ih =>
    obtain ⟨pick, h1, h2, h3⟩ := ih
    by_cases h : S n ∧ f n < pick.elim 0 f
    · refine ⟨some n, by simp [h.1], fun x hx hS => ?_, by simp; linarith [h.2]⟩
      rcases Nat.lt_succ_iff_lt_or_eq.mp hx with hx | rfl
      · exact h.2.le.trans (h2 x hx hS)
      · simp
    · refine ⟨pick, fun x hx => ⟨(h1 x hx).1.trans (Nat.lt_succ_self n), (h1 x hx).2⟩, fun x hx hS => ?_, h3⟩
      rcases Nat.lt_succ_iff_lt_or_eq.mp hx with hx | rfl
      · exact h2 x hx hS
      · by_contra hlt
        exact h ⟨hS, not_le.mp hlt⟩

/-- Exchange of projects along a cycle of teams; `none` stands for everything that is not matched. -/
def Arc (T : ℕ) (m : ℕ → Option ℕ) : Option (Fin T) → Option (Fin T) → Prop
  | some s, some t => s ≠ t ∧ m s ≠ none ∧ m t ≠ none
  | some s, none => m s ≠ none
  | none, some t => m t ≠ none
  | none, none => False

/-- Cost of an exchange. -/
def arcCost (C : ℕ → ℕ → ℚ) (m : ℕ → Option ℕ) (pickOut pickIn : ℕ → Option ℕ) : Option (Fin T) → Option (Fin T) → ℚ
  | some s, some t => costOf C s (m t) - costOf C s (m s)
  | some s, none => costOf C s (pickOut s) - costOf C s (m s)
  | none, some t => (pickIn t).elim 0 (fun s => costOf C s (m t))
  | none, none => 0

theorem exchange_assignment (h : Assignment T P m) {pickOut pickIn : ℕ → Option ℕ}
    (hout : ∀ t p, pickOut t = some p → p < P ∧ ∀ s < T, m s ≠ some p) (hin : ∀ t s, pickIn t = some s → s < T ∧ m s = none)
    {k i : Option (Fin T)} {l : List (Option (Fin T))} (hn : (k :: l).Nodup)
    (hl : (k :: l).IsChain (Arc T m)) (hi : (k :: l).getLast? = some i) (hik : Arc T m i k) :
    ∃ other, Assignment T P other ∧ (∃ t < T, other t ≠ m t) ∧
      assignmentCost T C other - assignmentCost T C m =
        chainWeight (arcCost C m pickOut pickIn) (k :: l) + arcCost C m pickOut pickIn i k := by
  classical
  set f := (k :: l).formPerm with hf
  have hch : (k :: l).IsChain (fun a b => f a = b) := formPerm_chain hn
  have hfi : f i = k := by
    have := List.formPerm_apply_getLast k l
    rwa [show (k :: l).getLast (by simp) = i by rw [List.getLast?_eq_some_getLast (by simp)] at hi; simpa using hi] at this
  have hfix : ∀ x, x ∉ k :: l → f x = x := fun x hx => List.formPerm_apply_of_notMem hx
  have harc : ∀ x, x ∈ k :: l → Arc T m x (f x) := by
    intro x hx
    obtain ⟨s, hs, rfl⟩ := List.getElem_of_mem hx
    by_cases hlast : s + 1 < (k :: l).length
    · rw [hf, List.formPerm_apply_lt_getElem _ hn s hlast]
      exact (List.isChain_iff_getElem.mp hl) s hlast
    · have : (k :: l)[s] = i := by
        rw [List.getLast?_eq_getElem?, show (k :: l).length - 1 = s by omega, List.getElem?_eq_getElem hs] at hi
        simpa using hi
      rw [this, hfi]; exact hik
  -- matched teams stay among matched teams, or give up their project
  have hm1 : ∀ (t a : Fin T), m t ≠ none → f (some t) = some a → m a ≠ none := by
    intro t a ht hfa
    by_cases hx : some t ∈ k :: l
    · have := harc _ hx
      rw [hfa] at this
      exact this.2.2
    · rw [hfix _ hx] at hfa
      rw [← Option.some.inj hfa]; exact ht
  have hm2 : ∀ a : Fin T, f none = some a → m a ≠ none := by
    intro a hfa
    by_cases hx : (none : Option (Fin T)) ∈ k :: l
    · have := harc _ hx
      rw [hfa] at this
      exact this
    · rw [hfix _ hx] at hfa; cases hfa
  let other : ℕ → Option ℕ := fun t => if ht : t < T then
      (if m t = none then (f none).elim none (fun a => if pickIn a = some t then m a else none)
        else (f (some ⟨t, ht⟩)).elim (pickOut t) (fun a => m a)) else none
  have ho1 : ∀ t : Fin T, m t = none → other t = (f none).elim none (fun a => if pickIn a = some t.1 then m a else none) := by
    intro t ht; simp [other, ht]
  have ho2 : ∀ t : Fin T, m t ≠ none → other t = (f (some t)).elim (pickOut t) (fun a => m a) := by
    intro t ht; simp [other, ht]
  -- where a project of the new assignment comes from
  have hcase : ∀ (t : Fin T) p, other t = some p →
      (m t ≠ none ∧ f (some t) = none ∧ pickOut t = some p) ∨ (m t ≠ none ∧ ∃ a : Fin T, f (some t) = some a ∧ m a = some p) ∨
      (m t = none ∧ ∃ a : Fin T, f none = some a ∧ pickIn a = some t.1 ∧ m a = some p) := by
    intro t p hp
    by_cases ht : m t = none
    · rw [ho1 t ht] at hp
      rcases hfn : f none with _ | a
      · rw [hfn] at hp; simp at hp
      · rw [hfn] at hp
        simp only [Option.elim] at hp
        split at hp
        · next hpk => exact Or.inr (Or.inr ⟨ht, a, rfl, hpk, hp⟩)
        · cases hp
    · rw [ho2 t ht] at hp
      rcases hfn : f (some t) with _ | a
      · rw [hfn] at hp; exact Or.inl ⟨ht, rfl, hp⟩
      · rw [hfn] at hp; exact Or.inr (Or.inl ⟨ht, a, rfl, hp⟩)
  refine ⟨other, ⟨fun t ht p hp => ?_, fun t ht t' ht' p hp hp' => ?_⟩, ?_, ?_⟩
  · rcases hcase ⟨t, ht⟩ p hp with ⟨-, -, h1⟩ | ⟨-, a, -, h1⟩ | ⟨-, a, -, -, h1⟩
    · exact (hout _ _ h1).1
    · exact h.lt a a.2 p h1
    · exact h.lt a a.2 p h1
  · have hinj : ∀ a b : Fin T, m a = some p → m b = some p → a = b := fun a b ha hb => Fin.ext (h.inj a a.2 b b.2 p ha hb)
    rcases hcase ⟨t, ht⟩ p hp with ⟨-, f1, h1⟩ | ⟨-, a, f1, h1⟩ | ⟨-, a, f1, k1, h1⟩ <;>
      rcases hcase ⟨t', ht'⟩ p hp' with ⟨-, f2, h2⟩ | ⟨-, b, f2, h2⟩ | ⟨-, b, f2, k2, h2⟩
    · have := f.injective (f1.trans f2.symm); simpa using this
    · exact absurd h2 ((hout _ _ h1).2 b b.2)
    · exact absurd h2 ((hout _ _ h1).2 b b.2)
    · exact absurd h1 ((hout _ _ h2).2 a a.2)
    · rw [hinj a b h1 h2] at f1
      have := f.injective (f1.trans f2.symm); simpa using this
    · rw [hinj a b h1 h2] at f1
      have := f.injective (f1.trans f2.symm); simp at this
    · exact absurd h1 ((hout _ _ h2).2 a a.2)
    · rw [hinj a b h1 h2] at f1
      have := f.injective (f1.trans f2.symm); simp at this
    · rw [hinj a b h1 h2, k2] at k1
      exact (Option.some.inj k1).symm
  · -- a team of the cycle
    have hs : ∃ s : Fin T, some s ∈ k :: l := by
      rcases k with _ | s
      · rcases i with _ | s
        · exact absurd hik id
        · exact ⟨s, List.mem_of_getLast? hi⟩
      · exact ⟨s, by simp⟩
    obtain ⟨s, hs⟩ := hs
    have ha := harc _ hs
    have hms : m s ≠ none := by
      rcases hfs : f (some s) with _ | a
      · rw [hfs] at ha; exact ha
      · rw [hfs] at ha; exact ha.2.1
    obtain ⟨p, hp⟩ := Option.ne_none_iff_exists'.mp hms
    refine ⟨s, s.2, ?_⟩
    rw [ho2 s hms, hp]
    rcases hfs : f (some s) with _ | a
    · intro he
      exact (hout _ _ he).2 s s.2 hp
    · rw [hfs] at ha
      intro he
      exact ha.1 (Fin.ext (h.inj s s.2 a a.2 p hp he))
  · have hsum := cycle_sum (arcCost C m pickOut pickIn) f hch hi
    rw [hfi] at hsum
    rw [← hsum, ← List.sum_toFinset _ hn]
    have hall : ∑ x ∈ (k :: l).toFinset, arcCost C m pickOut pickIn x (f x) =
        ∑ x : Option (Fin T), if x ∈ k :: l then arcCost C m pickOut pickIn x (f x) else 0 := by
      rw [← Finset.sum_filter]
      refine Finset.sum_congr ?_ fun _ _ => rfl
      ext x; simp
    rw [hall, Fintype.sum_option]
    unfold assignmentCost
    rw [Finset.sum_range, Finset.sum_range, ← Finset.sum_sub_distrib]
    -- split into matched and idle teams
    have hterm : ∀ t : Fin T, costOf C t (other t) - costOf C t (m t) =
        (if m t = none then costOf C t (other t) else 0) +
        (if some t ∈ k :: l then arcCost C m pickOut pickIn (some t) (f (some t)) else 0) := by
      intro t
      by_cases ht : m t = none
      · have : some t ∉ k :: l := by
          intro hx
          have ha := harc _ hx
          rcases hfs : f (some t) with _ | a
          · rw [hfs] at ha; exact ha ht
          · rw [hfs] at ha; exact ha.2.1 ht
        rw [if_pos ht, if_neg this, ht]; simp [costOf]
      · rw [if_neg ht, zero_add]
        by_cases hx : some t ∈ k :: l
        · rw [if_pos hx, ho2 t ht]
          rcases hfs : f (some t) with _ | a <;> rfl
        · rw [if_neg hx, ho2 t ht, hfix _ hx]; simp
    rw [Finset.sum_congr rfl fun t _ => hterm t, Finset.sum_add_distrib]
    congr 1
    by_cases hx : (none : Option (Fin T)) ∈ k :: l
    · rw [if_pos hx]
      have ha := harc _ hx
      rcases hfn : f none with _ | a
      · rw [hfn] at ha; exact absurd ha id
      · show _ = (pickIn a).elim 0 (fun s => costOf C s (m a))
        rcases hpk : pickIn a with _ | s
        · refine Finset.sum_eq_zero fun t _ => ?_
          split
          · next ht => rw [ho1 t ht, hfn]; simp [hpk, costOf]
          · rfl
        · obtain ⟨hs1, hs2⟩ := hin _ _ hpk
          rw [Finset.sum_eq_single (⟨s, hs1⟩ : Fin T)]
          · rw [if_pos hs2, ho1 ⟨s, hs1⟩ hs2, hfn]; simp [hpk]
          · intro t _ hne
            split
            · next ht =>
              rw [ho1 t ht, hfn]
              have : pickIn a ≠ some t.1 := by
                rw [hpk]; intro he
                exact hne (Fin.ext (Option.some.inj he).symm)
              simp [this, costOf]
            · rfl
          · simp
    · rw [if_neg hx]
      refine Finset.sum_eq_zero fun t _ => ?_
      split
      · next ht => rw [ho1 t ht, hfix _ hx]; simp [costOf]
      · rfl

/-- Prices exist. -/
theorem exists_prices (hg : 0 < gap) (h : BestBy gap T P C m) : ∃ u v : ℕ → ℚ, Prices T P C m u v (gap / (T + 1)) := by
  classical
  obtain ⟨hm, hbest⟩ := h
  set δ : ℚ := gap / (T + 1) with hδ
  have hn1 : (0 : ℚ) < T + 1 := by positivity
  have hδg : gap = (T + 1) * δ := by rw [hδ]; field_simp
  have hδ0 : 0 < δ := div_pos hg hn1
  have hpo : ∀ t, ∃ pick : Option ℕ, (∀ p, pick = some p → p < P ∧ ∀ s < T, m s ≠ some p) ∧
      (∀ p < P, (∀ s < T, m s ≠ some p) → pick.elim 0 (C t) ≤ C t p) ∧ pick.elim 0 (C t) ≤ 0 := fun t => exists_pick P _ (C t)
  have hpi : ∀ t, ∃ pick : Option ℕ, (∀ s, pick = some s → s < T ∧ m s = none) ∧
      (∀ s < T, m s = none → pick.elim 0 (fun s => costOf C s (m t)) ≤ costOf C s (m t)) ∧
      pick.elim 0 (fun s => costOf C s (m t)) ≤ 0 := fun t => exists_pick T _ _
  choose pickOut o1 o2 o3 using hpo
  choose pickIn i1 i2 i3 using hpi
  obtain ⟨z, hz⟩ := exists_potential (V := Option (Fin T)) (Arc T m) (fun a b => arcCost C m pickOut pickIn a b - δ) (by
    intro k i l h1 h2 h3 h4
    obtain ⟨other, a1, a2, a3⟩ := exchange_assignment (C := C) hm o1 i1 h1 h2 h3 h4
    have a4 := hbest other a1 a2
    have hlen : (l.length : ℚ) + 1 ≤ T + 1 := by
      have := h1.length_le_card
      simp only [List.length_cons, Fintype.card_option, Fintype.card_fin] at this
      exact_mod_cast this
    rw [chainWeight_sub]
    nlinarith)
  have hcost : ∀ t, costOf C t (pickOut t) = (pickOut t).elim 0 (C t) := by
    intro t; cases pickOut t <;> rfl
  -- the price of a project is the potential of its team
  let v : ℕ → ℚ := fun p => if h : ∃ t : Fin T, m t = some p then z (some h.choose) - z none else 0
  have hv1 : ∀ (t : Fin T) p, m t = some p → v p = z (some t) - z none := by
    intro t p hp
    have hex : ∃ t : Fin T, m t = some p := ⟨t, hp⟩
    have : hex.choose = t := Fin.ext (hm.inj _ hex.choose.2 _ t.2 p hex.choose_spec hp)
    simp only [v, dif_pos hex, this]
  have hv0 : ∀ p, (∀ t < T, m t ≠ some p) → v p = 0 := by
    intro p hp
    have : ¬ ∃ t : Fin T, m t = some p := fun ⟨t, ht⟩ => hp t t.2 ht
    simp only [v, dif_neg this]
  let u : ℕ → ℚ := fun t => (m t).elim 0 (fun p => C t p - v p)
  have hu1 : ∀ t p, m t = some p → u t = C t p - v p := fun t p hp => by simp [u, hp]
  have hu0 : ∀ t, m t = none → u t = 0 := fun t ht => by simp [u, ht]
  have hout : ∀ t < T, ∀ p, m t = some p → u t ≤ -δ ∧ ∀ q < P, (∀ s < T, m s ≠ some q) → u t + δ ≤ C t q := by
    intro t ht p hp
    have h1 := hz (some ⟨t, ht⟩) none (show m t ≠ none by rw [hp]; simp)
    have h2 : arcCost C m pickOut pickIn (some (⟨t, ht⟩ : Fin T)) none = (pickOut t).elim 0 (C t) - C t p := by
      show costOf C t (pickOut t) - costOf C t (m t) = _
      rw [hcost, hp]; rfl
    rw [h2] at h1
    rw [hu1 t p hp, hv1 ⟨t, ht⟩ p hp]
    refine ⟨by linarith [o3 t], fun q hq hf => ?_⟩
    have := o2 t q hq hf
    linarith
  have hinn : ∀ t < T, ∀ p, m t = some p → v p ≤ -δ ∧ ∀ s < T, m s = none → v p + δ ≤ C s p := by
    intro t ht p hp
    have h1 := hz none (some ⟨t, ht⟩) (show m t ≠ none by rw [hp]; simp)
    have h2 : arcCost C m pickOut pickIn none (some (⟨t, ht⟩ : Fin T)) = (pickIn t).elim 0 (fun s => costOf C s (m t)) := rfl
    rw [h2] at h1
    rw [hv1 ⟨t, ht⟩ p hp]
    refine ⟨by linarith [i3 t], fun s hs hf => ?_⟩
    have := i2 t s hs hf
    rw [hp] at this h1
    simp only [costOf] at this h1
    linarith
  refine ⟨u, v, hm, fun t ht p hp => by rw [hu1 t p hp]; ring, fun t ht hne => ?_, fun t ht => hu0 t, fun t ht p hp => (hinn t ht p hp).1,
    fun p hp => hv0 p, fun t ht p hp hne => ?_⟩
  · obtain ⟨p, hp⟩ := Option.ne_none_iff_exists'.mp hne
    exact (hout t ht p hp).1
  · rcases hmt : m t with _ | q
    · rw [hu0 t hmt]
      by_cases hf : ∃ s < T, m s = some p
      · obtain ⟨s, hs, hsp⟩ := hf
        have := (hinn s hs p hsp).2 t ht hmt
        linarith
      · have hf' : ∀ s < T, m s ≠ some p := fun s hs he => hf ⟨s, hs, he⟩
        rw [hv0 p hf']
        -- adding the pair
        have := hbest (Function.update m t (some p)) ⟨fun s hs q hq => ?_, fun s hs s' hs' q h1 h2 => ?_⟩ ⟨t, ht, by simp [hmt]⟩
        · have hsum : assignmentCost T C (Function.update m t (some p)) = assignmentCost T C m + C t p := by
            unfold assignmentCost
            rw [← Finset.sum_erase_add _ _ (Finset.mem_range.mpr ht), ← Finset.sum_erase_add (a := t) _ (fun s => costOf C s (m s)) (Finset.mem_range.mpr ht)]
            rw [Function.update_self, hmt]
            simp only [costOf, add_zero]
            congr 1
            refine Finset.sum_congr rfl fun s hs => ?_
            rw [Function.update_of_ne (Finset.ne_of_mem_erase hs)]
          rw [hsum] at this
          have hT : (0 : ℚ) ≤ T := by positivity
          nlinarith
        · by_cases he : s = t
          · subst he; rw [Function.update_self] at hq; rw [← Option.some.inj hq]; exact hp
          · rw [Function.update_of_ne he] at hq; exact hm.lt s hs q hq
        · by_cases he : s = t <;> by_cases he' : s' = t
          · rw [he, he']
          · subst he
            rw [Function.update_self] at h1
            rw [Function.update_of_ne he', ← h1] at h2
            exact absurd h2 (hf' s' hs')
          · subst he'
            rw [Function.update_self] at h2
            rw [Function.update_of_ne he, ← h2] at h1
            exact absurd h1 (hf' s hs)
          · rw [Function.update_of_ne he] at h1
            rw [Function.update_of_ne he'] at h2
            exact hm.inj s hs s' hs' q h1 h2
    · by_cases hf : ∃ s < T, m s = some p
      · obtain ⟨s, hs, hsp⟩ := hf
        have hst : t ≠ s := by rintro rfl; exact hne hsp
        have h1 := hz (some ⟨t, ht⟩) (some ⟨s, hs⟩) ⟨by simpa using hst, by simp [hmt], by simp [hsp]⟩
        have h2 : arcCost C m pickOut pickIn (some (⟨t, ht⟩ : Fin T)) (some ⟨s, hs⟩) = C t p - C t q := by
          show costOf C t (m s) - costOf C t (m t) = _
          rw [hsp, hmt]; rfl
        rw [h2] at h1
        rw [hu1 t q hmt, hv1 ⟨t, ht⟩ q hmt, hv1 ⟨s, hs⟩ p hsp]
        linarith
      · have hf' : ∀ s < T, m s ≠ some p := fun s hs he => hf ⟨s, hs, he⟩
        rw [hv0 p hf']
        have := (hout t ht q hmt).2 p hp hf'
        linarith

/-- Conversely, prices prove that all other assignments cost at least `δ` more. -/
theorem best_of_prices {u v : ℕ → ℚ} {δ : ℚ} (h0 : 0 ≤ δ) (h : Prices T P C m u v δ) : BestBy δ T P C m := by
  classical
  refine ⟨h.assignment, fun other ho ⟨z, hz, hne⟩ => ?_⟩
  -- the value of all prices
  have hle0 : ∀ p < P, v p ≤ 0 := by
    intro p hp
    by_cases hf : ∃ t < T, m t = some p
    · obtain ⟨t, ht, he⟩ := hf
      have := h.project t ht p he; linarith
    · rw [h.free p hp fun t ht he => hf ⟨t, ht, he⟩]
  have key : ∀ f : ℕ → Option ℕ, Assignment T P f → ∑ p ∈ Finset.range P, v p ≤ ∑ t ∈ Finset.range T, (f t).elim 0 v := by
    intro f hf
    have h1 : ∑ t ∈ Finset.range T, (f t).elim 0 v = ∑ p ∈ (Finset.range P).filter (fun p => ∃ t < T, f t = some p), v p := by
      rw [← Finset.sum_filter_add_sum_filter_not (Finset.range T) (fun t => f t ≠ none)]
      rw [Finset.sum_eq_zero (s := (Finset.range T).filter (fun t => ¬ f t ≠ none)) (fun t ht => by
        have := (Finset.mem_filter.mp ht).2
        rw [not_not] at this; rw [this]; rfl), add_zero]
      refine Finset.sum_bij (fun t _ => (f t).getD 0) (fun t ht => ?_) (fun t ht t' ht' he => ?_) (fun p hp => ?_) (fun t ht => ?_)
      · obtain ⟨a1, a2⟩ := Finset.mem_filter.mp ht
        obtain ⟨p, hp⟩ := Option.ne_none_iff_exists'.mp a2
        simp only [hp, Option.getD_some, Finset.mem_filter, Finset.mem_range]
        exact ⟨hf.lt t (Finset.mem_range.mp a1) p hp, t, Finset.mem_range.mp a1, hp⟩
      · obtain ⟨a1, a2⟩ := Finset.mem_filter.mp ht
        obtain ⟨b1, b2⟩ := Finset.mem_filter.mp ht'
        obtain ⟨p, hp⟩ := Option.ne_none_iff_exists'.mp a2
        obtain ⟨q, hq⟩ := Option.ne_none_iff_exists'.mp b2
        simp only [hp, hq, Option.getD_some] at he
        subst he
        exact hf.inj t (Finset.mem_range.mp a1) t' (Finset.mem_range.mp b1) p hp hq
      · obtain ⟨a1, t, ht, he⟩ := Finset.mem_filter.mp hp
        exact ⟨t, Finset.mem_filter.mpr ⟨Finset.mem_range.mpr ht, by simp [he]⟩, by simp [he]⟩
      · obtain ⟨a1, a2⟩ := Finset.mem_filter.mp ht
        obtain ⟨p, hp⟩ := Option.ne_none_iff_exists'.mp a2
        simp [hp]
    rw [h1, ← Finset.sum_filter_add_sum_filter_not (Finset.range P) (fun p => ∃ t < T, f t = some p)]
    have : ∑ p ∈ (Finset.range P).filter (fun p => ¬ ∃ t < T, f t = some p), v p ≤ 0 :=
      Finset.sum_nonpos fun p hp => hle0 p (Finset.mem_range.mp (Finset.mem_filter.mp hp).1)
    linarith
  have keym : ∑ t ∈ Finset.range T, (m t).elim 0 v ≤ ∑ p ∈ Finset.range P, v p := by
    have hm := h.assignment
    have h2 : ∑ p ∈ Finset.range P, v p = ∑ p ∈ (Finset.range P).filter (fun p => ∃ t < T, m t = some p), v p := by
      rw [← Finset.sum_filter_add_sum_filter_not (Finset.range P) (fun p => ∃ t < T, m t = some p)]
      rw [Finset.sum_eq_zero (s := (Finset.range P).filter (fun p => ¬ ∃ t < T, m t = some p)), add_zero]
      intro p hp
      obtain ⟨a1, a2⟩ := Finset.mem_filter.mp hp
      exact h.free p (Finset.mem_range.mp a1) fun t ht he => a2 ⟨t, ht, he⟩
    rw [h2]
    apply le_of_eq
    rw [← Finset.sum_filter_add_sum_filter_not (Finset.range T) (fun t => m t ≠ none)]
    rw [Finset.sum_eq_zero (s := (Finset.range T).filter (fun t => ¬ m t ≠ none)) (fun t ht => by
      have := (Finset.mem_filter.mp ht).2
      rw [not_not] at this; rw [this]; rfl), add_zero]
    refine Finset.sum_bij (fun t _ => (m t).getD 0) (fun t ht => ?_) (fun t ht t' ht' he => ?_) (fun p hp => ?_) (fun t ht => ?_)
    · obtain ⟨a1, a2⟩ := Finset.mem_filter.mp ht
      obtain ⟨p, hp⟩ := Option.ne_none_iff_exists'.mp a2
      simp only [hp, Option.getD_some, Finset.mem_filter, Finset.mem_range]
      exact ⟨hm.lt t (Finset.mem_range.mp a1) p hp, t, Finset.mem_range.mp a1, hp⟩
    · obtain ⟨a1, a2⟩ := Finset.mem_filter.mp ht
      obtain ⟨b1, b2⟩ := Finset.mem_filter.mp ht'
      obtain ⟨p, hp⟩ := Option.ne_none_iff_exists'.mp a2
      obtain ⟨q, hq⟩ := Option.ne_none_iff_exists'.mp b2
      simp only [hp, hq, Option.getD_some] at he
      subst he
      exact hm.inj t (Finset.mem_range.mp a1) t' (Finset.mem_range.mp b1) p hp hq
    · obtain ⟨a1, t, ht, he⟩ := Finset.mem_filter.mp hp
      exact ⟨t, Finset.mem_filter.mpr ⟨Finset.mem_range.mpr ht, by simp [he]⟩, by simp [he]⟩
    · obtain ⟨a1, a2⟩ := Finset.mem_filter.mp ht
      obtain ⟨p, hp⟩ := Option.ne_none_iff_exists'.mp a2
      simp [hp]
  have hm : assignmentCost T C m = ∑ t ∈ Finset.range T, (u t + (m t).elim 0 v) := by
    refine Finset.sum_congr rfl fun t ht => ?_
    rcases hmt : m t with _ | p
    · rw [h.idle t (Finset.mem_range.mp ht) hmt]; simp [costOf]
    · rw [show costOf C t (some p) = C t p from rfl, h.tight t (Finset.mem_range.mp ht) p hmt]; rfl
  have hterm : ∀ t < T, u t + (other t).elim 0 v ≤ costOf C t (other t) := by
    intro t ht
    rcases hot : other t with _ | p
    · simp only [Option.elim, costOf, add_zero]
      by_cases hmt : m t = none
      · rw [h.idle t ht hmt]
      · linarith [h.team t ht hmt]
    · simp only [Option.elim, costOf]
      by_cases hmt : m t = some p
      · rw [h.tight t ht p hmt]
      · linarith [h.slack t ht p (ho.lt t ht p hot) hmt]
  have hz' : u z + (other z).elim 0 v + δ ≤ costOf C z (other z) := by
    rcases hot : other z with _ | p
    · simp only [Option.elim, costOf, add_zero]
      linarith [h.team z hz (by rw [← hot]; exact Ne.symm hne)]
    · simp only [Option.elim, costOf]
      exact h.slack z hz p (ho.lt z hz p hot) (by rw [← hot]; exact Ne.symm hne)
  have hsum : ∑ t ∈ Finset.range T, (u t + (other t).elim 0 v) + δ ≤ assignmentCost T C other := by
    unfold assignmentCost
    rw [← Finset.sum_erase_add _ _ (Finset.mem_range.mpr hz), ← Finset.sum_erase_add (a := z) _ (fun t => costOf C t (other t)) (Finset.mem_range.mpr hz)]
    have := Finset.sum_le_sum (s := (Finset.range T).erase z) (f := fun t => u t + (other t).elim 0 v) (g := fun t => costOf C t (other t))
      (fun t ht => hterm t (Finset.mem_range.mp (Finset.mem_of_mem_erase ht)))
    linarith
  have h1 := key other ho
  rw [hm, Finset.sum_add_distrib]
  rw [Finset.sum_add_distrib] at hsum
  linarith

end
end Verif.Proofs
