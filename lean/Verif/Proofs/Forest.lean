import Verif.Proofs.Marginal
import Mathlib.Data.List.Nodup
import Mathlib.Logic.Function.Basic

/-! Min-sum on a graph of constraints without cycles. -/

namespace Verif.Proofs
open Verif Num Spec

/-- What is needed of a notion "from time `t` on, the sequence `s` is (or tends to) `a`". -/
structure Limits (Lim : ℕ → (ℕ → ℚ) → ℚ → Prop) : Prop where
  mono : ∀ {t t' s a}, t ≤ t' → Lim t s a → Lim t' s a
  squeeze : ∀ {t} (F : Finset ℕ) (s : ℕ → ℕ → ℚ) (a : ℕ → ℚ) (z : ℕ → ℚ) (q : ℚ) (C : ℚ), (∀ i ∈ F, Lim t (s i) (a i)) →
    (∀ j, |z j - q| ≤ C * ∑ i ∈ F, |s i j - a i|) → Lim t z q
  shift : ∀ {t s a}, Lim (t + 1) s a ↔ Lim t (fun j => s (j + 1)) a

section
variable {Lim : ℕ → (ℕ → ℚ) → ℚ → Prop} (L : Limits Lim)
include L

theorem Limits.const (t : ℕ) (a : ℚ) : Lim t (fun _ => a) a :=
  L.squeeze ∅ (fun _ _ => 0) (fun _ => 0) _ a 0 (by simp) (by simp)

omit L in
theorem lim_congr {t : ℕ} {s s' : ℕ → ℚ} {a : ℚ} (h : Lim t s a) (e : ∀ j, s j = s' j) : Lim t s' a := (funext e : s = s') ▸ h

theorem Limits.add {t : ℕ} {s s' : ℕ → ℚ} {a a' : ℚ} (h : Lim t s a) (h' : Lim t s' a') : Lim t (fun j => s j + s' j) (a + a') := by
  refine L.squeeze {0, 1} (fun i => if i = 0 then s else s') (fun i => if i = 0 then a else a') _ _ 1 (by simp [h, h']) fun j => ?_
  rw [Finset.sum_pair (by decide)]
  simp only [if_true, Nat.one_ne_zero, if_false, one_mul]
  have : s j + s' j - (a + a') = (s j - a) + (s' j - a') := by ring
  rw [this]; exact abs_add_le _ _

theorem Limits.sub {t : ℕ} {s s' : ℕ → ℚ} {a a' : ℚ} (h : Lim t s a) (h' : Lim t s' a') : Lim t (fun j => s j - s' j) (a - a') := by
  refine L.squeeze {0, 1} (fun i => if i = 0 then s else s') (fun i => if i = 0 then a else a') _ _ 1 (by simp [h, h']) fun j => ?_
  rw [Finset.sum_pair (by decide)]
  simp only [if_true, Nat.one_ne_zero, if_false, one_mul]
  have : s j - s' j - (a - a') = (s j - a) - (s' j - a') := by ring
  rw [this]; exact abs_sub _ _

theorem Limits.marg {t : ℕ} {vars : Finset ℕ} {P : Finset ℕ → Prop} {x : ℕ → ℕ → ℚ} {y : ℕ → ℚ} {v : ℕ} {z : ℕ → ℚ} {q : ℚ}
    (hx : ∀ i ∈ vars, Lim t (fun j => x j i) (y i)) (hz : ∀ j, MarginalDiff vars P (x j) v (z j)) (hq : MarginalDiff vars P y v q) :
    Lim t z q :=
  L.squeeze vars (fun i j => x j i) y z q 2 hx fun j => marg_lipschitz (hz j) hq

omit L in
/-- All the constraints of the list hold. -/
def AllHold (V : ℕ → Finset ℕ) (P : ℕ → Finset ℕ → Prop) (l : List ℕ) (S : Finset ℕ) : Prop := ∀ c ∈ l, P c (S ∩ V c)

/-- The main induction.  `x j c v` is the message from variable `v` to constraint `c` in iteration `j`, `r j c v` the answer,
`d j c v` the answer as it is delivered (damped). -/
theorem forest_limit {V : ℕ → Finset ℕ} {P : ℕ → Finset ℕ → Prop} :
    ∀ (l : List ℕ), l.Nodup → Forest V l → ∀ (vars : Finset ℕ), (∀ c ∈ l, V c ⊆ vars) → ∀ (w : ℕ → ℚ) (x r d : ℕ → ℕ → ℕ → ℚ),
      (∀ j, ∀ c ∈ l, ∀ v ∈ V c, IsMessage (V c) (P c) (x j c) v (fin (r j c v))) →
      (∀ c ∈ l, ∀ v ∈ V c, ∀ t a, Lim t (fun j => r j c v) a → Lim t (fun j => d j c v) a) →
      (∀ c ∈ l, ∀ v ∈ V c, Lim 0 (fun j => x (j + 1) c v -
        (w v + ∑ c' ∈ (l.toFinset.filter (fun c' => v ∈ V c')).erase c, d j c' v)) 0) →
      ∀ v ∈ vars, ∃ m, MarginalDiff vars (AllHold V P l) w v m ∧
        Lim (2 * l.length) (fun j => w v + ∑ c' ∈ l.toFinset.filter (fun c' => v ∈ V c'), d j c' v) m := by
  intro l
  induction l with
  | nil =>
    intro _ _ vars _ w x r d _ _ _ v hv
    exact ⟨w v, marg_free (fun S _ c hc => by cases hc) hv, by simpa using L.const 0 (w v)⟩
  | cons c l ih =>
    intro hnd hF vars hsub w x r d hr hd hx
    obtain ⟨⟨u, hu, hshare⟩, hFl⟩ := hF
    have hcl : c ∉ l := (List.nodup_cons.mp hnd).1
    have hndl := (List.nodup_cons.mp hnd).2
    set A := V c with hAdef
    set B := vars \ A.erase u with hBdef
    have hAv : A ⊆ vars := hsub c (by simp)
    have huB : u ∈ B := by simp [hBdef, hAv hu]
    have hAB : ∀ v ∈ A, v ∈ B → v = u := by
      intro v h1 h2
      simp only [hBdef, Finset.mem_sdiff, Finset.mem_erase, not_and] at h2
      by_contra e
      exact h2.2 e h1
    have hBA : ∀ v ∈ B, v ∈ A → v = u := fun v h1 h2 => hAB v h2 h1
    have hun : A ∪ B = vars := by
      ext v
      simp only [hBdef, Finset.mem_union, Finset.mem_sdiff, Finset.mem_erase, not_and]
      constructor
      · rintro (h | h)
        · exact hAv h
        · exact h.1
      · intro h
        by_cases ha : v ∈ A
        · exact Or.inl ha
        · exact Or.inr ⟨h, fun _ => ha⟩
    have hVB : ∀ c' ∈ l, V c' ⊆ B := by
      intro c' hc' v hv
      simp only [hBdef, Finset.mem_sdiff, Finset.mem_erase, not_and]
      exact ⟨hsub c' (by simp [hc']) hv, fun h1 h2 => h1 (hshare c' hc' v h2 hv)⟩
    -- the sums over the occurrences of a variable
    have hsum_c : ∀ {v : ℕ}, v ∈ A → ∀ j, ∑ c' ∈ ((c :: l).toFinset.filter (fun c' => v ∈ V c')).erase c, d j c' v =
        ∑ c' ∈ l.toFinset.filter (fun c' => v ∈ V c'), d j c' v := by
      intro v hv j
      refine Finset.sum_congr ?_ fun _ _ => rfl
      ext c'
      simp only [Finset.mem_erase, Finset.mem_filter, List.mem_toFinset, List.mem_cons]
      constructor
      · rintro ⟨h1, h2 | h2, h3⟩
        · exact absurd h2 h1
        · exact ⟨h2, h3⟩
      · rintro ⟨h1, h2⟩
        exact ⟨fun e => hcl (e ▸ h1), Or.inr h1, h2⟩
    have hsum_priv : ∀ {v : ℕ}, v ∈ A → v ≠ u → ∀ j, ∑ c' ∈ l.toFinset.filter (fun c' => v ∈ V c'), d j c' v = 0 := by
      intro v hv hne j
      rw [Finset.filter_eq_empty_iff.mpr, Finset.sum_empty]
      intro c' hc' hv'
      exact hne (hshare c' (by simpa using hc') v hv hv')
    have hsum_in : ∀ {v : ℕ}, v ∈ A → ∀ j, ∑ c' ∈ (c :: l).toFinset.filter (fun c' => v ∈ V c'), d j c' v =
        d j c v + ∑ c' ∈ l.toFinset.filter (fun c' => v ∈ V c'), d j c' v := by
      intro v hv j
      rw [← hsum_c hv]
      exact (Finset.add_sum_erase _ _ (by simp [← hAdef, hv])).symm
    have hsum_out : ∀ {v : ℕ}, v ∉ A → ∀ j, ∑ c' ∈ (c :: l).toFinset.filter (fun c' => v ∈ V c'), d j c' v =
        ∑ c' ∈ l.toFinset.filter (fun c' => v ∈ V c'), d j c' v := by
      intro v hv j
      refine Finset.sum_congr ?_ fun _ _ => rfl
      ext c'
      simp only [Finset.mem_filter, List.mem_toFinset, List.mem_cons]
      constructor
      · rintro ⟨h2 | h2, h3⟩
        · rw [h2] at h3; exact absurd h3 hv
        · exact ⟨h2, h3⟩
      · rintro ⟨h1, h2⟩
        exact ⟨Or.inr h1, h2⟩
    -- private variables of `c` send their cost
    have hpriv : ∀ v ∈ A, v ≠ u → Lim 1 (fun j => x j c v) (w v) := by
      intro v hv hne
      rw [L.shift]
      have := L.add (hx c (by simp) v hv) (L.const 0 (w v))
      rw [zero_add] at this
      exact lim_congr this fun j => by rw [hsum_c hv, hsum_priv hv hne]; ring
    have hmarg : ∀ v ∈ A, ∀ j, MarginalDiff A (P c) (x j c) v (r j c v + x j c v) := fun v hv j => marg_of_message (hr j c (by simp) v hv)
    -- the constant message from `c` to `u`
    obtain ⟨m0, hm0⟩ := marg_exists (hmarg u hu 0) w
    have hru : Lim 1 (fun j => r j c u) (m0 - w u) := by
      have h1 : ∀ j, MarginalDiff A (P c) (Function.update (x j c) u (w u)) u (r j c u + w u) := by
        intro j
        have := marg_shift (y := Function.update (x j c) u (w u)) (hmarg u hu j) (fun i _ hi => by simp [hi])
        simpa using this
      have h2 : Lim 1 (fun j => r j c u + w u) m0 := by
        refine L.marg (fun i hi => ?_) h1 hm0
        by_cases e : i = u
        · subst e; simpa using L.const 1 (w i)
        · simpa [Function.update_of_ne e] using hpriv i hi e
      simpa using L.sub h2 (L.const 1 (w u))
    have hdu : Lim 1 (fun j => d j c u) (m0 - w u) := hd c (by simp) u hu 1 _ hru
    -- the rest, one iteration later
    set w' : ℕ → ℚ := fun v => if v = u then m0 else w v with hw'
    have hrest := ih hndl hFl B hVB w' (fun j => x (j + 1)) (fun j => r (j + 1)) (fun j => d (j + 1))
      (fun j c' hc' v hv => hr (j + 1) c' (by simp [hc']) v hv)
      (fun c' hc' v hv t a h => L.shift.mp (hd c' (by simp [hc']) v hv (t + 1) a (L.shift.mpr h)))
      (by
        intro c' hc' v hv
        have hne : c' ≠ c := fun e => hcl (e ▸ hc')
        have h1 := L.shift.mp (L.mono (Nat.zero_le 1) (hx c' (by simp [hc']) v hv))
        by_cases hvA : v ∈ A
        · obtain rfl : v = u := hshare c' hc' v hvA hv
          have h2 := L.add h1 (L.sub (L.shift.mp hdu) (L.const 0 (m0 - w v)))
          simp only [sub_self, add_zero] at h2
          refine (congrArg (fun s => Lim 0 s 0) (funext fun j => ?_)).mp h2
          have e : ∑ c'' ∈ ((c :: l).toFinset.filter (fun c'' => v ∈ V c'')).erase c', d (j + 1) c'' v =
              d (j + 1) c v + ∑ c'' ∈ (l.toFinset.filter (fun c'' => v ∈ V c'')).erase c', d (j + 1) c'' v := by
            have : ((c :: l).toFinset.filter (fun c'' => v ∈ V c'')).erase c' =
                insert c ((l.toFinset.filter (fun c'' => v ∈ V c'')).erase c') := by
              ext z
              simp only [Finset.mem_erase, Finset.mem_filter, List.mem_toFinset, List.mem_cons, Finset.mem_insert]
              constructor
              · rintro ⟨h1, h2 | h2, h3⟩
                · exact Or.inl h2
                · exact Or.inr ⟨h1, h2, h3⟩
              · rintro (rfl | ⟨h1, h2, h3⟩)
                · exact ⟨hne.symm, Or.inl rfl, hvA⟩
                · exact ⟨h1, Or.inr h2, h3⟩
            rw [this, Finset.sum_insert (by simp [hcl])]
          rw [e]
          simp only [hw', if_true]
          ring
        · have hvu : v ≠ u := fun e => hvA (e ▸ hu)
          have e : ((c :: l).toFinset.filter (fun c'' => v ∈ V c'')).erase c' = (l.toFinset.filter (fun c'' => v ∈ V c'')).erase c' := by
            ext z
            simp only [Finset.mem_erase, Finset.mem_filter, List.mem_toFinset, List.mem_cons]
            constructor
            · rintro ⟨h1, h2 | h2, h3⟩
              · rw [h2] at h3; exact absurd h3 hvA
              · exact ⟨h1, h2, h3⟩
            · rintro ⟨h1, h2, h3⟩
              exact ⟨h1, Or.inr h2, h3⟩
          rw [e] at h1
          simpa only [hw', if_neg hvu] using h1)
    have hvalid : ∀ S ⊆ vars, (AllHold V P l (S ∩ B) ∧ P c (S ∩ A) ↔ AllHold V P (c :: l) S) := by
      intro S _
      have e : ∀ c' ∈ l, S ∩ B ∩ V c' = S ∩ V c' := by
        intro c' hc'
        rw [Finset.inter_assoc, Finset.inter_eq_right.mpr (hVB c' hc')]
      simp only [AllHold, List.mem_cons, forall_eq_or_imp, ← hAdef]
      constructor
      · rintro ⟨h1, h2⟩
        exact ⟨h2, fun c' hc' => by rw [← e c' hc']; exact h1 c' hc'⟩
      · rintro ⟨h1, h2⟩
        exact ⟨fun c' hc' => by rw [e c' hc']; exact h2 c' hc', h1⟩
    have hlen : 2 * (c :: l).length = 2 * l.length + 1 + 1 := by simp only [List.length_cons]; ring
    intro v hv
    by_cases hvB : v ∈ B
    · obtain ⟨m, hm, hlim⟩ := hrest v hvB
      refine ⟨m, ?_, ?_⟩
      · have hg := marg_glue huB hu hBA hm0 (x := w') (fun v _ hne => by simp [hw', hne]) (by simp [hw']) hvB hm
        rw [Finset.union_comm, hun] at hg
        exact marg_congr hg hvalid (fun _ _ => rfl)
      · rw [hlen]
        refine L.mono (Nat.le_succ _) ?_
        have h1 : Lim (2 * l.length + 1) (fun j => w' v + ∑ c' ∈ l.toFinset.filter (fun c' => v ∈ V c'), d j c' v) m :=
          L.shift.mpr hlim
        by_cases hvA : v ∈ A
        · obtain rfl := hAB v hvA hvB
          have h2 := L.add h1 (L.sub (L.mono (by omega) hdu) (L.const (2 * l.length + 1) (m0 - w v)))
          rw [sub_self, add_zero] at h2
          refine lim_congr h2 fun j => ?_
          rw [hsum_in hvA]
          simp only [hw', if_true]
          ring
        · have hvu : v ≠ u := fun e => hvA (e ▸ hu)
          refine lim_congr h1 fun j => ?_
          rw [hsum_out hvA]
          simp only [hw', if_neg hvu]
    · have hvA : v ∈ A := by
        rcases Finset.mem_union.mp (hun ▸ hv) with h | h
        · exact h
        · exact absurd h hvB
      have hvu : v ≠ u := fun e => hvB (e ▸ huB)
      obtain ⟨m, hm, hlim⟩ := hrest u huB
      have hm' : MarginalDiff B (AllHold V P l) w u (m - m0 + w u) := by
        have := marg_shift (y := w) hm (fun i _ hi => by simp [hw', hi])
        simpa [hw'] using this
      have h1 : Lim (2 * l.length + 1) (fun j => w' u + ∑ c' ∈ l.toFinset.filter (fun c' => u ∈ V c'), d j c' u) m :=
        L.shift.mpr hlim
      have hxu : Lim (2 * l.length + 2) (fun j => x j c u) (m - m0 + w u) := by
        rw [L.shift]
        have h2 := L.add (L.mono (Nat.zero_le _) (hx c (by simp) u hu)) (L.add h1 (L.const (2 * l.length + 1) (w u - m0)))
        rw [show (0 : ℚ) + (m + (w u - m0)) = m - m0 + w u by ring] at h2
        refine lim_congr h2 fun j => ?_
        rw [hsum_c hu]
        simp only [hw', if_true]
        ring
      obtain ⟨e, he⟩ := marg_exists (hmarg v hvA 0) (Function.update w u (m - m0 + w u))
      refine ⟨e, ?_, ?_⟩
      · have hg := marg_glue hu huB hAB hm' (x := Function.update w u (m - m0 + w u)) (fun v _ hne => by simp [hne]) (by simp) hvA he
        rw [hun] at hg
        exact marg_congr hg (fun S hS => by rw [and_comm]; exact hvalid S hS) (fun _ _ => rfl)
      · rw [hlen]
        have h2 : Lim (2 * l.length + 2) (fun j => r j c v + x j c v) e := by
          refine L.marg (fun i hi => ?_) (hmarg v hvA) he
          by_cases ei : i = u
          · subst ei; simpa using hxu
          · simpa [Function.update_of_ne ei] using L.mono (by omega) (hpriv i hi ei)
        have h3 : Lim (2 * l.length + 2) (fun j => r j c v) (e - w v) :=
          lim_congr (L.sub h2 (L.mono (by omega) (hpriv v hvA hvu))) fun j => by ring
        have h4 := L.add (hd c (by simp) v hvA _ _ h3) (L.const (2 * l.length + 2) (w v))
        rw [sub_add_cancel] at h4
        refine lim_congr h4 fun j => ?_
        rw [hsum_in hvA, hsum_priv hvA hvu]
        ring

end

end Verif.Proofs
