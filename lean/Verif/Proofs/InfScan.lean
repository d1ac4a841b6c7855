import Verif.Model.MinScan
import Mathlib.Data.List.Nodup
import Mathlib.Data.Finset.Dedup
import Mathlib.Tactic.Linarith
import Mathlib.Algebra.Order.Ring.Rat

/-! The forward/backward minimum scan on numbers that may be infinite. -/

namespace Verif.Proofs
open Verif Num Model

theorem lt_trans_num {a b c : Num} (h : lt a b = true) (h' : lt b c = true) : lt a c = true := by
  cases a <;> cases b <;> cases c <;> simp_all [lt]
  linarith

theorem lt_of_le_num {a b c : Num} (hb : b ≠ nan) (h : lt a b = true) (h' : lt c b = false) (hc : c ≠ nan) : lt a c = true := by
  cases a <;> cases b <;> cases c <;> simp_all [lt]
  linarith

/-- `w` is the smallest number of the set, infinite if there is none. -/
def MinN (S : Set Num) (w : Num) : Prop := w ≠ nan ∧ (w = pinf ∨ w ∈ S) ∧ ∀ s ∈ S, lt s w = false

theorem minN_empty : MinN ∅ pinf := ⟨by simp, Or.inl rfl, fun _ h => absurd h (by simp)⟩

theorem minN_singleton {a : Num} (h : a ≠ nan) : MinN {a} a :=
  ⟨h, Or.inr rfl, fun s hs => by rw [Set.mem_singleton_iff.mp hs]; cases a <;> simp [lt]⟩

theorem MinN.union {S T : Set Num} {a b : Num} (h : MinN S a) (h' : MinN T b) : MinN (S ∪ T) (cmin a b) := by
  unfold cmin
  cases hl : lt b a
  · simp only [Bool.false_eq_true, if_false]
    refine ⟨h.1, h.2.1.imp_right Or.inl, ?_⟩
    rintro s (hs | hs)
    · exact h.2.2 s hs
    · by_contra hc
      simp only [Bool.not_eq_false] at hc
      have := h'.2.2 s hs
      rw [lt_of_le_num h.1 hc hl h'.1] at this
      cases this
  · simp only [if_true]
    refine ⟨h'.1, h'.2.1.imp_right Or.inr, ?_⟩
    rintro s (hs | hs)
    · by_contra hc
      simp only [Bool.not_eq_false] at hc
      have := h.2.2 s hs
      rw [lt_trans_num hc hl] at this
      cases this
    · exact h'.2.2 s hs

/-- Values at positions `< i` of `l`. -/
def preN (m : ℕ → Num) (l : List ℕ) (i : ℕ) : Set Num := {q | ∃ j, ∃ h : j < l.length, j < i ∧ m l[j] = q}
/-- Values at positions `> i` of `l`. -/
def sufN (m : ℕ → Num) (l : List ℕ) (i : ℕ) : Set Num := {q | ∃ j, ∃ h : j < l.length, i < j ∧ m l[j] = q}

theorem preN_succ (m : ℕ → Num) (l : List ℕ) {i : ℕ} (h : i < l.length) : preN m l i ∪ {m l[i]} = preN m l (i + 1) := by
  ext q; simp only [preN, Set.mem_union, Set.mem_ofPred_eq, Set.mem_singleton_iff]
  constructor
  · rintro (⟨j, hj, hji, rfl⟩ | rfl)
    · exact ⟨j, hj, by omega, rfl⟩
    · exact ⟨i, h, by omega, rfl⟩
  · rintro ⟨j, hj, hji, rfl⟩
    by_cases e : j = i
    · right; subst e; rfl
    · left; exact ⟨j, hj, by omega, rfl⟩

theorem sufN_step (m : ℕ → Num) (l : List ℕ) {i : ℕ} (h : i + 1 < l.length) :
    sufN m l (i + 1) ∪ {m l[i + 1]} = sufN m l i := by
  ext q; simp only [sufN, Set.mem_union, Set.mem_ofPred_eq, Set.mem_singleton_iff]
  constructor
  · rintro (⟨j, hj, hji, rfl⟩ | rfl)
    · exact ⟨j, hj, by omega, rfl⟩
    · exact ⟨i + 1, h, by omega, rfl⟩
  · rintro ⟨j, hj, hji, rfl⟩
    by_cases e : j = i + 1
    · right; subst e; rfl
    · left; exact ⟨j, hj, by omega, rfl⟩

section
variable {msg : ℕ → Option Num} {m : ℕ → Num} {l : List ℕ} {N : ℕ}

theorem scanFwd_num (hn : l.Nodup) (hne : l ≠ []) (hlt : ∀ e ∈ l, e < N) (hm : ∀ e ∈ l, msg e = some (m e)) (hnn : ∀ e ∈ l, m e ≠ nan)
    {f : Arr Num} (hf : f.size = N + 1) :
    ∃ f', scanFwd msg l f = some f' ∧ f'.size = N + 1 ∧
      ∀ i, ∀ h : i < l.length, MinN (preN m l i) (f'.data l[i]) := by
  have hlen : 0 < l.length := List.length_pos_of_ne_nil hne
  have hl0 : l[0] < N := hlt _ (List.getElem_mem _)
  obtain ⟨f', h1, h2, h3⟩ := loopUp_inv (n := l.length - 1)
    (body := fun i fwd => do
      let cur ← l[i + 1]?
      let prev ← l[i]?
      let f ← Arr.rd fwd prev
      let m ← msg prev
      fwd.wr cur (cmin f m))
    (s := ⟨f.size, fun k => if k = l[0] then pinf else f.data k⟩)
    (fun i g => g.size = N + 1 ∧ ∀ j ≤ i, ∀ h : j < l.length, MinN (preN m l j) (g.data l[j]))
    ⟨hf, by
      intro j hj h
      obtain rfl : j = 0 := by omega
      simp only [if_true]
      have : preN m l 0 = ∅ := by ext q; simp [preN]
      rw [this]; exact minN_empty⟩
    (by
      rintro i hi g ⟨g1, g2⟩
      have hi1 : i + 1 < l.length := by omega
      have hi0 : i < l.length := by omega
      have a1 : l[i] < N := hlt _ (List.getElem_mem _)
      have a2 : l[i + 1] < N := hlt _ (List.getElem_mem _)
      refine ⟨⟨g.size, fun k => if k = l[i + 1] then cmin (g.data l[i]) (m l[i]) else g.data k⟩, ?_, g1, ?_⟩
      · simp [List.getElem?_eq_getElem hi1, List.getElem?_eq_getElem hi0, hm l[i] (List.getElem_mem _), Arr.rd, Arr.wr, g1,
          show l[i] < N + 1 by omega, show l[i + 1] < N + 1 by omega]
      · intro j hj h
        by_cases e : j = i + 1
        · subst e
          simp only [if_true]
          rw [← preN_succ m l hi0]
          exact (g2 i (le_refl _) hi0).union (minN_singleton (hnn _ (List.getElem_mem _)))
        · have : l[j] ≠ l[i + 1] := fun e' => e ((hn.getElem_inj_iff).mp e')
          simp only [this, if_false]
          exact g2 j (by omega) h)
  refine ⟨f', ?_, h2, fun i h => h3 i (by omega) h⟩
  simp only [scanFwd, List.getElem?_eq_getElem hlen, Option.bind_eq_bind, Option.bind_some,
    Arr.wr_of_lt (show l[0] < f.size by omega)]
  exact h1

theorem scanBwd_num (hn : l.Nodup) (hne : l ≠ []) (hlt : ∀ e ∈ l, e < N) (hm : ∀ e ∈ l, msg e = some (m e)) (hnn : ∀ e ∈ l, m e ≠ nan)
    {f : Arr Num} (hf : f.size = N + 1) :
    ∃ f', scanBwd msg l f = some f' ∧ f'.size = N + 1 ∧
      ∀ i, ∀ h : i < l.length, MinN (sufN m l i) (f'.data (l[i] + 1)) := by
  have hlen : 0 < l.length := List.length_pos_of_ne_nil hne
  have hlast : l.length - 1 < l.length := by omega
  have hl0 : l[l.length - 1] < N := hlt _ (List.getElem_mem _)
  obtain ⟨f', h1, h2, h3⟩ := loopDown_inv (n := l.length - 1)
    (body := fun i bwd => do
      let prev ← l[i]?
      let cur ← l[i + 1]?
      let b ← Arr.rd bwd (cur + 1)
      let m ← msg cur
      bwd.wr (prev + 1) (cmin b m))
    (s := ⟨f.size, fun k => if k = l[l.length - 1] + 1 then pinf else f.data k⟩)
    (fun i g => g.size = N + 1 ∧ ∀ j, i ≤ j → ∀ h : j < l.length, MinN (sufN m l j) (g.data (l[j] + 1)))
    ⟨hf, by
      intro j hj h
      obtain rfl : j = l.length - 1 := by omega
      simp only [if_true]
      have : sufN m l (l.length - 1) = ∅ := by
        ext q; simp only [sufN, Set.mem_ofPred_eq, Set.mem_empty_iff_false, iff_false]
        rintro ⟨j, hj, h, -⟩; omega
      rw [this]; exact minN_empty⟩
    (by
      rintro i hi g ⟨g1, g2⟩
      have hi1 : i + 1 < l.length := by omega
      have hi0 : i < l.length := by omega
      have a1 : l[i] < N := hlt _ (List.getElem_mem _)
      have a2 : l[i + 1] < N := hlt _ (List.getElem_mem _)
      refine ⟨⟨g.size, fun k => if k = l[i] + 1 then cmin (g.data (l[i + 1] + 1)) (m l[i + 1]) else g.data k⟩, ?_, g1, ?_⟩
      · simp [List.getElem?_eq_getElem hi1, List.getElem?_eq_getElem hi0, hm l[i + 1] (List.getElem_mem _), Arr.rd, Arr.wr, g1,
          a1, a2]
      · intro j hj h
        by_cases e : j = i
        · subst e
          simp only [if_true]
          rw [← sufN_step m l hi1]
          exact (g2 (j + 1) (le_refl _) hi1).union (minN_singleton (hnn _ (List.getElem_mem _)))
        · have : l[j] + 1 ≠ l[i] + 1 := fun e' => e ((hn.getElem_inj_iff).mp (by omega))
          simp only [this, if_false]
          exact g2 j (by omega) h)
  refine ⟨f', ?_, h2, fun i h => h3 i (by omega) h⟩
  simp only [scanBwd, List.getElem?_eq_getElem hlast, Option.bind_eq_bind, Option.bind_some,
    Arr.wr_of_lt (show l[l.length - 1] + 1 < f.size by omega)]
  exact h1

/-- Both scans together. -/
theorem scan_num (hn : l.Nodup) (hne : l ≠ []) (hlt : ∀ e ∈ l, e < N) (hm : ∀ e ∈ l, msg e = some (m e)) (hnn : ∀ e ∈ l, m e ≠ nan)
    {f b : Arr Num} (hf : f.size = N + 1) (hb : b.size = N + 1) :
    ∃ f' b', scanFwd msg l f = some f' ∧ scanBwd msg l b = some b' ∧ f'.size = N + 1 ∧ b'.size = N + 1 ∧
      ∀ e ∈ l, MinN {q | ∃ e' ∈ l, e' ≠ e ∧ m e' = q} (cmin (f'.data e) (b'.data (e + 1))) := by
  obtain ⟨f', h1, h2, h3⟩ := scanFwd_num hn hne hlt hm hnn hf
  obtain ⟨b', g1, g2, g3⟩ := scanBwd_num hn hne hlt hm hnn hb
  refine ⟨f', b', h1, g1, h2, g2, fun e he => ?_⟩
  obtain ⟨i, hi, rfl⟩ := List.mem_iff_getElem.mp he
  have : {q | ∃ e' ∈ l, e' ≠ l[i] ∧ m e' = q} = preN m l i ∪ sufN m l i := by
    ext q; simp only [preN, sufN, Set.mem_union, Set.mem_ofPred_eq]
    constructor
    · rintro ⟨s, hs, hne, rfl⟩
      obtain ⟨j, hj, rfl⟩ := List.mem_iff_getElem.mp hs
      rcases lt_trichotomy j i with h1 | h1 | h1
      · left; exact ⟨j, hj, h1, rfl⟩
      · subst h1; exact absurd rfl hne
      · right; exact ⟨j, hj, h1, rfl⟩
    · rintro (⟨j, hj, hji, rfl⟩ | ⟨j, hj, hji, rfl⟩)
      · exact ⟨l[j], List.getElem_mem _, fun e => by have := (hn.getElem_inj_iff).mp e; omega, rfl⟩
      · exact ⟨l[j], List.getElem_mem _, fun e => by have := (hn.getElem_inj_iff).mp e; omega, rfl⟩
  rw [this]
  exact (h3 i hi).union (g3 i hi)

end

end Verif.Proofs
