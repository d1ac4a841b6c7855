import Verif.Proofs.TspPost

/-! Helper lemmas for k-opt. -/

namespace Verif.Proofs
open Verif Model Spec Num

theorem mem_pairsBelow {n i j : ℕ} : (i, j) ∈ pairsBelow n ↔ i < j ∧ j < n := by
  simp only [pairsBelow, List.mem_flatMap, List.mem_range, List.mem_map, List.mem_filter, decide_eq_true_eq, Prod.mk.injEq]
  constructor
  · rintro ⟨a, _, b, ⟨h1, h2⟩, rfl, rfl⟩; exact ⟨h2, h1⟩
  · rintro ⟨h1, h2⟩; exact ⟨i, by omega, j, ⟨h2, h1⟩, rfl, rfl⟩

theorem mem_triplesBelow {n i j k : ℕ} : (i, j, k) ∈ triplesBelow n ↔ i < j ∧ j < k ∧ k < n := by
  simp only [triplesBelow, List.mem_flatMap, List.mem_range, List.mem_map, List.mem_filter, decide_eq_true_eq, Prod.mk.injEq, Prod.exists,
    mem_pairsBelow]
  constructor
  · rintro ⟨a, _, b, c, ⟨⟨h1, h2⟩, h3⟩, rfl, rfl, rfl⟩; exact ⟨h3, h1, h2⟩
  · rintro ⟨h1, h2, h3⟩; exact ⟨i, by omega, j, k, ⟨⟨h2, h3⟩, h1⟩, rfl, rfl, rfl⟩

/-- Exchange of two nodes. -/
def swap2 (t : List ℕ) (i j : ℕ) : List ℕ := (t.set i (t.getD j 0)).set j (t.getD i 0)
/-- Cyclic exchange of three nodes. -/
def swap3 (t : List ℕ) (i j k : ℕ) : List ℕ := ((t.set i (t.getD k 0)).set j (t.getD i 0)).set k (t.getD j 0)

theorem assign_two {t : List ℕ} {i j : ℕ} (hi : i < t.length) (hj : j < t.length) : assignPairs t [(i, j)] = some (swap2 t i j) := by
  simp [assignPairs, swap2, hi, hj]

theorem assign_three {t : List ℕ} {i j k : ℕ} (hij : i < j) (hjk : j < k) (hk : k < t.length) :
    assignPairs t [(i, j), (i, k), (j, k)] = some (swap3 t i j k) := by
  have hi : i < t.length := by omega
  have hj : j < t.length := by omega
  simp only [assignPairs, swap3, List.mapM_cons, List.mapM_nil, List.getElem?_eq_getElem, hi, hj, hk, Option.pure_def, Option.bind_eq_bind,
    Option.bind_some, List.map_cons, List.map_nil, List.zip_cons_cons, List.zip_nil_right, List.foldl_cons, List.foldl_nil, Option.some.injEq,
    List.getD_eq_getElem?_getD, Option.getD_some]
  refine List.ext_getElem? fun x => ?_
  simp only [List.getElem?_set, List.length_set]
  split_ifs <;> first | rfl | omega

theorem swap2_swapped {t : List ℕ} {i j : ℕ} (hij : i < j) (hj : j < t.length) : Swapped t (swap2 t i j) := by
  have hi : i < t.length := by omega
  refine ⟨by simp [swap2], i, j, hij, hj, ?_, ?_, fun k h1 h2 => ?_⟩
  · simp [swap2, List.getElem?_set, hi, hj, show j ≠ i by omega]
  · simp [swap2, hi, hj]
  · simp [swap2, List.getElem?_set, Ne.symm h1, Ne.symm h2]

theorem swapped_iff {t t' : List ℕ} : Swapped t t' ↔ ∃ i j, i < j ∧ j < t.length ∧ t' = swap2 t i j := by
  constructor
  · rintro ⟨h1, i, j, hij, hj, e1, e2, e3⟩
    refine ⟨i, j, hij, hj, List.ext_getElem? fun k => ?_⟩
    obtain ⟨-, i', j', -⟩ := swap2_swapped hij hj
    have hi : i < t.length := by omega
    by_cases hki : k = i
    · subst hki
      rw [e1]; simp [swap2, List.getElem?_set, hi, hj, show j ≠ k by omega]
    · by_cases hkj : k = j
      · subst hkj
        rw [e2]; simp [swap2, hi, hj]
      · rw [e3 k hki hkj]; simp [swap2, List.getElem?_set, Ne.symm hki, Ne.symm hkj]
  · rintro ⟨i, j, hij, hj, rfl⟩; exact swap2_swapped hij hj

theorem rotated_iff {t t' : List ℕ} : Rotated3 t t' ↔ ∃ i j k, i < j ∧ j < k ∧ k < t.length ∧ t' = swap3 t i j k := by
  have key : ∀ i j k, i < j → j < k → k < t.length → (swap3 t i j k)[i]? = t[k]? ∧ (swap3 t i j k)[j]? = t[i]? ∧
      (swap3 t i j k)[k]? = t[j]? ∧ ∀ x, x ≠ i → x ≠ j → x ≠ k → (swap3 t i j k)[x]? = t[x]? := by
    intro i j k hij hjk hk
    have hi : i < t.length := by omega
    have hj : j < t.length := by omega
    refine ⟨?_, ?_, ?_, fun x h1 h2 h3 => ?_⟩
    · simp [swap3, List.getElem?_set, hi, hj, hk, show k ≠ i by omega, show j ≠ i by omega]
    · simp [swap3, List.getElem?_set, hi, hj, hk, show k ≠ j by omega]
    · simp [swap3, hj, hk]
    · simp [swap3, List.getElem?_set, Ne.symm h1, Ne.symm h2, Ne.symm h3]
  constructor
  · rintro ⟨h1, i, j, k, hij, hjk, hk, e1, e2, e3, e4⟩
    obtain ⟨f1, f2, f3, f4⟩ := key i j k hij hjk hk
    refine ⟨i, j, k, hij, hjk, hk, List.ext_getElem? fun x => ?_⟩
    by_cases hxi : x = i
    · rw [hxi, e1, f1]
    · by_cases hxj : x = j
      · rw [hxj, e2, f2]
      · by_cases hxk : x = k
        · rw [hxk, e3, f3]
        · rw [e4 x hxi hxj hxk, f4 x hxi hxj hxk]
  · rintro ⟨i, j, k, hij, hjk, hk, rfl⟩
    exact ⟨by simp [swap3], i, j, k, hij, hjk, hk, key i j k hij hjk hk⟩

theorem swap2_perm {t : List ℕ} {i j : ℕ} (hi : i < t.length) (hj : j < t.length) : (swap2 t i j).Perm t := by
  have := List.set_set_perm hi hj (as := t)
  simpa [swap2, hi, hj] using this

theorem swapped_perm {t t' : List ℕ} (h : Swapped t t') : t'.Perm t := by
  obtain ⟨i, j, h1, h2, rfl⟩ := swapped_iff.mp h
  exact swap2_perm (by omega) h2

theorem rotated_perm {t t' : List ℕ} (h : Rotated3 t t') : t'.Perm t := by
  obtain ⟨i, j, k, hij, hjk, hk, rfl⟩ := rotated_iff.mp h
  have hi : i < t.length := by omega
  have hj : j < t.length := by omega
  have : swap3 t i j k = swap2 (swap2 t i j) i k := by
    refine List.ext_getElem? fun x => ?_
    simp only [swap3, swap2, List.getElem?_set, List.length_set, List.getD_eq_getElem?_getD]
    split_ifs <;> first | rfl | omega | simp_all
  rw [this]
  exact (swap2_perm (by simpa [swap2] using hi) (by simpa [swap2] using hk)).trans (swap2_perm hi hj)

theorem kOpt_two {t : List ℕ} (h : 4 ≤ t.length) : ∃ l, kOptPaths t false = some l ∧ l ≠ [] ∧ ∀ c, c ∈ l ↔ Swapped t c := by
  refine ⟨(pairsBelow t.length).map (fun p => swap2 t p.1 p.2), ?_, ?_, fun c => ?_⟩
  · unfold kOptPaths
    rw [if_neg (by decide), if_neg (by omega)]
    exact mapM_some fun p hp => by
      obtain ⟨h1, h2⟩ := mem_pairsBelow.mp (show (p.1, p.2) ∈ _ from hp)
      exact assign_two (by omega) h2
  · have := (mem_pairsBelow (n := t.length) (i := 0) (j := 1)).mpr ⟨by omega, by omega⟩
    intro h0
    rw [List.map_eq_nil_iff.mp h0] at this
    simp at this
  · rw [swapped_iff, List.mem_map]
    constructor
    · rintro ⟨p, hp, rfl⟩
      obtain ⟨h1, h2⟩ := mem_pairsBelow.mp (show (p.1, p.2) ∈ _ from hp)
      exact ⟨p.1, p.2, h1, h2, rfl⟩
    · rintro ⟨i, j, h1, h2, rfl⟩
      exact ⟨(i, j), mem_pairsBelow.mpr ⟨h1, h2⟩, rfl⟩

theorem kOpt_three {t : List ℕ} (h : 5 ≤ t.length) : ∃ l, kOptPaths t true = some l ∧ l ≠ [] ∧ ∀ c, c ∈ l ↔ Rotated3 t c := by
  refine ⟨(triplesBelow t.length).map (fun p => swap3 t p.1 p.2.1 p.2.2), ?_, ?_, fun c => ?_⟩
  · unfold kOptPaths
    rw [if_pos rfl, if_neg (by omega)]
    exact mapM_some fun p hp => by
      obtain ⟨h1, h2, h3⟩ := mem_triplesBelow.mp (show (p.1, p.2.1, p.2.2) ∈ _ from hp)
      exact assign_three h1 h2 h3
  · have := (mem_triplesBelow (n := t.length) (i := 0) (j := 1) (k := 2)).mpr ⟨by omega, by omega, by omega⟩
    intro h0
    rw [List.map_eq_nil_iff.mp h0] at this
    simp at this
  · rw [rotated_iff, List.mem_map]
    constructor
    · rintro ⟨p, hp, rfl⟩
      obtain ⟨h1, h2, h3⟩ := mem_triplesBelow.mp (show (p.1, p.2.1, p.2.2) ∈ _ from hp)
      exact ⟨p.1, p.2.1, p.2.2, h1, h2, h3, rfl⟩
    · rintro ⟨i, j, k, h1, h2, h3, rfl⟩
      exact ⟨(i, j, k), mem_triplesBelow.mpr ⟨h1, h2, h3⟩, rfl⟩

/-- Choosing the cheapest candidate. -/
theorem chooseLoop {py : TspPy} {C : ℕ → ℕ → ℚ} : ∀ (l : List (List ℕ)), (∀ c ∈ l, tourCost py c = some (fin (tourLength C c))) →
    ∀ t, ∃ t', loopList l (fun c s => do
        let x ← tourCost py c
        some (if lt x s.2 then (c, x) else s)) (t, fin (tourLength C t)) = some (t', fin (tourLength C t')) ∧ (t' = t ∨ t' ∈ l) ∧
      tourLength C t' ≤ tourLength C t ∧ ∀ c ∈ l, tourLength C t' ≤ tourLength C c
  | [], _, t => ⟨t, rfl, .inl rfl, le_refl _, by simp⟩
  | a :: l, h, t => by
    simp only [loopList, h a (by simp), Option.bind_eq_bind, Option.bind_some, lt_fin, decide_eq_true_eq]
    by_cases hlt : tourLength C a < tourLength C t
    · obtain ⟨t', e1, e2, e3, e4⟩ := chooseLoop l (fun c hc => h c (by simp [hc])) a
      rw [if_pos hlt]
      refine ⟨t', by simpa using e1, .inr (by simpa using e2), e3.trans hlt.le, fun c hc => ?_⟩
      rcases List.mem_cons.mp hc with rfl | hc
      · exact e3
      · exact e4 c hc
    · obtain ⟨t', e1, e2, e3, e4⟩ := chooseLoop l (fun c hc => h c (by simp [hc])) t
      rw [if_neg hlt]
      refine ⟨t', by simpa using e1, by simp only [List.mem_cons]; tauto, e3, fun c hc => ?_⟩
      rcases List.mem_cons.mp hc with rfl | hc
      · exact e3.trans (not_lt.mp hlt)
      · exact e4 c hc

theorem head?_bind_some {α β : Type} {l : List α} (h : l ≠ []) (x : Option β) : (l.head?).bind (fun _ => x) = x := by
  rcases l with _ | ⟨a, l⟩
  · exact absurd rfl h
  · rfl

theorem visits_cost {py : TspPy} {n : ℕ} {C : ℕ → ℕ → ℚ} (hE : AllEdges n py.edges)
    (hc : py.costs = py.edges.map (fun e => fin (C e.1 e.2))) {t : List ℕ} (ht : Visits n t) (hn : 2 ≤ n) :
    tourCost py t = some (fin (tourLength C t)) :=
  tourCost_spec hE.1 hc (cyc_edges hE.2.2 (ht.nodup_iff.mpr List.nodup_range) (fun v hv => List.mem_range.mp (ht.mem_iff.mp hv))
    (by rw [ht.length_eq, List.length_range]; exact hn))

theorem performKOpt_spec {py : TspPy} {n : ℕ} {C : ℕ → ℕ → ℚ} (hE : AllEdges n py.edges)
    (hc : py.costs = py.edges.map (fun e => fin (C e.1 e.2))) {t : List ℕ} (ht : Visits n t) (hn : 5 ≤ n) :
    ∃ t1 t2, performKOpt py t (fin (tourLength C t)) = some (t2, fin (tourLength C t2)) ∧ BestOf C Rotated3 t t1 ∧ BestOf C Swapped t1 t2 := by
  have hl : t.length = n := by rw [ht.length_eq, List.length_range]
  obtain ⟨l3, a1, a2, a3⟩ := kOpt_three (t := t) (by omega)
  obtain ⟨t1, b1, b2, b3, b4⟩ := chooseLoop (py := py) (C := C) l3
    (fun c hc' => visits_cost hE hc ((rotated_perm ((a3 c).mp hc')).trans ht) (by omega)) t
  have h1 : BestOf C Rotated3 t t1 := ⟨b2.imp id (a3 t1).mp, b3, fun s hs => b4 s ((a3 s).mpr hs)⟩
  have ht1 : Visits n t1 := by
    rcases h1.1 with rfl | h
    · exact ht
    · exact (rotated_perm h).trans ht
  have hl1 : t1.length = n := by rw [ht1.length_eq, List.length_range]
  obtain ⟨l2, c1, c2, c3⟩ := kOpt_two (t := t1) (by omega)
  obtain ⟨t2, d1, d2, d3, d4⟩ := chooseLoop (py := py) (C := C) l2
    (fun c hc' => visits_cost hE hc ((swapped_perm ((c3 c).mp hc')).trans ht1) (by omega)) t1
  refine ⟨t1, t2, ?_, h1, d2.imp id (c3 t2).mp, d3, fun s hs => d4 s ((c3 s).mpr hs)⟩
  unfold performKOpt
  rw [loopList]
  simp only [a1, Option.bind_eq_bind, Option.bind_some, head?_bind_some a2]
  simp only [Option.bind_eq_bind] at b1 d1
  rw [b1]
  simp only [loopList, c1, Option.bind_eq_bind, Option.bind_some, head?_bind_some c2]
  rw [d1]; rfl

theorem performKOpt_small {py : TspPy} {t : List ℕ} {c : Num} (h : t.length ≤ 4) : performKOpt py t c = none := by
  unfold performKOpt
  rw [loopList]
  have : kOptPaths t true = none := by
    unfold kOptPaths
    rw [if_pos rfl, if_pos (by omega)]
  simp [this]

end Verif.Proofs
