import Verif.Proofs.Minisat
import Verif.Proofs.KsatCall
import Verif.Spec.Repeated

/-! The tables that `read_cnf_file` builds for clauses that repeat variables. -/

namespace Verif.Proofs
open Verif Num Model Spec Properties

section
variable {n k : ℕ} {F : List (List (ℕ × ℤ))}

theorem loose_object_eq {t : KsatTables} (hF : ∀ cl ∈ t.clauses, cl.length = k) (w : ℕ → Num) : ksatObject n k t (listOf n w) =
    pythonFormula n t.clauses.length k t.used (t.conns.map (List.map Prod.fst)) (litVar t) (litSign t) w := by
  have htab : ∀ {α : Type} (f : ℕ × ℤ → α), t.clauses.map (List.map f) =
      table t.clauses.length k (fun c s => f ((t.clauses.getD c []).getD s (0, 0))) := by
    intro α f
    refine List.ext_getElem (by simp [table]) fun c h1 h3 => ?_
    have hc : c < t.clauses.length := by simpa using h1
    simp only [table, List.getElem_map, List.getElem_range]
    have hlen : t.clauses[c].length = k := hF _ (List.getElem_mem hc)
    refine List.ext_getElem (by simp [hlen]) fun s h1 h3 => ?_
    have hs : s < t.clauses[c].length := by simpa using h1
    simp [List.getD_eq_getElem?_getD, hc, hs]
  simp only [ksatObject, pythonFormula, htab]
  rfl

theorem getD_mem_of_lt {α : Type} {l : List α} {c : ℕ} {d : α} (hc : c < l.length) : l.getD c d ∈ l := by
  rw [List.getD_eq_getElem?_getD, List.getElem?_eq_getElem hc]
  exact List.getElem_mem hc

theorem flatMap_single {α : Type} {N c0 : ℕ} (hc : c0 < N) {f : ℕ → List α} (h : ∀ c < N, c ≠ c0 → f c = []) :
    (List.range N).flatMap f = f c0 := by
  induction N with
  | zero => omega
  | succ N ih =>
    rw [List.range_succ, List.flatMap_append]
    simp only [List.flatMap_cons, List.flatMap_nil, List.append_nil]
    by_cases e : c0 = N
    · subst e
      have : (List.range c0).flatMap f = [] := by
        rw [List.flatMap_eq_nil_iff]
        intro c hc'
        have := List.mem_range.mp hc'
        exact h c (by omega) (by omega)
      rw [this, List.nil_append]
    · rw [ih (by omega) (fun c hc' => h c (by omega)), h N (by omega) (fun e' => e e'.symm), List.append_nil]

theorem file_same (hk : 2 ≤ k) (hF : ∀ cl ∈ F, cl.length = k ∧ ∀ l ∈ cl, l.1 < n ∧ (l.2 = 1 ∨ l.2 = -1)) {c0 v0 : ℕ} {σ : ℤ}
    (hc0 : c0 < F.length) (hsame : F.getD c0 [] = List.replicate k (v0, σ))
    (honly : ∀ c < F.length, c ≠ c0 → ∀ l ∈ F.getD c [], l.1 ≠ v0) :
    SameLiteral n F.length k (F.flatMap (List.map Prod.fst)).dedup ((connTable n F).map (List.map Prod.fst))
      (litVar ⟨(F.flatMap (List.map Prod.fst)).dedup, F, connTable n F⟩) (litSign ⟨(F.flatMap (List.map Prod.fst)).dedup, F, connTable n F⟩) c0 v0 σ k := by
  have hm : ∀ c < F.length, F.getD c [] ∈ F := fun c hc => getD_mem_of_lt hc
  have hl : ∀ c < F.length, ∀ s < k, (F.getD c []).getD s (0, 0) ∈ F.getD c [] := fun c hc s hs =>
    getD_mem_of_lt (by rw [(hF _ (hm c hc)).1]; exact hs)
  have hrow : ∀ v < n, ((connTable n F).map (List.map Prod.fst)).getD v [] =
      ((List.range F.length).flatMap (fun c => entries (F.getD c []) v c)).map Prod.fst := by
    intro v hv
    simp [connTable, List.getD_eq_getElem?_getD, hv]
  have hv0 : v0 < n := by
    have := hl c0 hc0 0 (by omega)
    rw [hsame] at this
    have e : (List.replicate k (v0, σ)).getD 0 (0, 0) = (v0, σ) := List.eq_of_mem_replicate this
    rw [e] at this
    exact ((hF _ (hm c0 hc0)).2 (v0, σ) (by rw [hsame]; exact this)).1
  refine ⟨hk, ?_, ?_, hc0, ?_, ?_, by simp [connTable], ?_, ?_, ?_, ?_, by omega⟩
  · intro c hc s hs; exact ((hF _ (hm c hc)).2 _ (hl c hc s hs)).1
  · intro c hc s hs; exact ((hF _ (hm c hc)).2 _ (hl c hc s hs)).2
  · intro s hs
    have := hl c0 hc0 s hs
    rw [hsame] at this
    have e := List.eq_of_mem_replicate this
    simp only [litVar, litSign, hsame, e, and_self]
  · intro c hc hne s hs; exact honly c hc hne _ (hl c hc s hs)
  · intro l hl' c hc
    obtain ⟨r, hr, rfl⟩ := List.mem_map.mp hl'
    obtain ⟨v, -, rfl⟩ := List.mem_map.mp hr
    obtain ⟨p, hp, rfl⟩ := List.mem_map.mp hc
    obtain ⟨c', hc', hp⟩ := List.mem_flatMap.mp hp
    obtain ⟨l, -, rfl⟩ := List.mem_map.mp hp
    exact List.mem_range.mp hc'
  · intro v hv
    rw [List.mem_dedup] at hv
    obtain ⟨cl, hcl, hv⟩ := List.mem_flatMap.mp hv
    obtain ⟨l, hl', rfl⟩ := List.mem_map.mp hv
    exact ((hF cl hcl).2 l hl').1
  · intro v hv hne
    rw [hrow v hv] at hne
    obtain ⟨q, hq⟩ := List.exists_mem_of_ne_nil _ hne
    obtain ⟨p, hp, -⟩ := List.mem_map.mp hq
    obtain ⟨c', hc', hp⟩ := List.mem_flatMap.mp hp
    obtain ⟨l, hl', rfl⟩ := List.mem_map.mp hp
    obtain ⟨h1, h2⟩ := List.mem_filter.mp hl'
    rw [List.mem_dedup]
    exact List.mem_flatMap.mpr ⟨_, hm c' (List.mem_range.mp hc'), List.mem_map.mpr ⟨l, h1, by simpa using h2⟩⟩
  · rw [hrow v0 hv0, flatMap_single hc0]
    · rw [hsame, entries, List.map_map]
      have : (List.replicate k (v0, σ)).filter (fun l => l.1 == v0) = List.replicate k (v0, σ) := by
        rw [List.filter_eq_self]
        intro l hl'
        rw [List.eq_of_mem_replicate hl']
        simp
      rw [this, List.map_replicate]
      rfl
    · intro c hc hne
      have : (F.getD c []).filter (fun l => l.1 == v0) = [] := by
        rw [List.filter_eq_nil_iff]
        intro l hl'
        simpa using honly c hc hne l hl'
      rw [entries, this, List.map_nil]

theorem file_lone (hk : 2 ≤ k) (hF : ∀ cl ∈ F, cl.length = k ∧ ∀ l ∈ cl, l.1 < n ∧ (l.2 = 1 ∨ l.2 = -1)) {c0 : ℕ} (hc0 : c0 < F.length)
    (hsame : ∀ l ∈ F.getD c0 [], ∀ l' ∈ F.getD c0 [], l.1 = l'.1 → l.2 = l'.2)
    (honly : ∀ c < F.length, c ≠ c0 → ∀ l ∈ F.getD c [], ∀ l' ∈ F.getD c0 [], l.1 ≠ l'.1) :
    LoneClause n F.length k (F.flatMap (List.map Prod.fst)).dedup ((connTable n F).map (List.map Prod.fst))
      (litVar ⟨(F.flatMap (List.map Prod.fst)).dedup, F, connTable n F⟩) (litSign ⟨(F.flatMap (List.map Prod.fst)).dedup, F, connTable n F⟩) c0
      (fun v => (F.getD c0 []).countP (fun l => l.1 == v)) := by
  have hm : ∀ c < F.length, F.getD c [] ∈ F := fun c hc => getD_mem_of_lt hc
  have hl : ∀ c < F.length, ∀ s < k, (F.getD c []).getD s (0, 0) ∈ F.getD c [] := fun c hc s hs =>
    getD_mem_of_lt (by rw [(hF _ (hm c hc)).1]; exact hs)
  have hrow : ∀ v < n, ((connTable n F).map (List.map Prod.fst)).getD v [] =
      ((List.range F.length).flatMap (fun c => entries (F.getD c []) v c)).map Prod.fst := by
    intro v hv
    simp [connTable, List.getD_eq_getElem?_getD, hv]
  refine ⟨hk, ?_, ?_, hc0, ?_, ?_, by simp [connTable], ?_, ?_, ?_, ?_, ?_⟩
  · intro c hc s hs; exact ((hF _ (hm c hc)).2 _ (hl c hc s hs)).1
  · intro c hc s hs; exact ((hF _ (hm c hc)).2 _ (hl c hc s hs)).2
  · intro s hs t ht e; exact hsame _ (hl c0 hc0 s hs) _ (hl c0 hc0 t ht) e
  · intro c hc hne s hs t ht; exact honly c hc hne _ (hl c hc s hs) _ (hl c0 hc0 t ht)
  · intro l hl' c hc
    obtain ⟨r, hr, rfl⟩ := List.mem_map.mp hl'
    obtain ⟨v, -, rfl⟩ := List.mem_map.mp hr
    obtain ⟨p, hp, rfl⟩ := List.mem_map.mp hc
    obtain ⟨c', hc', hp⟩ := List.mem_flatMap.mp hp
    obtain ⟨l, -, rfl⟩ := List.mem_map.mp hp
    exact List.mem_range.mp hc'
  · intro v hv
    rw [List.mem_dedup] at hv
    obtain ⟨cl, hcl, hv⟩ := List.mem_flatMap.mp hv
    obtain ⟨l, hl', rfl⟩ := List.mem_map.mp hv
    exact ((hF cl hcl).2 l hl').1
  · intro v hv hne
    rw [hrow v hv] at hne
    obtain ⟨q, hq⟩ := List.exists_mem_of_ne_nil _ hne
    obtain ⟨p, hp, -⟩ := List.mem_map.mp hq
    obtain ⟨c', hc', hp⟩ := List.mem_flatMap.mp hp
    obtain ⟨l, hl', rfl⟩ := List.mem_map.mp hp
    obtain ⟨h1, h2⟩ := List.mem_filter.mp hl'
    rw [List.mem_dedup]
    exact List.mem_flatMap.mpr ⟨_, hm c' (List.mem_range.mp hc'), List.mem_map.mpr ⟨l, h1, by simpa using h2⟩⟩
  · intro s hs
    have hmem := hl c0 hc0 s hs
    show ((connTable n F).map (List.map Prod.fst)).getD ((F.getD c0 []).getD s (0, 0)).1 [] =
      List.replicate ((F.getD c0 []).countP (fun l => l.1 == ((F.getD c0 []).getD s (0, 0)).1)) c0
    rw [hrow _ ((hF _ (hm c0 hc0)).2 _ hmem).1, flatMap_single hc0]
    · rw [entries, List.map_map, List.countP_eq_length_filter]
      exact List.map_const' ..
    · intro c hc hne
      have : (F.getD c []).filter (fun l => l.1 == ((F.getD c0 []).getD s (0, 0)).1) = [] := by
        rw [List.filter_eq_nil_iff]
        intro l hl'
        simpa using honly c hc hne l hl' _ hmem
      rw [entries, this, List.map_nil]
  · intro s hs
    have hmem := hl c0 hc0 s hs
    show (F.getD c0 []).countP (fun l => l.1 == ((F.getD c0 []).getD s (0, 0)).1) ≠ 0
    intro h0
    rw [List.countP_eq_zero] at h0
    exact absurd (beq_self_eq_true _) (h0 _ hmem)

end

end Verif.Proofs
