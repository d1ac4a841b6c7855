import Verif.Proofs.Loops

/-! # The list of loops and the removal of duplicates -/

namespace Verif.Proofs
open Verif Num Spec Model

theorem firstLoop_mono {f f' : ℕ → Option (List ℕ)} (h : ∀ v p, f v = some p → f' v = some p) {vis nbrs p : List ℕ}
    (hp : firstLoop f vis nbrs = some p) : firstLoop f' vis nbrs = some p := by
  induction nbrs with
  | nil => exact hp
  | cons v rest ih =>
    simp only [firstLoop] at hp ⊢
    by_cases hv : v ∈ vis
    · rw [if_pos hv] at hp ⊢; exact ih hp
    · rw [if_neg hv] at hp ⊢
      cases hf : f v with
      | none => rw [hf] at hp; simp at hp
      | some q =>
        rw [hf] at hp
        rw [h v q hf]
        simp only [Option.bind_eq_bind, Option.bind_some] at hp ⊢
        by_cases hq : q = []
        · rw [if_pos hq] at hp ⊢; exact ih hp
        · rw [if_neg hq] at hp ⊢; exact hp

/-- More depth does not change a finished search. -/
theorem findLoop_mono {g : Graph} {start : ℕ} {fuel : ℕ} : ∀ {cur : ℕ} {vis path p : List ℕ},
    findLoop g start fuel cur vis path = some p → findLoop g start (fuel + 1) cur vis path = some p := by
  induction fuel with
  | zero => intro _ _ _ _ h; simp [findLoop] at h
  | succ fuel ih =>
    intro cur vis path p h
    rw [findLoop] at h ⊢
    by_cases hc : cur = start
    · rw [if_pos hc] at h ⊢; exact h
    · rw [if_neg hc] at h ⊢
      cases hl : g.lookup cur with
      | none => rw [hl] at h; simpa using h
      | some nbrs =>
        rw [hl] at h
        exact firstLoop_mono (fun v q hv => ih hv) h

theorem findLoop_mono_le {g : Graph} {start fuel fuel' : ℕ} (hle : fuel ≤ fuel') {cur : ℕ} {vis path p : List ℕ}
    (h : findLoop g start fuel cur vis path = some p) : findLoop g start fuel' cur vis path = some p := by
  induction hle with
  | refl => exact h
  | step _ ih => exact findLoop_mono ih

/-- The search from edge `(s, e)`. -/
theorem findLoop_edge {sel : List (ℕ × ℕ)} {s e : ℕ} (h : Joined sel s e) {fuel : ℕ} (hf : sel.length ≤ fuel) :
    ∃ p, findLoop (buildGraph sel) s fuel e [] [] = some p ∧
      ((p = [] ∧ ¬ Relation.ReflTransGen (Joined sel) e s) ∨ IsPath (Joined sel) p e s) := by
  have hE : GraphEdge (buildGraph sel) = Joined sel := by funext u v; exact propext graphEdge_iff
  obtain ⟨p, h1, h2⟩ := findLoop_spec (g := buildGraph sel) (start := s) (N := (sel.map Prod.snd).toFinset)
    (fun u v huv => by
      rw [hE] at huv
      exact List.mem_toFinset.mpr (List.mem_map.mpr ⟨(u, v), huv, rfl⟩)) fuel e [] []
    (List.mem_toFinset.mpr (List.mem_map.mpr ⟨(s, e), h, rfl⟩)) (by simp)
    (by
      have := List.toFinset_card_le (sel.map Prod.snd)
      rw [List.length_map] at this
      simp only [List.toFinset_nil, Finset.sdiff_empty]
      omega)
  rw [hE] at h2
  refine ⟨p, h1, ?_⟩
  rcases h2 with ⟨rfl, hno⟩ | ⟨-, q, rfl, hq, -⟩
  · refine Or.inl ⟨rfl, fun hr => ?_⟩
    obtain ⟨q, hq⟩ := exists_path_of_walk hr
    exact hno ⟨q, hq, by simp⟩
  · exact Or.inr (by simpa using hq)

theorem loopsFrom_spec {g : Graph} {fuel s : ℕ} {F : ℕ → List ℕ} {ends : List ℕ}
    (h : ∀ e ∈ ends, findLoop g s fuel e [] [] = some (F e)) (loops : List (List ℕ)) :
    loopsFrom g fuel s ends loops = some (loops ++ (ends.map F).filter (fun l => l ≠ [])) := by
  unfold loopsFrom
  induction ends generalizing loops with
  | nil => simp [loopList]
  | cons e ends ih =>
    have ih := fun loops => ih (fun e he => h e (List.mem_cons_of_mem _ he)) loops
    simp only [Option.bind_eq_bind] at ih
    rw [loopList, h e List.mem_cons_self]
    by_cases hF : F e = []
    · simp only [Option.bind_eq_bind, Option.bind_some, if_pos hF]
      rw [ih]; simp [hF]
    · simp only [Option.bind_eq_bind, Option.bind_some, if_neg hF]
      rw [ih]; simp [hF]

theorem allLoops_eq {g : Graph} {fuel : ℕ} {F : ℕ → ℕ → List ℕ} {ends : ℕ → List ℕ} {order : List ℕ}
    (h : ∀ s ∈ order, g.lookup s = some (ends s) ∧ ∀ e ∈ ends s, findLoop g s fuel e [] [] = some (F s e)) :
    allLoops g fuel order = some (order.flatMap (fun s => ((ends s).map (F s)).filter (fun l => l ≠ []))) := by
  unfold allLoops
  suffices hs : ∀ acc, loopList order (fun start loops => do
      let ends ← g.lookup start
      loopsFrom g fuel start ends loops) acc = some (acc ++ order.flatMap (fun s => ((ends s).map (F s)).filter (fun l => l ≠ []))) by
    simpa using hs []
  induction order with
  | nil => intro acc; simp [loopList]
  | cons s order ih =>
    intro acc
    obtain ⟨h1, h2⟩ := h s List.mem_cons_self
    rw [loopList, h1]
    simp only [Option.bind_eq_bind, Option.bind_some, loopsFrom_spec h2]
    have := ih (fun s hs => h s (List.mem_cons_of_mem _ hs)) (acc ++ ((ends s).map (F s)).filter (fun l => l ≠ []))
    simp only [Option.bind_eq_bind] at this
    rw [this]; simp

/-- All loops found: one per selected edge that closes a walk. -/
theorem allLoops_spec {sel : List (ℕ × ℕ)} {order : List ℕ} (ho : order.Perm ((buildGraph sel).map Prod.fst)) {fuel : ℕ}
    (hf : sel.length ≤ fuel) :
    ∃ loops, allLoops (buildGraph sel) fuel order = some loops ∧
      (∀ l ∈ loops, ∃ s e, Joined sel s e ∧ IsPath (Joined sel) l e s) ∧
      ∀ s e, Joined sel s e → Relation.ReflTransGen (Joined sel) e s → ∃ l ∈ loops, IsPath (Joined sel) l e s := by
  have hE : ∀ {u v}, GraphEdge (buildGraph sel) u v ↔ Joined sel u v := graphEdge_iff
  have hfind : ∀ s e, Joined sel s e → ∃ p, findLoop (buildGraph sel) s fuel e [] [] = some p ∧
      ((p = [] ∧ ¬ Relation.ReflTransGen (Joined sel) e s) ∨ IsPath (Joined sel) p e s) := fun s e h => findLoop_edge h hf
  let F : ℕ → ℕ → List ℕ := fun s e => (findLoop (buildGraph sel) s fuel e [] []).getD []
  let ends : ℕ → List ℕ := fun s => ((buildGraph sel).lookup s).getD []
  have hends : ∀ s e, e ∈ ends s ↔ Joined sel s e := by
    intro s e
    rw [← hE]
    simp only [ends, GraphEdge]
    cases (buildGraph sel).lookup s <;> simp
  have hF : ∀ s e, Joined sel s e → findLoop (buildGraph sel) s fuel e [] [] = some (F s e) ∧
      ((F s e = [] ∧ ¬ Relation.ReflTransGen (Joined sel) e s) ∨ IsPath (Joined sel) (F s e) e s) := by
    intro s e h
    obtain ⟨p, h1, h2⟩ := hfind s e h
    have : F s e = p := by simp [F, h1]
    rw [this]; exact ⟨h1, h2⟩
  have hall := allLoops_eq (g := buildGraph sel) (fuel := fuel) (F := F) (ends := ends) (order := order) (fun s hs => by
    obtain ⟨l, hl⟩ := keys_iff.mp (ho.mem_iff.mp hs)
    refine ⟨by simp [ends, hl], fun e he => (hF s e ((hends s e).mp he)).1⟩)
  refine ⟨_, hall, ?_, ?_⟩
  · intro l hl
    obtain ⟨s, hs, hl⟩ := List.mem_flatMap.mp hl
    obtain ⟨hl, hne⟩ := List.mem_filter.mp hl
    obtain ⟨e, he, rfl⟩ := List.mem_map.mp hl
    have hJ := (hends s e).mp he
    refine ⟨s, e, hJ, ?_⟩
    rcases (hF s e hJ).2 with ⟨h0, -⟩ | h
    · simp [h0] at hne
    · exact h
  · intro s e hJ hr
    rcases (hF s e hJ).2 with ⟨-, h0⟩ | h
    · exact absurd hr h0
    · refine ⟨F s e, List.mem_flatMap.mpr ⟨s, ho.mem_iff.mpr (mem_keys.mpr ⟨e, hJ⟩), List.mem_filter.mpr
        ⟨List.mem_map.mpr ⟨e, (hends s e).mpr hJ, rfl⟩, by simpa using h.ne_nil⟩⟩, h⟩

/-! ## Duplicates -/

/-- Loop `j` is dropped because of loop `i`. -/
def Covers (loops : List (List ℕ)) (i j : ℕ) : Prop :=
  ¬ (loops.getD i [] ++ loops.getD i []).length < (loops.getD j []).length ∧
    isSubsequence (loops.getD i [] ++ loops.getD i []) (loops.getD j []) = true

theorem mem_markDuplicates {loops : List (List ℕ)} (hne : ∀ j < loops.length, loops.getD j [] ≠ []) {i : ℕ} {rm : List ℕ} {j : ℕ} :
    j ∈ markDuplicates loops i rm ↔ j ∈ rm ∨ (i < j ∧ j < loops.length ∧ Covers loops i j) := by
  unfold markDuplicates
  simp only
  suffices hs : ∀ (l rm : List ℕ), (∀ k ∈ l, k < loops.length) →
      (j ∈ l.foldl (fun rm j =>
        if (loops.getD i [] ++ loops.getD i []).length < (loops.getD j []).length then
          (if loops.getD j [] = [] then rm ++ [j] else rm)
        else if isSubsequence (loops.getD i [] ++ loops.getD i []) (loops.getD j []) = true then
          (if loops.getD j [] = [] then rm ++ [j] else rm) ++ [j] else (if loops.getD j [] = [] then rm ++ [j] else rm)) rm ↔
        j ∈ rm ∨ (j ∈ l ∧ Covers loops i j)) by
    rw [hs _ rm (by intro k hk; rw [List.mem_range'_1] at hk; omega), List.mem_range'_1]
    constructor
    · rintro (h | ⟨h1, h2⟩)
      · exact Or.inl h
      · exact Or.inr ⟨by omega, by omega, h2⟩
    · rintro (h | ⟨h1, h2, h3⟩)
      · exact Or.inl h
      · exact Or.inr ⟨by omega, h3⟩
  intro l
  induction l with
  | nil => intro rm _; simp
  | cons k l ih =>
    intro rm hk
    rw [List.foldl_cons, ih _ (fun x hx => hk x (List.mem_cons_of_mem _ hx)), if_neg (hne k (hk k List.mem_cons_self))]
    by_cases h1 : (loops.getD i [] ++ loops.getD i []).length < (loops.getD k []).length
    · rw [if_pos h1]
      constructor
      · rintro (h | ⟨h, h'⟩)
        · exact Or.inl h
        · exact Or.inr ⟨List.mem_cons_of_mem _ h, h'⟩
      · rintro (h | ⟨h, h'⟩)
        · exact Or.inl h
        · rcases List.mem_cons.mp h with rfl | h
          · exact absurd h1 h'.1
          · exact Or.inr ⟨h, h'⟩
    · rw [if_neg h1]
      by_cases h2 : isSubsequence (loops.getD i [] ++ loops.getD i []) (loops.getD k []) = true
      · rw [if_pos h2, List.mem_append, List.mem_singleton]
        constructor
        · rintro ((h | rfl) | ⟨h, h'⟩)
          · exact Or.inl h
          · exact Or.inr ⟨List.mem_cons_self, h1, h2⟩
          · exact Or.inr ⟨List.mem_cons_of_mem _ h, h'⟩
        · rintro (h | ⟨h, h'⟩)
          · exact Or.inl (Or.inl h)
          · rcases List.mem_cons.mp h with rfl | h
            · exact Or.inl (Or.inr rfl)
            · exact Or.inr ⟨h, h'⟩
      · rw [if_neg h2]
        constructor
        · rintro (h | ⟨h, h'⟩)
          · exact Or.inl h
          · exact Or.inr ⟨List.mem_cons_of_mem _ h, h'⟩
        · rintro (h | ⟨h, h'⟩)
          · exact Or.inl h
          · rcases List.mem_cons.mp h with rfl | h
            · exact absurd h'.2 h2
            · exact Or.inr ⟨h, h'⟩

/-- A loop is removed exactly if an earlier loop that stays covers it. -/
theorem mem_toRemove {loops : List (List ℕ)} (hne : ∀ j < loops.length, loops.getD j [] ≠ []) {j : ℕ} :
    j ∈ toRemove loops ↔ j < loops.length ∧ ∃ i < j, i ∉ toRemove loops ∧ Covers loops i j := by
  let step : List ℕ → ℕ → List ℕ := fun rm i =>
    if loops.getD i [] = [] then rm ++ [i] else if i ∈ rm then rm else markDuplicates loops i rm
  have key : ∀ k ≤ loops.length, ∀ j, j ∈ (List.range k).foldl step [] ↔
      j < loops.length ∧ ∃ i < k, i < j ∧ i ∉ (List.range k).foldl step [] ∧ Covers loops i j := by
    intro k
    induction k with
    | zero => intro _ j; simp
    | succ k ih =>
      intro hk j
      have ih := ih (by omega)
      set rm := (List.range k).foldl step [] with hrm
      have hstep : (List.range (k + 1)).foldl step [] = if k ∈ rm then rm else markDuplicates loops k rm := by
        rw [List.range_succ, List.foldl_append, ← hrm]
        simp only [List.foldl_cons, List.foldl_nil, step, if_neg (hne k (by omega))]
      rw [hstep]
      by_cases hkr : k ∈ rm
      · rw [if_pos hkr, ih]
        constructor
        · rintro ⟨h1, i, h2, h3, h4⟩; exact ⟨h1, i, by omega, h3, h4⟩
        · rintro ⟨h1, i, h2, h3, h4, h5⟩
          have : i ≠ k := by rintro rfl; exact h4 hkr
          exact ⟨h1, i, by omega, h3, h4, h5⟩
      · rw [if_neg hkr]
        have hmem : ∀ x, x ∈ markDuplicates loops k rm ↔ x ∈ rm ∨ (k < x ∧ x < loops.length ∧ Covers loops k x) :=
          fun x => mem_markDuplicates hne
        rw [hmem]
        constructor
        · rintro (h | ⟨h1, h2, h3⟩)
          · obtain ⟨h1, i, h2, h3, h4, h5⟩ := (ih j).mp h
            refine ⟨h1, i, by omega, h3, ?_, h5⟩
            rw [hmem]; rintro (h | ⟨h, -⟩)
            · exact h4 h
            · omega
          · refine ⟨h2, k, by omega, h1, ?_, h3⟩
            rw [hmem]; rintro (h | ⟨h, -⟩)
            · exact hkr h
            · omega
        · rintro ⟨h1, i, h2, h3, h4, h5⟩
          rw [hmem, not_or] at h4
          by_cases hik : i = k
          · subst hik; exact Or.inr ⟨h3, h1, h5⟩
          · exact Or.inl ((ih j).mpr ⟨h1, i, by omega, h3, h4.1, h5⟩)
  have := key loops.length le_rfl j
  change j ∈ toRemove loops ↔ _ at this
  rw [this]
  constructor
  · rintro ⟨h1, i, -, h3, h4⟩; exact ⟨h1, i, h3, h4⟩
  · rintro ⟨h1, i, h3, h4⟩; exact ⟨h1, i, by omega, h3, h4⟩

theorem isSubsequence_infix {a b : List ℕ} (h : isSubsequence a b = true) : b <:+: a := by
  unfold isSubsequence at h
  rw [List.any_eq_true] at h
  obtain ⟨i, -, hi⟩ := h
  have : (a.drop i).take b.length = b := by simpa using hi
  rw [← this]
  exact (List.take_prefix _ _).isInfix.trans (List.drop_suffix _ _).isInfix

theorem isSubsequence_rotate {a b : List ℕ} (h : a ~r b) (hb : b ≠ []) :
    ¬ (a ++ a).length < b.length ∧ isSubsequence (a ++ a) b = true := by
  obtain ⟨k, hk⟩ := h
  have hlen : b.length = a.length := by rw [← hk, List.length_rotate]
  have ha : a ≠ [] := by rintro rfl; simp at hk; exact hb hk
  have ha' : 0 < a.length := List.length_pos_of_ne_nil ha
  refine ⟨by rw [List.length_append]; omega, ?_⟩
  unfold isSubsequence
  rw [List.any_eq_true]
  refine ⟨k % a.length, ?_, ?_⟩
  · rw [List.mem_range, List.length_append, hlen]
    have := Nat.mod_lt k ha'
    omega
  · have hm := Nat.mod_lt k ha'
    have : b = a.drop (k % a.length) ++ a.take (k % a.length) := by
      rw [← hk, ← List.rotate_mod, List.rotate_eq_drop_append_take hm.le]
    rw [beq_iff_eq]
    rw [List.drop_append_of_le_length hm.le, hlen, List.take_append, List.take_of_length_le (by rw [List.length_drop]; omega),
      List.length_drop, this]
    congr 2
    omega

/-- What is reported after duplicates are dropped. -/
theorem dropDuplicates_spec {loops : List (List ℕ)} (hne : ∀ l ∈ loops, l ≠ []) :
    (dropDuplicates loops).Sublist loops ∧ (dropDuplicates loops = [] ↔ loops = []) ∧
      (dropDuplicates loops).Pairwise (fun a b => ¬ a ~r b) ∧ ∀ l ∈ loops, ∃ r ∈ dropDuplicates loops, l = r ∨ l <:+: r ++ r := by
  have hne' : ∀ j < loops.length, loops.getD j [] ≠ [] := by
    intro j hj
    have : loops.getD j [] = loops[j] := by simp [hj]
    rw [this]; exact hne _ (List.getElem_mem hj)
  have hrm := fun j => mem_toRemove hne' (j := j)
  have hmapsub : (List.range loops.length).map (fun i => loops.getD i []) = loops := by
    apply List.ext_getElem
    · simp
    · intro i h1 h2; simp at h1; simp [h1]
  have hmem : ∀ l, l ∈ dropDuplicates loops ↔ ∃ i < loops.length, i ∉ toRemove loops ∧ loops.getD i [] = l := by
    intro l
    simp only [dropDuplicates, List.mem_map, List.mem_filter, List.mem_range, decide_eq_true_eq]
    constructor
    · rintro ⟨i, ⟨h1, h2⟩, h3⟩; exact ⟨i, h1, h2, h3⟩
    · rintro ⟨i, h1, h2, h3⟩; exact ⟨i, ⟨h1, h2⟩, h3⟩
  refine ⟨?_, ?_, ?_, ?_⟩
  · have h := (List.filter_sublist (l := List.range loops.length) (p := fun i => decide (i ∉ toRemove loops))).map
      (fun i => loops.getD i [])
    rw [hmapsub] at h; exact h
  · constructor
    · intro h
      by_contra hl
      have h0 : 0 < loops.length := List.length_pos_of_ne_nil hl
      have : loops.getD 0 [] ∈ dropDuplicates loops := (hmem _).mpr ⟨0, h0, by
        rw [hrm]; rintro ⟨-, i, hi, -⟩; omega, rfl⟩
      rw [h] at this; simp at this
    · rintro rfl; rfl
  · unfold dropDuplicates
    rw [List.pairwise_map]
    refine (List.Pairwise.filter _ List.pairwise_lt_range).imp_of_mem ?_
    intro i j hi hj hij hr
    rw [List.mem_filter, List.mem_range] at hi hj
    have hj2 : j ∉ toRemove loops := by simpa using hj.2
    have hi2 : i ∉ toRemove loops := by simpa using hi.2
    have := isSubsequence_rotate hr (hne' j hj.1)
    exact hj2 ((hrm j).mpr ⟨hj.1, i, hij, hi2, this⟩)
  · intro l hl
    obtain ⟨j, hj, rfl⟩ := List.mem_iff_getElem.mp hl
    have e : loops.getD j [] = loops[j] := by simp [hj]
    by_cases hjr : j ∈ toRemove loops
    · obtain ⟨-, i, hi, h2, h3⟩ := (hrm j).mp hjr
      refine ⟨loops.getD i [], (hmem _).mpr ⟨i, by omega, h2, rfl⟩, Or.inr ?_⟩
      rw [← e]; exact isSubsequence_infix h3.2
    · exact ⟨loops[j], (hmem _).mpr ⟨j, hj, hjr, e⟩, Or.inl rfl⟩

end Verif.Proofs
