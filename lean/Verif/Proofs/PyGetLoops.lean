import Verif.Model.PyGetLoops
import Verif.Proofs.TspAnalysis
import Verif.Proofs.TspOrder
import Verif.Proofs.PyTspLoops

/-! The search with a shared log of visited nodes. -/

namespace Verif.Proofs
open Verif Num Spec Model

theorem pyScan_spec {g : Graph} {cur : ℕ} {vis : List ℕ} {f : ℕ → List ℕ → Option (Option (List ℕ) × List ℕ)} {f' : ℕ → Option (List ℕ)}
    {nbrs : List ℕ} (hn : ∀ v ∈ nbrs, GraphEdge g cur v)
    (h : ∀ v p log, f' v = some p → ∃ log', f v log = some (orNone p, log') ∧ ∀ z ∈ log', z ∈ log ∨ Relation.ReflTransGen (GraphEdge g) v z) {p : List ℕ}
    {log : List ℕ} (hp : firstLoop f' vis nbrs = some p) :
    ∃ log', pyScan f vis nbrs log = some (orNone p, log') ∧ ∀ z ∈ log', z ∈ log ∨ Relation.ReflTransGen (GraphEdge g) cur z := by
  induction nbrs generalizing log with
  | nil =>
    simp only [firstLoop, Option.some.injEq] at hp
    subst hp
    exact ⟨log, by simp [pyScan, orNone], fun z hz => Or.inl hz⟩
  | cons v rest ih =>
    have hrest : ∀ w ∈ rest, GraphEdge g cur w := fun w hw => hn w (List.mem_cons_of_mem _ hw)
    simp only [firstLoop] at hp
    simp only [pyScan]
    by_cases hv : v ∈ vis
    · rw [if_pos hv] at hp ⊢
      exact ih hrest hp
    · rw [if_neg hv] at hp ⊢
      cases hf : f' v with
      | none => rw [hf] at hp; cases hp
      | some q =>
        rw [hf] at hp
        obtain ⟨log1, e1, e2⟩ := h v q log hf
        rw [e1]
        simp only [Option.bind_eq_bind, Option.bind_some] at hp ⊢
        have hstep : ∀ z ∈ log1, z ∈ log ∨ Relation.ReflTransGen (GraphEdge g) cur z := fun z hz =>
          (e2 z hz).imp id (fun r => Relation.ReflTransGen.head (hn v List.mem_cons_self) r)
        cases q with
        | nil =>
          simp only [if_true] at hp
          obtain ⟨log', a1, a2⟩ := ih hrest (log := log1) hp
          refine ⟨log', by simpa [orNone] using a1, fun z hz => ?_⟩
          rcases a2 z hz with h | h
          · exact hstep z h
          · exact Or.inr h
        | cons a q =>
          simp only [reduceCtorEq, if_false, Option.some.injEq] at hp
          subst hp
          exact ⟨log1, by simp [orNone], hstep⟩

theorem pyFindLoops_spec {g : Graph} {start fuel : ℕ} : ∀ {cur vis path p} (log : List ℕ), findLoop g start fuel cur vis path = some p →
    ∃ log', pyFindLoops g start fuel cur vis path log = some (orNone p, log') ∧ ∀ z ∈ log', z ∈ log ∨ Relation.ReflTransGen (GraphEdge g) cur z := by
  induction fuel with
  | zero => intro _ _ _ _ _ h; cases h
  | succ fuel ih =>
    intro cur vis path p log h
    rw [findLoop] at h
    rw [pyFindLoops]
    have hlog : ∀ z ∈ log ++ [cur], z ∈ log ∨ Relation.ReflTransGen (GraphEdge g) cur z := by
      intro z hz
      rcases List.mem_append.mp hz with h | h
      · exact Or.inl h
      · rw [List.mem_singleton.mp h]; exact Or.inr .refl
    by_cases hc : cur = start
    · rw [if_pos hc] at h
      simp only [Option.some.injEq] at h
      subst h
      exact ⟨log ++ [cur], by simp [hc, orNone], hlog⟩
    · rw [if_neg hc] at h
      simp only [if_neg hc]
      cases hl : g.lookup cur with
      | none =>
        rw [hl] at h
        simp only [Option.some.injEq] at h
        subst h
        exact ⟨log ++ [cur], by simp [orNone], hlog⟩
      | some nbrs =>
        rw [hl] at h
        obtain ⟨log', a1, a2⟩ := pyScan_spec (g := g) (cur := cur) (log := log ++ [cur]) (fun v hv => ⟨nbrs, hl, hv⟩)
          (f := fun node log => pyFindLoops g start fuel node (cur :: vis) (path ++ [cur]) log) (fun v p log hv => ih log hv) h
        exact ⟨log', a1, fun z hz => (a2 z hz).elim (hlog z) Or.inr⟩

/-- One search of `get_loops`. -/
theorem search_edge {sel : List (ℕ × ℕ)} {s e : ℕ} (h : Joined sel s e) (log : List ℕ) : ∃ r log',
    pyFindLoops (buildGraph sel) s (2 * sel.length + 1) e [] [] log = some (r, log') ∧
    (∀ z ∈ log', z ∈ log ∨ Relation.ReflTransGen (Joined sel) s z) ∧
    (∀ l, r = some l → IsCycle (Joined sel) l ∧ s ∈ l) ∧ (Relation.ReflTransGen (Joined sel) e s → ∃ l, r = some l) := by
  have hE : GraphEdge (buildGraph sel) = Joined sel := by funext u v; exact propext graphEdge_iff
  obtain ⟨p, h1, h2⟩ := findLoop_edge h (fuel := 2 * sel.length + 1) (by omega)
  obtain ⟨log', g1, g2⟩ := pyFindLoops_spec log h1
  rw [hE] at g2
  refine ⟨_, _, g1, fun z hz => (g2 z hz).imp id (fun r => .head h r), fun l hl => ?_, fun hr => ?_⟩
  · rcases h2 with ⟨rfl, -⟩ | h2
    · simp [orNone] at hl
    · unfold orNone at hl
      split at hl
      · cases hl
      · obtain rfl := Option.some.inj hl
        exact ⟨⟨e, s, h2, h⟩, List.mem_of_getLast? h2.2.1⟩
  · rcases h2 with ⟨-, h2⟩ | h2
    · exact absurd hr h2
    · refine ⟨p, ?_⟩
      unfold orNone
      rw [if_neg (by rintro rfl; simp [IsPath] at h2)]

/-- Nothing outside of a cycle leads into it if no two edges lead to the same node. -/
theorem cycle_back {E : ℕ → ℕ → Prop} (hout : ∀ u v w, E u v → E u w → v = w) (hin : ∀ u v w, E u w → E v w → u = v) {l : List ℕ} (hl : IsCycle E l)
    {x y : ℕ} (hxy : Relation.ReflTransGen E x y) (hy : y ∈ l) : x ∈ l := by
  induction hxy using Relation.ReflTransGen.head_induction_on with
  | refl => exact hy
  | head hab _ ih =>
    obtain ⟨c, h1, h2⟩ := Relation.TransGen.tail'_iff.mp (isCycle_trans hl ih)
    rw [hin _ c _ hab h2]
    clear hab h2
    induction h1 with
    | refl => exact ih
    | tail _ hbc ih' => exact cycle_closed hout hl ih' hbc

/-- The search for a loop of the given length from `u` over `v` was made and failed. -/
def Missed (sel : List (ℕ × ℕ)) (len u v : ℕ) : Prop :=
  Relation.ReflTransGen (Joined sel) v u → ∃ l, IsCycle (Joined sel) l ∧ u ∈ l ∧ l.length ≠ len

/-- A returned loop is right. -/
def GoodRes (sel : List (ℕ × ℕ)) (len : ℕ) (r : Option (List ℕ)) : Prop := ∀ l, r = some l → l.length = len ∧ IsCycle (Joined sel) l

/-- The searches from one start node. -/
theorem loopOfLength_inv {sel : List (ℕ × ℕ)} {len u : ℕ} {ends : List ℕ} (he : ∀ e ∈ ends, Joined sel u e) {s : Option (List ℕ) × List ℕ}
    (hs : s.1 = none) : ∃ t, pyLoopOfLength (buildGraph sel) (2 * sel.length + 1) len u ends s = some t ∧ GoodRes sel len t.1 ∧
      (t.1.isSome ∨ ∀ e ∈ ends, Missed sel len u e) ∧ ∀ z ∈ t.2, z ∈ s.2 ∨ Relation.ReflTransGen (Joined sel) u z := by
  obtain ⟨t, h1, h2⟩ := loopList_inv_idx (l := ends) (s := s)
    (body := fun e s => if s.1.isSome then some s
    else do
      let r ← pyFindLoops (buildGraph sel) u (2 * sel.length + 1) e [] [] s.2
      match r.1 with
      | some l => some (if l.length = len then some l else none, r.2)
      | none => some (none, r.2))
    (fun i t => GoodRes sel len t.1 ∧ (t.1.isSome ∨ ∀ e ∈ ends.take i, Missed sel len u e) ∧
      ∀ z ∈ t.2, z ∈ s.2 ∨ Relation.ReflTransGen (Joined sel) u z)
    ⟨fun l h => (by rw [hs] at h; cases h), Or.inr (by simp), fun z hz => Or.inl hz⟩ (by
      intro i hi t ht
      obtain ⟨a1, a2, a3⟩ := ht
      by_cases hS : t.1.isSome
      · exact ⟨t, by simp [hS], a1, Or.inl hS, a3⟩
      obtain ⟨r, log', b1, b2, b3, b4⟩ := search_edge (he _ (List.getElem_mem hi)) t.2
      have a2 := a2.resolve_left hS
      have hlog : ∀ z ∈ log', z ∈ s.2 ∨ Relation.ReflTransGen (Joined sel) u z := fun z hz => (b2 z hz).elim (a3 z) Or.inr
      have hext : Missed sel len u ends[i] → ∀ e ∈ ends.take (i + 1), Missed sel len u e := by
        intro hm e h
        rw [List.take_add_one, List.getElem?_eq_getElem hi] at h
        rcases List.mem_append.mp h with h | h
        · exact a2 e h
        · rw [show e = ends[i] by simpa using h]; exact hm
      beta_reduce
      rw [if_neg hS, b1]
      cases r with
      | none =>
        exact ⟨_, rfl, fun l h => (by cases h), Or.inr (hext (fun hr => by obtain ⟨l, hl⟩ := b4 hr; cases hl)), hlog⟩
      | some l =>
        obtain ⟨c1, c2⟩ := b3 l rfl
        refine ⟨_, rfl, ?_, ?_, hlog⟩
        · intro l' h
          dsimp only at h
          split at h
          · next hl => obtain rfl := Option.some.inj h; exact ⟨hl, c1⟩
          · cases h
        · by_cases hl : l.length = len
          · left; simp [hl]
          · right; exact hext (fun _ => ⟨l, c1, c2, hl⟩))
  exact ⟨t, h1, h2.1, by simpa using h2.2.1, h2.2.2⟩

/-- Invariant of `get_loops`.  `Q` is a set of nodes that nothing outside leads into.  If nothing was returned and some edge starts in `Q`, then the
searches from some node in `Q` were made. -/
theorem getLoops_inv (sel : List (ℕ × ℕ)) (len : ℕ) (Q : ℕ → Prop) (hQ : ∀ x y, Q y → Relation.ReflTransGen (Joined sel) x y → Q x) :
    ∃ r, pyGetLoops sel len = some r ∧ GoodRes sel len r ∧
    (¬ r.isSome → (∃ u v, Joined sel u v ∧ Q u) → ∃ u v, Joined sel u v ∧ Q u ∧ Missed sel len u v) := by
  have hn := buildGraph_keys_nodup sel
  have hJ : ∀ kv ∈ buildGraph sel, ∀ e ∈ kv.2, Joined sel kv.1 e := fun kv hkv e he =>
    graphEdge_iff.mp ⟨kv.2, lookup_of_mem hn hkv, he⟩
  obtain ⟨t, h1, h2⟩ := loopList_inv_idx (l := buildGraph sel) (s := ((none : Option (List ℕ)), ([] : List ℕ)))
    (body := fun kv s => if s.1.isSome ∨ kv.1 ∈ s.2 then some s
      else pyLoopOfLength (buildGraph sel) (2 * sel.length + 1) len kv.1 kv.2 s)
    (fun i t => GoodRes sel len t.1 ∧ (t.1.isSome ∨ (∃ u v, Joined sel u v ∧ Q u ∧ Missed sel len u v) ∨
      (∀ kv ∈ (buildGraph sel).take i, ¬ Q kv.1) ∧ ∀ z ∈ t.2, ¬ Q z))
    ⟨fun l h => (by cases h), Or.inr (Or.inr (by simp))⟩ (by
      intro i hi t ht
      obtain ⟨a1, a2⟩ := ht
      have hm := List.getElem_mem hi
      set kv := (buildGraph sel)[i] with hkv
      have hext : (∀ kv ∈ (buildGraph sel).take i, ¬ Q kv.1) → ¬ Q kv.1 → ∀ kv ∈ (buildGraph sel).take (i + 1), ¬ Q kv.1 := by
        intro ha hb e h
        rw [List.take_add_one, List.getElem?_eq_getElem hi] at h
        rcases List.mem_append.mp h with h | h
        · exact ha e h
        · rw [show e = kv by simpa using h]; exact hb
      beta_reduce
      by_cases hS : t.1.isSome ∨ kv.1 ∈ t.2
      · refine ⟨t, by rw [if_pos hS], a1, ?_⟩
        rcases a2 with a2 | a2 | ⟨a2, a3⟩
        · exact Or.inl a2
        · exact Or.inr (Or.inl a2)
        · rcases hS with hS | hS
          · exact Or.inl hS
          · exact Or.inr (Or.inr ⟨hext a2 (a3 _ hS), a3⟩)
      · rw [if_neg hS]
        push Not at hS
        obtain ⟨t', b1, b2, b3, b4⟩ := loopOfLength_inv (len := len) (hJ kv hm) (s := t) (by simpa using hS.1)
        refine ⟨t', b1, b2, ?_⟩
        rcases a2 with a2 | a2 | ⟨a2, a3⟩
        · exact absurd a2 hS.1
        · exact Or.inr (Or.inl a2)
        · by_cases hq : Q kv.1
          · rcases b3 with b3 | b3
            · exact Or.inl b3
            · obtain ⟨v, hv⟩ := mem_keys.mp (List.mem_map_of_mem (f := Prod.fst) hm)
              obtain ⟨l, c1, c2⟩ := graphEdge_iff.mpr hv
              rw [lookup_of_mem hn hm] at c1
              obtain rfl := Option.some.inj c1
              exact Or.inr (Or.inl ⟨_, v, hv, hq, b3 v c2⟩)
          · refine Or.inr (Or.inr ⟨hext a2 hq, fun z hz hz' => ?_⟩)
            rcases b4 z hz with h | h
            · exact a3 z h hz'
            · exact hq (hQ _ _ hz' h))
  refine ⟨t.1, by unfold pyGetLoops; dsimp only; rw [h1]; rfl, h2.1, fun hS hk => ?_⟩
  rcases h2.2 with h | h | ⟨h, -⟩
  · exact absurd h hS
  · exact h
  · obtain ⟨u, v, huv, hu⟩ := hk
    obtain ⟨kv, hkv, rfl⟩ := List.mem_map.mp (mem_keys.mpr ⟨v, huv⟩)
    exact absurd hu (h kv (by simpa using hkv))

end Verif.Proofs
