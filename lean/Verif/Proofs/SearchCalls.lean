import Verif.Model.TspSearchCalls
import Verif.Proofs.LoopList
import Mathlib.Data.Set.Card
import Mathlib.Algebra.BigOperators.Intervals
import Mathlib.Analysis.SpecificLimits.Normed
import Mathlib.Tactic.Ring
import Mathlib.Tactic.Linarith

/-! The number of calls of the search for loops. -/

namespace Verif.Proofs
open Verif Spec Model

theorem firstLoopCalls_fst {f : ℕ → Option (List ℕ × ℕ)} {f' : ℕ → Option (List ℕ)} (h : ∀ v, (f v).map Prod.fst = f' v) (vis nbrs : List ℕ) :
    (firstLoopCalls f vis nbrs).map Prod.fst = firstLoop f' vis nbrs := by
  induction nbrs with
  | nil => rfl
  | cons v rest ih =>
    rw [firstLoopCalls, firstLoop]
    split
    · exact ih
    · rw [← h v]
      cases f v with
      | none => rfl
      | some pc =>
        obtain ⟨p, c⟩ := pc
        simp only [Option.bind_eq_bind, Option.bind_some, Option.map_some]
        split
        · rw [← ih]
          cases firstLoopCalls f vis rest <;> rfl
        · rfl

/-- The counter does not change the result. -/
theorem findLoopCalls_fst (g : Graph) (start fuel : ℕ) : ∀ cur vis path,
    (findLoopCalls g start fuel cur vis path).map Prod.fst = findLoop g start fuel cur vis path := by
  induction fuel with
  | zero => intros; rfl
  | succ fuel ih =>
    intro cur vis path
    rw [findLoopCalls, findLoop]
    split
    · rfl
    · cases g.lookup cur with
      | none => rfl
      | some nbrs =>
        simp only
        rw [← firstLoopCalls_fst (fun v => ih v (cur :: vis) (path ++ [cur])) (cur :: vis) nbrs]
        cases firstLoopCalls (fun node => findLoopCalls g start fuel node (cur :: vis) (path ++ [cur])) (cur :: vis) nbrs <;> rfl

theorem firstLoopCalls_mono {f f' : ℕ → Option (List ℕ × ℕ)} (h : ∀ v r, f v = some r → f' v = some r) {vis nbrs : List ℕ} {r : List ℕ × ℕ} :
    firstLoopCalls f vis nbrs = some r → firstLoopCalls f' vis nbrs = some r := by
  induction nbrs generalizing r with
  | nil => exact id
  | cons v rest ih =>
    rw [firstLoopCalls, firstLoopCalls]
    split
    · exact ih
    · cases hv : f v with
      | none => intro h0; cases h0
      | some pc =>
        obtain ⟨p, c⟩ := pc
        rw [h v _ hv]
        simp only [Option.bind_eq_bind, Option.bind_some]
        split
        · cases hr : firstLoopCalls f vis rest with
          | none => intro h0; cases h0
          | some qd => rw [ih hr]; exact id
        · exact id

/-- More fuel does not change the result. -/
theorem findLoopCalls_mono {g : Graph} {start fuel fuel' : ℕ} (hf : fuel ≤ fuel') : ∀ {cur vis path r},
    findLoopCalls g start fuel cur vis path = some r → findLoopCalls g start fuel' cur vis path = some r := by
  induction fuel generalizing fuel' with
  | zero => intro _ _ _ _ h; cases h
  | succ fuel ih =>
    obtain ⟨k, rfl⟩ : ∃ k, fuel' = k + 1 := ⟨fuel' - 1, by omega⟩
    intro cur vis path r
    rw [findLoopCalls, findLoopCalls]
    split
    · exact id
    · cases g.lookup cur with
      | none => exact id
      | some nbrs =>
        simp only
        cases hr : firstLoopCalls (fun node => findLoopCalls g start fuel node (cur :: vis) (path ++ [cur])) (cur :: vis) nbrs with
        | none => intro h; cases h
        | some pc => rw [firstLoopCalls_mono (fun v r h => ih (by omega) h) hr]; exact id

theorem firstLoopCalls_le {f : ℕ → Option (List ℕ × ℕ)} {M : ℕ} (h : ∀ v p c, f v = some (p, c) → c ≤ M) {vis nbrs p : List ℕ} {c : ℕ}
    (hr : firstLoopCalls f vis nbrs = some (p, c)) : c ≤ nbrs.length * M := by
  induction nbrs generalizing p c with
  | nil => cases hr; simp
  | cons v rest ih =>
    rw [firstLoopCalls] at hr
    rw [List.length_cons, Nat.add_mul, Nat.one_mul]
    split at hr
    · exact (ih hr).trans (Nat.le_add_right _ _)
    · cases hv : f v with
      | none => rw [hv] at hr; cases hr
      | some pc =>
        obtain ⟨p', c'⟩ := pc
        rw [hv] at hr
        simp only [Option.bind_eq_bind, Option.bind_some] at hr
        have h1 := h v _ _ hv
        split at hr
        · cases hq : firstLoopCalls f vis rest with
          | none => rw [hq] at hr; cases hr
          | some qd =>
            rw [hq] at hr
            simp only [Option.bind_some, Option.some.injEq, Prod.mk.injEq] at hr
            have := ih hq
            omega
        · simp only [Option.some.injEq, Prod.mk.injEq] at hr
          have := Nat.zero_le (rest.length * M)
          omega

/-- With at most `d` edges from every node and depth at most `fuel` there are at most `1 + d + … + d ^ (fuel - 1)` calls. -/
theorem findLoopCalls_le {g : Graph} {start d : ℕ} (hd : ∀ u l, g.lookup u = some l → l.length ≤ d) (fuel : ℕ) : ∀ {cur vis path p c},
    findLoopCalls g start fuel cur vis path = some (p, c) → c ≤ ∑ i ∈ Finset.range fuel, d ^ i := by
  induction fuel with
  | zero => intro _ _ _ _ _ h; cases h
  | succ fuel ih =>
    intro cur vis path p c hr
    have hs : ∑ i ∈ Finset.range (fuel + 1), d ^ i = d * (∑ i ∈ Finset.range fuel, d ^ i) + 1 := by
      rw [Finset.sum_range_succ', Finset.mul_sum, pow_zero]
      congr 1
      exact Finset.sum_congr rfl fun i _ => by rw [pow_succ, mul_comm]
    rw [hs]
    rw [findLoopCalls] at hr
    split at hr
    · simp only [Option.some.injEq, Prod.mk.injEq] at hr; omega
    · cases hl : g.lookup cur with
      | none => rw [hl] at hr; simp only [Option.some.injEq, Prod.mk.injEq] at hr; omega
      | some nbrs =>
        rw [hl] at hr
        simp only at hr
        cases hq : firstLoopCalls (fun node => findLoopCalls g start fuel node (cur :: vis) (path ++ [cur])) (cur :: vis) nbrs with
        | none => rw [hq] at hr; cases hr
        | some qd =>
          obtain ⟨q, k⟩ := qd
          rw [hq] at hr
          simp only [Option.bind_eq_bind, Option.bind_some, Option.some.injEq, Prod.mk.injEq] at hr
          have h1 := firstLoopCalls_le (fun v p c h => ih h) hq
          have h2 := Nat.mul_le_mul_right (∑ i ∈ Finset.range fuel, d ^ i) (hd _ _ hl)
          omega

theorem firstLoopCalls_const {f : ℕ → Option (List ℕ × ℕ)} {t : ℕ} {vis nbrs : List ℕ} (h : ∀ v ∈ nbrs, v ∉ vis ∧ f v = some ([], t)) :
    firstLoopCalls f vis nbrs = some ([], nbrs.length * t) := by
  induction nbrs with
  | nil => simp [firstLoopCalls]
  | cons v rest ih =>
    obtain ⟨h1, h2⟩ := h v (by simp)
    rw [firstLoopCalls, if_neg h1, h2]
    simp only [Option.bind_eq_bind, Option.bind_some, if_true]
    rw [ih fun w hw => h w (by simp [hw])]
    simp only [Option.bind_some, List.length_cons, Option.some.injEq, Prod.mk.injEq, true_and]
    ring

/-- The graph in which every node of a layer leads to both nodes of the next layer and the last layer leads nowhere. -/
theorem layers_calls {g : Graph} {start L : ℕ} (hstart : 2 * L + 1 < start)
    (hin : ∀ u, u / 2 < L → ∃ l, g.lookup u = some l ∧ l.length = 2 ∧ ∀ v ∈ l, v / 2 = u / 2 + 1)
    (hend : ∀ u, u / 2 = L → g.lookup u = none) (k : ℕ) : ∀ (u fuel : ℕ) (vis path : List ℕ), u / 2 + k = L → k < fuel →
      (∀ x ∈ vis, x / 2 < u / 2) → findLoopCalls g start fuel u vis path = some ([], 2 ^ (k + 1) - 1) := by
  induction k with
  | zero =>
    intro u fuel vis path hu hf _
    obtain ⟨m, rfl⟩ : ∃ m, fuel = m + 1 := ⟨fuel - 1, by omega⟩
    rw [findLoopCalls, if_neg (by omega), hend u (by omega)]
    rfl
  | succ k ih =>
    intro u fuel vis path hu hf hvis
    obtain ⟨m, rfl⟩ : ∃ m, fuel = m + 1 := ⟨fuel - 1, by omega⟩
    obtain ⟨l, hl, hlen, hnext⟩ := hin u (by omega)
    rw [findLoopCalls, if_neg (by omega), hl]
    simp only
    rw [firstLoopCalls_const (t := 2 ^ (k + 1) - 1) fun v hv => ?_]
    · simp only [Option.bind_eq_bind, Option.bind_some, hlen, Option.some.injEq, Prod.mk.injEq, true_and]
      have := Nat.one_le_two_pow (n := k + 1)
      rw [pow_succ 2 (k + 1)]
      omega
    · have hv' := hnext v hv
      have hlow : ∀ x ∈ u :: vis, x / 2 < v / 2 := by
        intro x hx
        rcases List.mem_cons.mp hx with rfl | hx
        · omega
        · have := hvis x hx; omega
      exact ⟨fun hm => absurd (hlow v hm) (lt_irrefl _), ih v m _ _ (by omega) (by omega) hlow⟩

/-- A polynomial is eventually below a power of two. -/
theorem exists_pow_gt (a k : ℕ) : ∃ L : ℕ, a * (4 * L + 1) ^ k + a + 1 < 2 ^ (L + 1) := by
  have h := tendsto_pow_const_div_const_pow_of_one_lt k (r := (2 : ℝ)) (by norm_num)
  have hpos : (0 : ℝ) < 1 / (a * 5 ^ k + a + 1) := by positivity
  obtain ⟨N, hN⟩ := Filter.eventually_atTop.mp (h.eventually (gt_mem_nhds hpos))
  refine ⟨N + 1, ?_⟩
  have h1 := hN (N + 1) (Nat.le_succ N)
  rw [div_lt_div_iff₀ (by positivity) (by positivity), one_mul] at h1
  have h2 : ((N + 1 : ℕ) : ℝ) ^ k * (a * 5 ^ k + a + 1) = a * (5 * (N + 1 : ℕ)) ^ k + (a + 1) * ((N + 1 : ℕ) : ℝ) ^ k := by
    rw [mul_pow]; ring
  rw [h2] at h1
  have h3 : a * (5 * (N + 1)) ^ k + (a + 1) * (N + 1) ^ k < 2 ^ (N + 1) := by exact_mod_cast h1
  have h4 : a * (4 * (N + 1) + 1) ^ k ≤ a * (5 * (N + 1)) ^ k := Nat.mul_le_mul_left _ (Nat.pow_le_pow_left (by omega) _)
  have h5 : (a + 1) * 1 ≤ (a + 1) * (N + 1) ^ k := Nat.mul_le_mul_left _ (Nat.one_le_pow _ _ (Nat.succ_pos _))
  rw [pow_succ 2 (N + 1)]
  omega

/-- The walks from `cur` without repeated nodes that avoid `vis`, up to length `fuel`. -/
def walks (g : Graph) : ℕ → ℕ → List ℕ → List (List ℕ)
  | 0, _, _ => []
  | fuel + 1, cur, vis =>
    [cur] :: (((g.lookup cur).getD []).filter (fun v => v ∉ cur :: vis)).flatMap (fun v => (walks g fuel v (cur :: vis)).map (cur :: ·))

theorem firstLoopCalls_nil {f : ℕ → Option (List ℕ × ℕ)} {W : ℕ → List (List ℕ)} {cur : ℕ} {vis nbrs : List ℕ} {c : ℕ}
    (h : ∀ v c, f v = some ([], c) → c = (W v).length) (hr : firstLoopCalls f vis nbrs = some ([], c)) :
    c = ((nbrs.filter (fun v => v ∉ vis)).flatMap (fun v => (W v).map (cur :: ·))).length := by
  induction nbrs generalizing c with
  | nil => cases hr; rfl
  | cons v rest ih =>
    rw [firstLoopCalls] at hr
    split at hr
    · rename_i hv
      rw [List.filter_cons_of_neg (by simpa using hv)]
      exact ih hr
    · rename_i hv
      rw [List.filter_cons_of_pos (by simpa using hv), List.flatMap_cons, List.length_append, List.length_map]
      cases hf : f v with
      | none => rw [hf] at hr; cases hr
      | some pc =>
        obtain ⟨p', c'⟩ := pc
        rw [hf] at hr
        simp only [Option.bind_eq_bind, Option.bind_some] at hr
        split at hr
        · rename_i hp
          subst hp
          cases hq : firstLoopCalls f vis rest with
          | none => rw [hq] at hr; cases hr
          | some qd =>
            obtain ⟨q, k⟩ := qd
            rw [hq] at hr
            simp only [Option.bind_some, Option.some.injEq, Prod.mk.injEq] at hr
            obtain ⟨rfl, rfl⟩ := hr
            rw [h v c' hf, ih hq]
        · rename_i hp
          simp only [Option.some.injEq, Prod.mk.injEq] at hr
          exact absurd hr.1 hp

/-- A search that fails calls once for every walk. -/
theorem findLoopCalls_walks {g : Graph} {start : ℕ} (fuel : ℕ) : ∀ {cur vis path c},
    findLoopCalls g start fuel cur vis path = some ([], c) → c = (walks g fuel cur vis).length := by
  induction fuel with
  | zero => intro _ _ _ _ h; cases h
  | succ fuel ih =>
    intro cur vis path c hr
    rw [findLoopCalls] at hr
    rw [walks, List.length_cons]
    split at hr
    · simp at hr
    · cases hl : g.lookup cur with
      | none => rw [hl] at hr; cases hr; rfl
      | some nbrs =>
        rw [hl] at hr
        simp only at hr
        cases hq : firstLoopCalls (fun node => findLoopCalls g start fuel node (cur :: vis) (path ++ [cur])) (cur :: vis) nbrs with
        | none => rw [hq] at hr; cases hr
        | some qd =>
          obtain ⟨q, k⟩ := qd
          rw [hq] at hr
          simp only [Option.bind_eq_bind, Option.bind_some, Option.some.injEq, Prod.mk.injEq] at hr
          obtain ⟨rfl, rfl⟩ := hr
          rw [firstLoopCalls_nil (W := fun v => walks g fuel v (cur :: vis)) (cur := cur) (fun v c h => ih h) hq]
          rfl

theorem walks_head {g : Graph} (fuel : ℕ) {cur : ℕ} {vis q : List ℕ} (h : q ∈ walks g fuel cur vis) : q.head? = some cur := by
  cases fuel with
  | zero => cases h
  | succ fuel =>
    rw [walks, List.mem_cons] at h
    rcases h with rfl | h
    · rfl
    · obtain ⟨v, -, h⟩ := List.mem_flatMap.mp h
      obtain ⟨q', -, rfl⟩ := List.mem_map.mp h
      rfl

theorem walks_nodup {g : Graph} (hg : ∀ u l, g.lookup u = some l → l.Nodup) (fuel : ℕ) : ∀ {cur vis}, (walks g fuel cur vis).Nodup := by
  induction fuel with
  | zero => intros; exact List.nodup_nil
  | succ fuel ih =>
    intro cur vis
    rw [walks, List.nodup_cons]
    constructor
    · intro h
      obtain ⟨v, -, h⟩ := List.mem_flatMap.mp h
      obtain ⟨q, hq, h⟩ := List.mem_map.mp h
      have := walks_head fuel hq
      simp only [List.cons.injEq, true_and] at h
      rw [h] at this; cases this
    · rw [List.nodup_flatMap]
      refine ⟨fun v _ => ih.map (List.cons_injective), ?_⟩
      have hn : ((g.lookup cur).getD []).Nodup := by
        cases hl : g.lookup cur with
        | none => exact List.nodup_nil
        | some l => exact hg _ _ hl
      refine (hn.filter _).imp fun {a b} hab => ?_
      intro x hx hy
      obtain ⟨q, hq, rfl⟩ := List.mem_map.mp hx
      obtain ⟨q', hq', h⟩ := List.mem_map.mp hy
      simp only [List.cons.injEq, true_and] at h
      subst h
      have h1 := walks_head fuel hq
      have h2 := walks_head fuel hq'
      rw [h1] at h2
      exact hab (Option.some.inj h2)

theorem mem_walks {g : Graph} {N : Finset ℕ} (hN : ∀ u v, GraphEdge g u v → v ∈ N) (fuel : ℕ) : ∀ (cur : ℕ) (vis q : List ℕ), cur ∈ N → cur ∉ vis →
    (N \ vis.toFinset).card ≤ fuel →
      (q ∈ walks g fuel cur vis ↔ q.head? = some cur ∧ q.IsChain (GraphEdge g) ∧ q.Nodup ∧ ∀ x ∈ q, x ∉ vis) := by
  induction fuel with
  | zero =>
    intro cur vis q h1 h2 h3
    have : cur ∈ N \ vis.toFinset := by simp [h1, h2]
    exact absurd (Finset.card_pos.mpr ⟨_, this⟩) (by omega)
  | succ fuel ih =>
    intro cur vis q h1 h2 h3
    have hcard : (N \ (cur :: vis).toFinset).card ≤ fuel := by
      have hlt : N \ (cur :: vis).toFinset ⊂ N \ vis.toFinset := by
        rw [Finset.ssubset_iff_of_subset (Finset.sdiff_subset_sdiff le_rfl (by intro x hx; simp only [List.toFinset_cons, Finset.mem_insert]; exact Or.inr hx))]
        exact ⟨cur, by simp [h1, h2], by simp⟩
      have := Finset.card_lt_card hlt
      omega
    have hedge : ∀ v, v ∈ (g.lookup cur).getD [] ↔ GraphEdge g cur v := by
      intro v
      unfold GraphEdge
      cases g.lookup cur <;> simp
    rw [walks, List.mem_cons, List.mem_flatMap]
    constructor
    · rintro (rfl | ⟨v, hv, hq⟩)
      · exact ⟨rfl, by simp, by simp, by simpa using h2⟩
      · obtain ⟨q', hq', rfl⟩ := List.mem_map.mp hq
        obtain ⟨hv1, hv2⟩ := List.mem_filter.mp hv
        have hv2 : v ∉ cur :: vis := by simpa using hv2
        have he := (hedge v).mp hv1
        obtain ⟨a1, a2, a3, a4⟩ := (ih v (cur :: vis) q' (hN _ _ he) hv2 hcard).mp hq'
        refine ⟨rfl, ?_, ?_, ?_⟩
        · cases q' with
          | nil => cases a1
          | cons y t =>
            simp only [List.head?_cons, Option.some.injEq] at a1
            subst a1
            exact List.isChain_cons_cons.mpr ⟨he, a2⟩
        · exact List.nodup_cons.mpr ⟨fun h => a4 cur h (by simp), a3⟩
        · intro x hx
          rcases List.mem_cons.mp hx with rfl | hx
          · exact h2
          · exact fun h => a4 x hx (by simp [h])
    · rintro ⟨a1, a2, a3, a4⟩
      cases q with
      | nil => cases a1
      | cons y t =>
        simp only [List.head?_cons, Option.some.injEq] at a1
        subst a1
        cases t with
        | nil => exact Or.inl rfl
        | cons v t =>
          obtain ⟨he, a2⟩ := List.isChain_cons_cons.mp a2
          obtain ⟨a5, a3⟩ := List.nodup_cons.mp a3
          have hv : v ∉ y :: vis := by
            intro h
            rcases List.mem_cons.mp h with rfl | h
            · exact a5 (by simp)
            · exact a4 v (by simp) h
          refine Or.inr ⟨v, List.mem_filter.mpr ⟨(hedge v).mpr he, by simpa using hv⟩, List.mem_map.mpr ⟨v :: t, ?_, rfl⟩⟩
          refine (ih v (y :: vis) (v :: t) (hN _ _ he) hv hcard).mpr ⟨rfl, a2, a3, fun x hx h => ?_⟩
          rcases List.mem_cons.mp h with rfl | h
          · exact a5 hx
          · exact a4 x (List.mem_cons_of_mem _ hx) h

theorem lookup_nodup {sel : List (ℕ × ℕ)} (h : sel.Nodup) (u : ℕ) (l : List ℕ) (hl : (buildGraph sel).lookup u = some l) : l.Nodup := by
  rw [lookup_buildGraph] at hl
  simp only at hl
  split at hl
  · cases hl
  · simp only [Option.some.injEq] at hl
    subst hl
    refine (List.nodup_map_iff_inj_on (h.filter _)).mpr fun x hx y hy e => ?_
    have h1 : x.1 = u := by simpa using (List.mem_filter.mp hx).2
    have h2 : y.1 = u := by simpa using (List.mem_filter.mp hy).2
    exact Prod.ext (h1.trans h2.symm) e

/-- The number of calls of a failed search that starts at an edge. -/
theorem failed_calls {sel : List (ℕ × ℕ)} (hnd : sel.Nodup) {s e c fuel : ℕ} (h : Joined sel s e) (hf : sel.length ≤ fuel)
    (hr : findLoopCalls (buildGraph sel) s fuel e [] [] = some ([], c)) :
    c = {q : List ℕ | q.head? = some e ∧ q.IsChain (Joined sel) ∧ q.Nodup}.ncard := by
  have hE : GraphEdge (buildGraph sel) = Joined sel := by funext u v; exact propext graphEdge_iff
  have hset : {q : List ℕ | q.head? = some e ∧ q.IsChain (Joined sel) ∧ q.Nodup} = ((walks (buildGraph sel) fuel e []).toFinset : Set (List ℕ)) := by
    ext q
    rw [Finset.mem_coe, List.mem_toFinset, mem_walks (N := (sel.map Prod.snd).toFinset) (fun u v huv => by
      rw [hE] at huv
      exact List.mem_toFinset.mpr (List.mem_map.mpr ⟨(u, v), huv, rfl⟩)) fuel e [] q
      (List.mem_toFinset.mpr (List.mem_map.mpr ⟨(s, e), h, rfl⟩)) (by simp) (by
        have := List.toFinset_card_le (sel.map Prod.snd)
        rw [List.length_map] at this
        simp only [List.toFinset_nil, Finset.sdiff_empty]
        omega), hE]
    simp
  rw [hset, Set.ncard_coe_finset, List.toFinset_card_of_nodup (walks_nodup (lookup_nodup hnd) fuel)]
  exact findLoopCalls_walks fuel hr

end Verif.Proofs
