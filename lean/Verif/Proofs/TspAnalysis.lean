import Verif.Proofs.LoopList
import Mathlib.Algebra.BigOperators.Group.List.Lemmas
import Mathlib.Data.List.Perm.Subperm
import Mathlib.Data.List.Nodup

/-! # Hard decision, tours and cuts -/

namespace Verif.Proofs
open Verif Num Spec Model

theorem gt_iff_above (v t : Num) : gt v t = true ↔ Above v t := by
  cases v <;> cases t <;> simp [Above, gt, Num.lt]

theorem loopUp_filter {σ : Type} {n : ℕ} {body : ℕ → σ → Option σ} {p : ℕ → Bool} {f : σ → ℕ → σ} {s : σ}
    (h : ∀ i < n, ∀ t, body i t = some (if p i = true then f t i else t)) :
    loopUp n body s = some (((List.range n).filter p).foldl f s) := by
  induction n with
  | zero => rfl
  | succ n ih =>
    rw [loopUp, ih (fun i hi => h i (by omega)), Option.bind_some, h n (by omega), List.range_succ, List.filter_append]
    cases hp : p n <;> simp [hp]

theorem foldl_push {α : Type} (g : ℕ → α) (l : List ℕ) (acc : List α) :
    l.foldl (fun acc e => acc ++ [g e]) acc = acc ++ l.map g := by
  induction l generalizing acc with
  | nil => simp
  | cons a l ih => rw [List.foldl_cons, ih]; simp

/-- The edges whose belief is not above the threshold. -/
def chosen (E : ℕ) (thr : Num) (intr : Arr Num) : List ℕ := (List.range E).filter (fun e => !gt (intr.data e) thr)

theorem hardDecision_eq {E : ℕ} {thr : Num} {intr cost : Arr Num} {edges : List (ℕ × ℕ)} (hi : intr.size = E)
    (he : edges.length = E) (hc : cost.size = E) :
    hardDecision E thr intr edges cost = some ((chosen E thr intr).map (fun e => edges.getD e (0, 0)),
      (chosen E thr intr).foldl (fun acc e => acc + cost.data e) 0) := by
  unfold hardDecision
  have hcopy : (⟨intr.size, fun e => if gt (intr.data e) thr then 0 else 1⟩ : Arr ℕ).copyTo (Arr.fill E 2147483647) =
      some ⟨E, fun i => if i < E then (if gt (intr.data i) thr then 0 else 1) else 2147483647⟩ := by
    unfold Arr.copyTo
    simp only [Arr.fill, hi]
    rw [if_pos le_rfl]
  rw [hcopy]
  simp only [Option.bind_eq_bind, Option.bind_some]
  rw [loopUp_filter (p := fun e => !gt (intr.data e) thr) (f := fun acc e => acc ++ [edges.getD e (0, 0)]), Option.bind_some,
    loopUp_filter (p := fun e => !gt (intr.data e) thr) (f := fun acc e => acc + cost.data e), Option.bind_some, foldl_push]
  · rfl
  · intro i hlt t
    have hlt : i < E := hlt
    rw [Arr.rd_of_lt (by simpa using hlt)]
    simp only [Option.bind_some, if_pos hlt, Arr.rd_of_lt (show i < cost.size by omega)]
    cases gt (intr.data i) thr <;> simp
  · intro i hlt t
    rw [Arr.rd_of_lt (by simpa using hlt)]
    have : edges[i]? = some (edges.getD i (0, 0)) := by simp [he, hlt]
    simp only [Option.bind_some, if_pos hlt, this]
    cases gt (intr.data i) thr <;> simp

theorem foldl_fin {cost : Arr Num} {E : ℕ} {w : ℕ → ℚ} (hw : cost.Is E w) {l : List ℕ} (hl : ∀ e ∈ l, e < E) (a : ℚ) :
    l.foldl (fun acc e => acc + cost.data e) (fin a) = fin (a + (l.map w).sum) := by
  induction l generalizing a with
  | nil => simp
  | cons e l ih =>
    rw [List.foldl_cons, hw.2 e (hl e List.mem_cons_self), fin_add, ih (fun e he => hl e (List.mem_cons_of_mem _ he)), List.map_cons,
      List.sum_cons]
    congr 1; ring

/-! ## Reported loops -/

theorem perm_of_startOrder {sel : List (ℕ × ℕ)} {order : List ℕ} (h : StartOrder sel order) :
    order.Perm ((buildGraph sel).map Prod.fst) :=
  (List.perm_ext_iff_of_nodup h.1 (buildGraph_keys_nodup sel)).mpr fun u => (h.2 u).trans mem_keys.symm

theorem getClosedLoops_spec {sel : List (ℕ × ℕ)} {order : List ℕ} (ho : StartOrder sel order) :
    ∃ loops, getClosedLoops sel order = some loops ∧ (∀ l ∈ loops, IsCycle (Joined sel) l) ∧
      loops.Pairwise (fun a b => ¬ a ~r b) ∧
      (∀ s e, Joined sel s e → Relation.ReflTransGen (Joined sel) e s →
        ∃ l, IsPath (Joined sel) l e s ∧ ∃ r ∈ loops, l <:+: r ++ r) ∧
      (loops = [] ↔ Acyclic sel) := by
  obtain ⟨raw, h1, h2, h3⟩ := allLoops_spec (perm_of_startOrder ho) (fuel := 2 * sel.length + 1) (by omega)
  obtain ⟨d1, d2, d3, d4⟩ := dropDuplicates_spec (loops := raw) (fun l hl => by
    obtain ⟨s, e, -, hp⟩ := h2 l hl; exact hp.ne_nil)
  refine ⟨dropDuplicates raw, by simp [getClosedLoops, h1], ?_, d3, ?_, ?_⟩
  · intro l hl
    obtain ⟨s, e, hJ, hp⟩ := h2 l (d1.subset hl)
    exact ⟨e, s, hp, hJ⟩
  · intro s e hJ hr
    obtain ⟨l, hl, hp⟩ := h3 s e hJ hr
    obtain ⟨r, hr, hlr⟩ := d4 l hl
    refine ⟨l, hp, r, hr, ?_⟩
    rcases hlr with rfl | h
    · exact ⟨[], l, by simp⟩
    · exact h
  · rw [d2]
    constructor
    · rintro rfl v hv
      obtain ⟨u, hr, hJ⟩ := Relation.TransGen.tail'_iff.mp hv
      obtain ⟨l, hl, -⟩ := h3 u v hJ hr
      simp at hl
    · intro hA
      by_contra hne
      obtain ⟨l, hl⟩ := List.exists_mem_of_ne_nil _ hne
      obtain ⟨s, e, hJ, hp⟩ := h2 l hl
      exact hA s (Relation.TransGen.head' hJ hp.reach)

/-! ## One outgoing edge per node -/

theorem path_unique {E : ℕ → ℕ → Prop} (hE : ∀ u v w, E u v → E u w → v = w) {p q : List ℕ} {u v : ℕ} (hp : IsPath E p u v)
    (hq : IsPath E q u v) : p = q := by
  have self : ∀ {p : List ℕ} {v : ℕ}, IsPath E p v v → p = [v] := by
    intro p v h
    obtain ⟨r, rfl⟩ := h.eq_cons
    rcases List.eq_nil_or_concat r with rfl | ⟨r', b, rfl⟩
    · rfl
    · have h2 := h.2.1
      have : b = v := by simpa [List.getLast?_cons] using h2
      have h4 := h.2.2.2
      simp [this] at h4
  induction p generalizing q u with
  | nil => exact absurd rfl hp.ne_nil
  | cons a p ih =>
    obtain ⟨r, hr⟩ := hp.eq_cons
    obtain ⟨rfl, rfl⟩ := List.cons.inj hr
    obtain ⟨q, rfl⟩ := hq.eq_cons
    by_cases hav : a = v
    · subst hav; rw [self hp, self hq]
    · obtain ⟨w, hw, hp', -⟩ := hp.tail hav
      obtain ⟨w', hw', hq', -⟩ := hq.tail hav
      obtain rfl := hE _ _ _ hw hw'
      rw [ih hp' hq']

theorem cycle_closed {E : ℕ → ℕ → Prop} (hE : ∀ u v w, E u v → E u w → v = w) {l : List ℕ} (hl : IsCycle E l) {x y : ℕ}
    (hx : x ∈ l) (hxy : E x y) : y ∈ l := by
  obtain ⟨u, v, ⟨h1, h2, h3, -⟩, hvu⟩ := hl
  obtain ⟨i, hi, rfl⟩ := List.mem_iff_getElem.mp hx
  by_cases h : i + 1 < l.length
  · have := List.isChain_iff_getElem.mp h3 i h
    rw [hE _ _ _ hxy this]; exact List.getElem_mem _
  · have hi' : i = l.length - 1 := by omega
    have : l[i] = v := by
      rw [List.getLast?_eq_getElem?, ← hi', List.getElem?_eq_getElem hi] at h2
      simpa using h2
    rw [this] at hxy
    rw [hE _ _ _ hxy hvu]
    exact List.mem_of_head? h1

theorem cycle_reach {E : ℕ → ℕ → Prop} {l : List ℕ} (hl : IsCycle E l) {x y : ℕ} (hx : x ∈ l) (hy : y ∈ l) :
    Relation.ReflTransGen E x y := by
  obtain ⟨u, v, ⟨h1, h2, h3, h4⟩, hvu⟩ := hl
  have a : Relation.ReflTransGen E x v := by
    obtain ⟨l1, l2, rfl⟩ := List.append_of_mem hx
    refine IsPath.reach (p := x :: l2) ⟨rfl, ?_, h3.right_of_append, (List.nodup_append.mp h4).2.1⟩
    rw [List.getLast?_append] at h2; simpa using h2
  have b : Relation.ReflTransGen E u y := by
    obtain ⟨l1, l2, rfl⟩ := List.append_of_mem hy
    have e : l1 ++ y :: l2 = (l1 ++ [y]) ++ l2 := by simp
    rw [e] at h1 h3 h4
    refine IsPath.reach (p := l1 ++ [y]) ⟨?_, by simp, h3.left_of_append, (List.nodup_append.mp h4).1⟩
    rw [List.head?_append] at h1
    cases l1 <;> simpa using h1
  exact (a.tail hvu).trans b

theorem isRotated_of_infix {r c : List ℕ} (h : c <:+: r ++ r) (hlen : c.length = r.length) : c ~r r := by
  obtain ⟨s, t, hst⟩ := h
  have hl : s.length + t.length = r.length := by
    have := congrArg List.length hst
    simp only [List.length_append] at this; omega
  have : c = r.rotate s.length := by
    rw [List.rotate_eq_drop_append_take (by omega)]
    have h1 : ((r ++ r).drop s.length).take r.length = c := by
      rw [← hst, List.append_assoc, List.drop_left, ← hlen, List.take_left]
    rw [← h1, List.drop_append_of_le_length (by omega), List.take_append, List.take_of_length_le (by rw [List.length_drop]; omega),
      List.length_drop]
    congr 2; omega
  rw [this]
  exact List.IsRotated.symm ⟨s.length, rfl⟩

/-- If no node has two outgoing edges then a path of a cycle that is part of another cycle is that cycle. -/
theorem cycle_eq_of_infix {E : ℕ → ℕ → Prop} (hE : ∀ u v w, E u v → E u w → v = w) {c r : List ℕ} (hc : IsCycle E c)
    (hr : IsCycle E r) (h : c <:+: r ++ r) : c ~r r := by
  have hcr : ∀ x ∈ c, x ∈ r := fun x hx => by simpa using h.subset hx
  obtain ⟨u, v, hp, -⟩ := id hc
  have huc : u ∈ c := List.mem_of_head? hp.1
  have hrc : ∀ x ∈ r, x ∈ c := by
    intro x hx
    have := cycle_reach hr (hcr u huc) hx
    induction this with
    | refl => exact huc
    | tail _ hyz ih => 
      rename_i y z hy
      have hyr : y ∈ r := by
        clear ih hyz hx
        induction hy with
        | refl => exact hcr u huc
        | tail _ h2 ih => exact cycle_closed hE hr ih h2
      exact cycle_closed hE hc (ih hyr) hyz
  refine isRotated_of_infix h ?_
  obtain ⟨_, _, hq, -⟩ := hr
  exact ((List.perm_ext_iff_of_nodup hp.2.2.2 hq.2.2.2).mpr fun x => ⟨hcr x, hrc x⟩).length_eq

theorem chain_unique {E : ℕ → ℕ → Prop} (hE : ∀ u v w, E u v → E u w → v = w) {x : ℕ} {a b : List ℕ}
    (ha : (x :: a).IsChain E) (hb : (x :: b).IsChain E) (hl : a.length = b.length) : a = b := by
  induction a generalizing x b with
  | nil => exact (List.length_eq_zero_iff.mp hl.symm).symm
  | cons y a ih =>
    cases b with
    | nil => simp at hl
    | cons z b =>
      rw [List.isChain_cons_cons] at ha hb
      obtain rfl := hE _ _ _ ha.1 hb.1
      rw [ih ha.2 hb.2 (by simpa using hl)]

/-- A cycle read from one of its nodes. -/
theorem cycle_from {E : ℕ → ℕ → Prop} {l : List ℕ} (hl : IsCycle E l) {x : ℕ} (hx : x ∈ l) :
    ∃ a, (x :: a).IsChain E ∧ (x :: a).Nodup ∧ l ~r x :: a := by
  obtain ⟨u, v, ⟨h1, h2, h3, h4⟩, hvu⟩ := hl
  obtain ⟨l1, l2, rfl⟩ := List.append_of_mem hx
  refine ⟨l2 ++ l1, ?_, ?_, ⟨l1.length, ?_⟩⟩
  · rw [← List.cons_append, List.isChain_append]
    refine ⟨h3.right_of_append, h3.left_of_append, ?_⟩
    intro a ha b hb
    rw [List.getLast?_append] at h2
    have hav : a = v := by
      have : (x :: l2).getLast? = some a := ha
      rw [this] at h2; simpa using h2
    have hbu : b = u := by
      have : l1.head? = some b := hb
      rw [List.head?_append, this] at h1; simpa using h1
    rw [hav, hbu]; exact hvu
  · rw [← List.cons_append]
    exact (List.perm_append_comm).nodup_iff.mp h4
  · rw [List.rotate_append_length_eq]; simp

/-- If no node has two outgoing edges then cycles with a common node are rotations of each other. -/
theorem cycle_rotated_of_mem {E : ℕ → ℕ → Prop} (hE : ∀ u v w, E u v → E u w → v = w) {c r : List ℕ} (hc : IsCycle E c)
    (hr : IsCycle E r) {x : ℕ} (hxc : x ∈ c) (hxr : x ∈ r) : c ~r r := by
  have sub : ∀ {c r : List ℕ}, IsCycle E c → IsCycle E r → x ∈ c → x ∈ r → ∀ y ∈ c, y ∈ r := by
    intro c r hc hr hxc hxr y hy
    have := cycle_reach hc hxc hy
    clear hy
    induction this with
    | refl => exact hxr
    | tail _ h ih => exact cycle_closed hE hr ih h
  obtain ⟨a, a1, a2, a3⟩ := cycle_from hc hxc
  obtain ⟨b, b1, b2, b3⟩ := cycle_from hr hxr
  have hlen : (x :: a).length = (x :: b).length := ((List.perm_ext_iff_of_nodup a2 b2).mpr fun y => by
    rw [← a3.mem_iff, ← b3.mem_iff]
    exact ⟨sub hc hr hxc hxr y, sub hr hc hxr hxc y⟩).length_eq
  obtain rfl := chain_unique hE a1 b1 (by simpa using hlen)
  exact a3.trans b3.symm

theorem isTour_of_cycle {sel : List (ℕ × ℕ)} {n : ℕ} (hsel : ∀ c ∈ sel, c.1 < n ∧ c.2 < n) {l : List ℕ}
    (hl : IsCycle (Joined sel) l) (hn : l.length = n) : IsTour (Joined sel) n (l ++ l.take 1) := by
  obtain ⟨u, v, ⟨h1, h2, h3, h4⟩, hvu⟩ := hl
  obtain ⟨q, rfl⟩ : ∃ q, l = u :: q := IsPath.eq_cons ⟨h1, h2, h3, h4⟩
  have hlt : ∀ x ∈ u :: q, x < n := by
    intro x hx
    obtain ⟨i, hi, rfl⟩ := List.mem_iff_getElem.mp hx
    by_cases h : i + 1 < (u :: q).length
    · have := List.isChain_iff_getElem.mp h3 i h
      exact (hsel _ this).1
    · have hi' : i = (u :: q).length - 1 := by omega
      have : (u :: q)[i] = v := by
        rw [List.getLast?_eq_getElem?, ← hi', List.getElem?_eq_getElem hi] at h2
        simpa using h2
      rw [this]; exact (hsel _ hvu).1
  refine ⟨by simpa using hn, ?_, ?_, ?_, ?_⟩
  · simp [List.getLast?_cons]
  · rw [List.isChain_append]
    refine ⟨h3, by simp, ?_⟩
    intro x hx y hy
    rw [h2] at hx
    obtain rfl : v = x := by simpa using hx
    obtain rfl : u = y := by simpa using hy
    exact hvu
  · have : ((u :: q) ++ (u :: q).take 1).tail = q ++ [u] := by simp
    rw [this]
    exact (List.perm_append_singleton u q).nodup_iff.mpr h4
  · intro x
    have hmem : x ∈ (u :: q) ++ (u :: q).take 1 ↔ x ∈ u :: q := by simp; tauto
    rw [hmem]
    refine ⟨hlt x, fun hx => ?_⟩
    have hsub : (u :: q).toFinset ⊆ Finset.range n := fun y hy => Finset.mem_range.mpr (hlt y (List.mem_toFinset.mp hy))
    have hcard : (u :: q).toFinset.card = n := by rw [List.toFinset_card_of_nodup h4, hn]
    have := Finset.eq_of_subset_of_card_le hsub (by rw [Finset.card_range, hcard])
    exact List.mem_toFinset.mp (this ▸ Finset.mem_range.mpr hx)

theorem isTour_steps {E : ℕ → ℕ → Prop} {n : ℕ} {t : List ℕ} (h : IsTour E n t) :
    (t.zip t.tail).length = n ∧ (t.zip t.tail).Nodup ∧ ∀ p ∈ t.zip t.tail, E p.1 p.2 := by
  refine ⟨by simp [h.length], ?_, ?_⟩
  · have : (t.zip t.tail).map Prod.snd = t.tail := by
      rw [List.map_snd_zip]; simp
    exact List.Nodup.of_map Prod.snd (by rw [this]; exact h.once)
  · intro p hp
    obtain ⟨i, hi, rfl⟩ := List.mem_iff_getElem.mp hp
    rw [List.length_zip, List.length_tail] at hi
    have := List.isChain_iff_getElem.mp h.steps i (by omega)
    simpa using this

/-! ## Cuts -/

theorem leavingEdges_isCut (edges : List (ℕ × ℕ)) (l : List ℕ) : IsCut edges (· ∈ l) (leavingEdges edges l) := by
  refine ⟨List.pairwise_lt_range.filter _, fun i => ?_⟩
  unfold leavingEdges
  rw [List.mem_filter, List.mem_range]
  constructor
  · rintro ⟨hi, h⟩
    rw [List.getElem?_eq_getElem hi] at h ⊢
    exact ⟨_, rfl, by simpa using h⟩
  · rintro ⟨c, hc, h⟩
    have hi : i < edges.length := by
      by_contra hh
      rw [List.getElem?_eq_none (by omega)] at hc; simp at hc
    rw [hc]
    exact ⟨hi, by simpa using h⟩

theorem isCut_unique {edges : List (ℕ × ℕ)} {S : ℕ → Prop} {a b : List ℕ} (ha : IsCut edges S a) (hb : IsCut edges S b) : a = b :=
  (List.perm_ext_iff_of_nodup (ha.1.imp (fun h => (Nat.ne_of_lt h))) (hb.1.imp (fun h => (Nat.ne_of_lt h)))).mpr
    (fun i => (ha.2 i).trans (hb.2 i).symm) |>.eq_of_pairwise (le := (· < ·)) (fun _ _ _ _ h1 h2 => absurd h1 (by omega)) ha.1 hb.1

theorem addDelta_eq (d : List ℕ) (ds : List (List ℕ)) : addDelta d ds = if d = [] ∨ d ∈ ds then ds else ds ++ [d] := by
  unfold addDelta
  by_cases hd : d = []
  · subst hd; simp
  · by_cases hds : ds = []
    · subst hds; simp [hd]
    · by_cases hm : d ∈ ds
      · have : (ds.any fun x => x == d) = true := List.any_eq_true.mpr ⟨d, hm, by simp⟩
        simp [hds, hm]
      · have : (ds.any fun x => x == d) = false := by
          rw [List.any_eq_false]; intro x hx h; exact hm ((by simpa using h : x = d) ▸ hx)
        simp [hd, hds, hm]

/-- The cuts after a list of loops was processed. -/
theorem addDelta_foldl (edges : List (ℕ × ℕ)) (loops : List (List ℕ)) (ds : List (List ℕ)) :
    let ds' := loops.foldl (fun ds l => addDelta (leavingEdges edges l) ds) ds
    ds <+: ds' ∧ (ds.Nodup → ds'.Nodup) ∧
      (∀ d ∈ ds', d ∈ ds ∨ d ≠ [] ∧ ∃ l ∈ loops, IsCut edges (· ∈ l) d) ∧
      ∀ l ∈ loops, leavingEdges edges l = [] ∨ leavingEdges edges l ∈ ds' := by
  induction loops generalizing ds with
  | nil => exact ⟨List.prefix_rfl, id, fun d hd => Or.inl hd, by simp⟩
  | cons l loops ih =>
    simp only [List.foldl_cons]
    obtain ⟨h1, h2, h3, h4⟩ := ih (addDelta (leavingEdges edges l) ds)
    have hadd := addDelta_eq (leavingEdges edges l) ds
    refine ⟨?_, ?_, ?_, ?_⟩
    · refine List.IsPrefix.trans ?_ h1
      rw [hadd]; split
      · exact List.prefix_rfl
      · exact List.prefix_append _ _
    · intro hn
      refine h2 ?_
      rw [hadd]; split
      · exact hn
      · rename_i h
        rw [List.nodup_append]
        refine ⟨hn, by simp, ?_⟩
        intro a ha b hb
        simp at hb; subst hb
        rintro rfl; exact h (Or.inr ha)
    · intro d hd
      rcases h3 d hd with h | ⟨h, l', hl', hc⟩
      · rw [hadd] at h
        split at h
        · exact Or.inl h
        · rename_i hh
          rcases List.mem_append.mp h with h | h
          · exact Or.inl h
          · simp at h; subst h
            exact Or.inr ⟨fun h0 => hh (Or.inl h0), l, List.mem_cons_self, leavingEdges_isCut edges l⟩
      · exact Or.inr ⟨h, l', List.mem_cons_of_mem _ hl', hc⟩
    · intro l' hl'
      rcases List.mem_cons.mp hl' with rfl | hl'
      · by_cases h0 : leavingEdges edges l' = []
        · exact Or.inl h0
        · refine Or.inr (h1.subset ?_)
          rw [hadd]; split
          · rename_i h; rcases h with h | h
            · exact absurd h h0
            · exact h
          · simp
      · exact h4 l' hl'

theorem analyseLoops_foldl (edges : List (ℕ × ℕ)) (loops : List (List ℕ)) (s : TspAnalysis) :
    loops.foldl (fun s loop => { s with
        closedPathsSize := s.closedPathsSize ++ [loop.length], deltas := addDelta (leavingEdges edges loop) s.deltas }) s =
      { s with closedPathsSize := s.closedPathsSize ++ loops.map List.length
               deltas := loops.foldl (fun ds l => addDelta (leavingEdges edges l) ds) s.deltas } := by
  induction loops generalizing s with
  | nil => simp
  | cons l loops ih => rw [List.foldl_cons, ih]; simp

end Verif.Proofs
