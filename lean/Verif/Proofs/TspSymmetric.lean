import Verif.Proofs.TspOptimal

/-! Symmetric costs: without cuts an edge and its reverse always get the same messages. -/

namespace Verif.Proofs
open Verif Num Spec Model

variable {n : ℕ} {edges : List (ℕ × ℕ)} {w : ℕ → ℚ} {c C x0 s0 : ℕ → ℕ → ℚ} {flag : Bool} {alpha : ℚ} {x r y q : ℕ → ℕ → ℕ → ℚ}

/-- `rev e` is the position of the reverse of edge `e`. -/
def Reverses (edges : List (ℕ × ℕ)) (rev : ℕ → ℕ) : Prop :=
  ∀ e < edges.length, rev e < edges.length ∧ src edges (rev e) = dst edges e ∧ dst edges (rev e) = src edges e ∧ rev (rev e) = e

theorem edge_inj (h : edges.Nodup) {e e' : ℕ} (he : e < edges.length) (he' : e' < edges.length) (h2 : src edges e = src edges e')
    (h3 : dst edges e = dst edges e') : e = e' := by
  refine (List.Nodup.getElem_inj_iff h (hi := he) (hj := he')).mp ?_
  rw [src_dst he, src_dst he', h2, h3]

theorem exists_reverses (h : AllEdges n edges) : ∃ rev, Reverses edges rev := by
  have h1 : ∀ e, ∃ e', e < edges.length → e' < edges.length ∧ src edges e' = dst edges e ∧ dst edges e' = src edges e := by
    intro e
    by_cases he : e < edges.length
    · have := h.2.1 _ (List.getElem_mem he)
      rw [src_dst he] at this
      obtain ⟨e', g1, g2, g3⟩ := edge_of_mem (h.2.2 _ this.2.1 _ this.1 (Ne.symm this.2.2))
      exact ⟨e', fun _ => ⟨g1, g2, g3⟩⟩
    · exact ⟨0, fun hh => absurd hh he⟩
  choose rev hrev using h1
  refine ⟨rev, fun e he => ?_⟩
  obtain ⟨a1, a2, a3⟩ := hrev e he
  obtain ⟨b1, b2, b3⟩ := hrev (rev e) a1
  exact ⟨a1, a2, a3, edge_inj h.1 b1 he (by rw [b2, a3]) (by rw [b3, a2])⟩

theorem reverse_trace {rev : ℕ → ℕ} (hr : Reverses edges rev)
    (hc : ∀ e < edges.length, ∀ v, v = src edges e ∨ v = dst edges e → c (rev e) v = c e v)
    (hx : ∀ e < edges.length, ∀ v, v = src edges e ∨ v = dst edges e → x0 (rev e) v = x0 e v)
    (ht : IsTspTrace n edges [] w c flag alpha x0 s0 x r y q) :
    IsTspTrace n edges [] w c flag alpha x0 s0 (fun j e v => x j (rev e) v) (fun j e v => r j (rev e) v) y q := by
  refine ⟨fun e he => ?_, fun e he => ?_, fun j v hv e he => ?_, fun j v hv e he => ?_, fun j k hk => by simp at hk,
    fun j k hk => by simp at hk, fun j e he => ?_, fun j e he => ?_⟩
  · obtain ⟨a1, a2, a3, -⟩ := hr e he
    have := ht.init_dst _ a1
    rw [a3] at this
    rw [this, hx e he _ (Or.inl rfl)]
  · obtain ⟨a1, a2, a3, -⟩ := hr e he
    have := ht.init_src _ a1
    rw [a2] at this
    rw [this, hx e he _ (Or.inr rfl)]
  · obtain ⟨he1, he2⟩ := mem_out.mp he
    obtain ⟨a1, a2, a3, a4⟩ := hr e he1
    have hm : rev e ∈ inEdges edges v := mem_in.mpr ⟨a1, by rw [a3, he2]⟩
    have hl := exactlyOne_fin hm (ht.inn j v hv _ hm)
    have := exactlyOne_message (x := fun e => x j (rev e) v) he (isMin_fin (q := -r j (rev e) v) ?_)
    · simpa using this
    · refine ⟨?_, ?_⟩
      · obtain ⟨s, hs, hne, hs2⟩ := hl.1
        obtain ⟨s1, s2⟩ := mem_in.mp hs
        obtain ⟨b1, b2, b3, b4⟩ := hr s s1
        exact ⟨rev s, mem_out.mpr ⟨b1, by rw [b2, s2]⟩, fun hh => hne (by rw [← hh, b4]), by simp only; rw [b4]; exact hs2⟩
      · rintro z ⟨s, hs, hne, rfl⟩
        obtain ⟨s1, s2⟩ := mem_out.mp hs
        obtain ⟨b1, b2, b3, b4⟩ := hr s s1
        exact hl.2 ⟨rev s, mem_in.mpr ⟨b1, by rw [b3, s2]⟩, fun hh => hne (by rw [← b4, hh, a4]), rfl⟩
  · obtain ⟨he1, he2⟩ := mem_in.mp he
    obtain ⟨a1, a2, a3, a4⟩ := hr e he1
    have hm : rev e ∈ outEdges edges v := mem_out.mpr ⟨a1, by rw [a2, he2]⟩
    have hl := exactlyOne_fin hm (ht.out j v hv _ hm)
    have := exactlyOne_message (x := fun e => x j (rev e) v) he (isMin_fin (q := -r j (rev e) v) ?_)
    · simpa using this
    · refine ⟨?_, ?_⟩
      · obtain ⟨s, hs, hne, hs2⟩ := hl.1
        obtain ⟨s1, s2⟩ := mem_out.mp hs
        obtain ⟨b1, b2, b3, b4⟩ := hr s s1
        exact ⟨rev s, mem_in.mpr ⟨b1, by rw [b3, s2]⟩, fun hh => hne (by rw [← hh, b4]), by simp only; rw [b4]; exact hs2⟩
      · rintro z ⟨s, hs, hne, rfl⟩
        obtain ⟨s1, s2⟩ := mem_in.mp hs
        obtain ⟨b1, b2, b3, b4⟩ := hr s s1
        exact hl.2 ⟨rev s, mem_out.mpr ⟨b1, by rw [b2, s2]⟩, fun hh => hne (by rw [← b4, hh, a4]), rfl⟩
  · obtain ⟨a1, a2, a3, -⟩ := hr e he
    have := ht.var_dst j _ a1
    rw [a3, a2] at this
    rw [this, hc e he _ (Or.inl rfl)]
    simp [cuts]
  · obtain ⟨a1, a2, a3, -⟩ := hr e he
    have := ht.var_src j _ a1
    rw [a3, a2] at this
    rw [this, hc e he _ (Or.inr rfl)]
    simp [cuts]

theorem reverse_output {rev : ℕ → ℕ} (hok : EdgesOk n edges) (hr : Reverses edges rev)
    (hc : ∀ e < edges.length, ∀ v, v = src edges e ∨ v = dst edges e → c (rev e) v = c e v)
    (hx : ∀ e < edges.length, ∀ v, v = src edges e ∨ v = dst edges e → x0 (rev e) v = x0 e v)
    {d0 : ℕ → ℕ → ℚ} (hd : ∀ e < edges.length, ∀ v, v = src edges e ∨ v = dst edges e → d0 (rev e) v = d0 e v)
    (ht : IsTspTrace n edges [] w c flag alpha x0 s0 x r y q) {K e : ℕ} (he : e < edges.length) :
    tspOutput flag alpha edges [] d0 s0 r q K (rev e) = tspOutput flag alpha edges [] d0 s0 r q K e := by
  have hu := tspTrace_unique hok (fun l hl => by simp at hl) ht (reverse_trace hr hc hx ht)
  obtain ⟨a1, a2, a3, -⟩ := hr e he
  unfold tspOutput
  rw [a2, a3, hd e he _ (Or.inr rfl), hd e he _ (Or.inl rfl),
    prev_congr (q := fun i => r i (rev e) (dst edges e)) (q' := fun i => r i e (dst edges e)) (fun i _ => (((hu i).1 e he _ (Or.inr rfl)).2).symm),
    prev_congr (q := fun i => r i (rev e) (src edges e)) (q' := fun i => r i e (src edges e)) (fun i _ => (((hu i).1 e he _ (Or.inl rfl)).2).symm)]
  simp only [cuts, List.length_nil, Finset.range_zero, Finset.filter_empty, Finset.sum_empty]
  ring

/-- A selection by beliefs that do not distinguish directions. -/
theorem selects_joined {b : ℕ → ℚ} {thr : Num} {sel : List (ℕ × ℕ)} {z : ℚ} (hs : Selects edges w b thr sel z) (h : edges.Nodup)
    {e : ℕ} (he : e < edges.length) : Joined sel (src edges e) (dst edges e) ↔ ¬ Above (fin (b e)) thr := by
  obtain ⟨L, h1, h2, h3, -⟩ := hs
  unfold Joined
  constructor
  · intro hm
    have : some (src edges e, dst edges e) ∈ sel.map some := List.mem_map_of_mem hm
    rw [h3] at this
    obtain ⟨e', hm', heq⟩ := List.mem_map.mp this
    have he' := ((h2 e').mp hm').1
    rw [List.getElem?_eq_getElem he', src_dst he'] at heq
    simp only [Option.some.injEq, Prod.mk.injEq] at heq
    obtain rfl := edge_inj h he' he heq.1 heq.2
    exact ((h2 _).mp hm').2
  · intro hb
    have hm := (h2 e).mpr ⟨he, hb⟩
    have : edges[e]? ∈ L.map (fun e => edges[e]?) := List.mem_map_of_mem hm
    rw [← h3, List.getElem?_eq_getElem he, src_dst he] at this
    simpa using this

theorem selects_sub {b : ℕ → ℚ} {thr : Num} {sel : List (ℕ × ℕ)} {z : ℚ} (hs : Selects edges w b thr sel z) : ∀ p ∈ sel, p ∈ edges := by
  obtain ⟨L, h1, h2, h3, -⟩ := hs
  intro p hp
  have : some p ∈ sel.map some := List.mem_map_of_mem hp
  rw [h3] at this
  obtain ⟨e, hm, heq⟩ := List.mem_map.mp this
  exact List.mem_of_getElem? heq

theorem selects_sum {b : ℕ → ℚ} {thr : Num} {sel : List (ℕ × ℕ)} {z : ℚ} (h : edges.Nodup)
    (hs : Selects edges (fun e => C (src edges e) (dst edges e)) b thr sel z) : sel.Nodup ∧ z = (sel.map (fun p => C p.1 p.2)).sum := by
  obtain ⟨L, h1, h2, h3, h4⟩ := hs
  have hsel : sel = L.map (fun e => (src edges e, dst edges e)) := by
    apply List.map_injective_iff.mpr (Option.some_injective _)
    rw [h3, List.map_map]
    apply List.map_congr_left
    intro e hm
    have := ((h2 e).mp hm).1
    rw [List.getElem?_eq_getElem this, src_dst this]; rfl
  refine ⟨?_, by rw [h4, hsel, List.map_map]; rfl⟩
  rw [hsel]
  refine List.Nodup.map_on ?_ (h1.imp fun h => Nat.ne_of_lt h)
  intro e he e' he' heq
  simp only [Prod.mk.injEq] at heq
  exact edge_inj h ((h2 e).mp he).1 ((h2 e').mp he').1 heq.1 heq.2

/-- On a tour of three or more nodes no two nodes follow each other. -/
theorem tour_no_two {next : ℕ → ℕ} {t : List ℕ} (ht : IsTour (fun u v => v = next u) n t) (hn : 3 ≤ n) : ∀ u < n, next (next u) ≠ u := by
  intro u hu
  have hlen := ht.length
  have hstep : ∀ i (h : i + 1 < t.length), t[i + 1] = next t[i] := fun i h => (List.isChain_iff_getElem.mp ht.steps) i h
  have hends : t[0]'(by omega) = t[n]'(by omega) := by
    have := ht.closed
    rw [List.head?_eq_getElem?, List.getLast?_eq_getElem?, show t.length - 1 = n by omega, List.getElem?_eq_getElem (by omega),
      List.getElem?_eq_getElem (by omega)] at this
    simpa using this
  have hinj : ∀ i j (hi : i < t.length) (hj : j < t.length), 1 ≤ i → 1 ≤ j → t[i] = t[j] → i = j := by
    intro i j hi hj h1 h2 h3
    have h4 : t.tail[i - 1]'(by simp; omega) = t.tail[j - 1]'(by simp; omega) := by
      simp only [List.getElem_tail]
      rw [getElem_congr rfl (show i - 1 + 1 = i by omega), getElem_congr rfl (show j - 1 + 1 = j by omega)]
      exact h3
    have := (List.Nodup.getElem_inj_iff ht.once).mp h4
    omega
  obtain ⟨i, hi, hui⟩ : ∃ i, ∃ h : i < n, t[i]'(by omega) = u := by
    obtain ⟨i, hi, hh⟩ := List.getElem_of_mem ((ht.all u).mpr hu)
    by_cases h1 : i < n
    · exact ⟨i, h1, hh⟩
    · have : i = n := by omega
      subst this
      exact ⟨0, by omega, by rw [hends]; exact hh⟩
  have h1 := hstep i (by omega)
  rw [hui] at h1
  rw [← h1]
  by_cases hlast : i + 1 < n
  · rw [← hstep (i + 1) (by omega), ← hui]
    intro hh
    by_cases h0 : i = 0
    · subst h0
      rw [hends] at hh
      have := hinj _ _ (by omega) (by omega) (by omega) (by omega) hh
      omega
    · have := hinj _ _ (by omega) (by omega) (by omega) (by omega) hh
      omega
  · have hin : i + 1 = n := by omega
    have h2 : t[i + 1]'(by omega) = t[0]'(by omega) := by
      rw [hends]; exact getElem_congr rfl hin _
    rw [h2, ← hstep 0 (by omega), ← hui]
    intro hh
    have := hinj _ _ (by omega) (by omega) (by omega) (by omega) hh
    omega

/-- Selecting a tour and its reverse costs at least twice the tour. -/
theorem double_cost {sel : List (ℕ × ℕ)} (hnd : sel.Nodup) (hpos : ∀ p ∈ sel, 0 ≤ C p.1 p.2) (hsym : ∀ u < n, ∀ v < n, C u v = C v u)
    (hrev : ∀ u v, Joined sel u v → Joined sel v u) {t : List ℕ} (ht : IsTour (Joined sel) n t) (hn : 3 ≤ n)
    (hne : ∀ u v, Joined sel u v → u ≠ v) : 2 * walkCost C t ≤ (sel.map (fun p => C p.1 p.2)).sum := by
  obtain ⟨nx, n1, n2, n3⟩ := tour_cover ht (fun u _ v _ h => hne u v h) (by omega)
  have h2 := tour_no_two n2 hn
  rw [tour_cost n2 (by omega), ← List.sum_toFinset _ hnd]
  unfold coverCost
  set A := (Finset.range n).image (fun u => (u, nx u)) with hA
  set B := (Finset.range n).image (fun u => (nx u, u)) with hB
  have hdis : Disjoint A B := by
    rw [Finset.disjoint_left]
    intro p hp hq
    obtain ⟨u, hu, rfl⟩ := Finset.mem_image.mp hp
    obtain ⟨v, hv, heq⟩ := Finset.mem_image.mp hq
    simp only [Prod.mk.injEq] at heq
    exact h2 v (Finset.mem_range.mp hv) (by rw [heq.1, heq.2])
  have hsub : A ∪ B ⊆ sel.toFinset := by
    intro p hp
    rw [List.mem_toFinset]
    rcases Finset.mem_union.mp hp with hp | hp
    · obtain ⟨u, hu, rfl⟩ := Finset.mem_image.mp hp
      exact n3 u (Finset.mem_range.mp hu)
    · obtain ⟨u, hu, rfl⟩ := Finset.mem_image.mp hp
      exact hrev _ _ (n3 u (Finset.mem_range.mp hu))
  have hle := Finset.sum_le_sum_of_subset_of_nonneg (f := fun p => C p.1 p.2) hsub (fun p hp _ => hpos p (List.mem_toFinset.mp hp))
  have e1 : ∑ p ∈ A, C p.1 p.2 = ∑ u ∈ Finset.range n, C u (nx u) :=
    Finset.sum_image (fun u _ v _ h => (Prod.mk.injEq _ _ _ _ ▸ h : _ ∧ _).1)
  have e2 : ∑ p ∈ B, C p.1 p.2 = ∑ u ∈ Finset.range n, C u (nx u) := by
    rw [hB, Finset.sum_image (fun u _ v _ h => (Prod.mk.injEq _ _ _ _ ▸ h : _ ∧ _).2)]
    exact Finset.sum_congr rfl fun u hu => (hsym _ (n1.lt u (Finset.mem_range.mp hu)) _ (Finset.mem_range.mp hu))
  rw [Finset.sum_union hdis, e1, e2] at hle
  linarith

theorem reverse_tour {sel : List (ℕ × ℕ)} (hrev : ∀ u v, Joined sel u v → Joined sel v u) {t : List ℕ} (ht : IsTour (Joined sel) n t)
    (hn : 0 < n) : IsTour (Joined sel) n t.reverse := by
  obtain ⟨a, l, z, rfl, hz, hza, hch, hp⟩ := tour_split ht hn
  refine ⟨by rw [List.length_reverse]; exact ht.length, by rw [List.head?_reverse, List.getLast?_reverse]; exact ht.closed.symm, ?_, ?_, fun v => by rw [List.mem_reverse]; exact ht.all v⟩
  · rw [List.isChain_reverse]
    exact ht.steps.imp fun u v h => hrev u v h
  · have : ((a :: l ++ [a]).reverse).tail = (a :: l).reverse := by simp
    rw [this]
    exact List.nodup_reverse.mpr (hp.nodup_iff.mpr List.nodup_range)

end Verif.Proofs
