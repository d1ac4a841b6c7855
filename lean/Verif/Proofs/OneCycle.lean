import Verif.Proofs.FixedPoint
import Verif.Spec.OneCycle
import Mathlib.Combinatorics.SimpleGraph.DegreeSum
import Mathlib.Tactic.Linarith

/-! Graphs with at most one cycle in each part: they have at most as many edges as vertices, and no such change improves settled decisions. -/

namespace Verif.Proofs
open Verif Num Model Spec SimpleGraph

section graph
variable {α β : Type}

/-- Part of such a graph is such a graph. -/
theorem oneCycle_hom {G : SimpleGraph α} {H : SimpleGraph β} (f : H →g G) (hf : Function.Injective f) (h : AtMostOneCycle G) : AtMostOneCycle H := by
  intro u v p q hp hq hr e
  have h1 := h (p.map f) (q.map f) (hp.map hf) (hq.map hf) (hr.map f) (e.map f)
  rw [Walk.edges_map, Walk.edges_map] at h1
  have hinj : Function.Injective (Sym2.map f) := Sym2.map.injective hf
  simpa only [List.mem_map_of_injective hinj] using h1

theorem oneCycle_of_acyclic {G : SimpleGraph α} (h : G.IsAcyclic) : AtMostOneCycle G := fun _ _ p _ hp => absurd hp (h p)

/-- Joining separate parts of a forest one after the other. -/
theorem forest_join [Fintype α] [DecidableEq α] {T : SimpleGraph α} (hT : T.IsAcyclic) {r0 : α} {R : Finset α} (hr0 : r0 ∉ R)
    (hR : ∀ a ∈ insert r0 R, ∀ b ∈ insert r0 R, T.Reachable a b → a = b) :
    ∀ Q ⊆ R, ∃ T' : SimpleGraph α, T'.IsAcyclic ∧ T.edgeSet.ncard + Q.card ≤ T'.edgeSet.ncard ∧ ∀ a ∈ R \ Q, ∀ b, T'.Reachable a b → T.Reachable a b := by
  intro Q
  induction Q using Finset.induction_on with
  | empty => exact fun _ => ⟨T, hT, by simp, fun a _ b h => h⟩
  | insert r Q hr ih =>
    intro hQ
    obtain ⟨T', h1, h2, h3⟩ := ih ((Finset.subset_insert _ _).trans hQ)
    have hrR : r ∈ R := hQ (Finset.mem_insert_self _ _)
    have hne : r ≠ r0 := fun e => hr0 (e ▸ hrR)
    have hnr : ¬ T'.Reachable r r0 := fun h => hne (hR r (Finset.mem_insert_of_mem hrR) r0 (Finset.mem_insert_self _ _) (h3 r (Finset.mem_sdiff.mpr ⟨hrR, hr⟩) r0 h))
    have hna : ¬ T'.Adj r r0 := fun h => hnr h.reachable
    refine ⟨T' ⊔ edge r r0, h1.sup_edge_of_not_reachable hnr, ?_, ?_⟩
    · rw [edgeSet_sup, edgeSet_edge_of_ne hne, Set.union_singleton, Set.ncard_insert_of_notMem (by simpa using hna) (Set.toFinite _), Finset.card_insert_of_notMem hr]
      omega
    · intro a ha b hab
      obtain ⟨haR, haQ⟩ := Finset.mem_sdiff.mp ha
      have haQ' := Finset.mem_insert.not.mp haQ
      push Not at haQ'
      have haR' : a ∈ R \ Q := Finset.mem_sdiff.mpr ⟨haR, haQ'.2⟩
      have key : ∀ x y, T'.Reachable a x → (T' ⊔ edge r r0).Adj x y → T'.Reachable a y := by
        intro x y hx hxy
        rw [sup_adj, edge_adj] at hxy
        rcases hxy with hxy | ⟨(⟨rfl, rfl⟩ | ⟨rfl, rfl⟩), -⟩
        · exact hx.trans hxy.reachable
        · exact absurd (hR a (Finset.mem_insert_of_mem haR) _ (Finset.mem_insert_of_mem hrR) (h3 a haR' _ hx)) haQ'.1
        · exact absurd (hR a (Finset.mem_insert_of_mem haR) _ (Finset.mem_insert_self _ _) (h3 a haR' _ hx)) (fun e => hr0 (e ▸ haR))
      refine h3 a haR' b ?_
      obtain ⟨p⟩ := hab
      have : ∀ x y (p : (T' ⊔ edge r r0).Walk x y), T'.Reachable a x → T'.Reachable a y := by
        intro x y p
        induction p with
        | nil => exact id
        | cons h _ ih => exact fun hx => ih (key _ _ hx h)
      exact this a b p (Reachable.refl a)

/-- A forest has at least as many vertices as edges and parts. -/
theorem forest_count [Fintype α] [DecidableEq α] {T : SimpleGraph α} (hT : T.IsAcyclic) {R : Finset α}
    (hR : ∀ a ∈ R, ∀ b ∈ R, T.Reachable a b → a = b) : T.edgeSet.ncard + R.card ≤ Fintype.card α := by
  have tree : ∀ T : SimpleGraph α, Nonempty α → T.IsAcyclic → T.edgeSet.ncard + 1 ≤ Fintype.card α := by
    intro T hne hT
    obtain ⟨T', h1, h2, h3⟩ := (connected_top (V := α)).exists_isTree_le_of_le_of_isAcyclic le_top hT
    classical
    have h4 := h3.card_edgeFinset
    have h5 : T.edgeSet.ncard ≤ T'.edgeFinset.card := by
      rw [← Set.ncard_coe_finset, coe_edgeFinset]
      exact Set.ncard_le_ncard (edgeSet_mono h1) (Set.toFinite _)
    omega
  rcases R.eq_empty_or_nonempty with rfl | ⟨r0, h0⟩
  · rcases isEmpty_or_nonempty α with h | h
    · have : T.edgeSet = ∅ := by
        ext e
        induction e with | _ a b => exact h.elim a
      simp [this]
    · have := tree T h hT
      simp only [Finset.card_empty]; omega
  · obtain ⟨T', h1, h2, -⟩ := forest_join (R := R.erase r0) (r0 := r0) hT (Finset.notMem_erase _ _) (by rw [Finset.insert_erase h0]; exact hR) _ (Finset.Subset.refl _)
    have := tree T' ⟨r0⟩ h1
    rw [Finset.card_erase_of_mem h0] at h2
    have := Finset.card_pos.mpr ⟨r0, h0⟩
    omega

/-- At most one cycle in every part: at most as many edges as vertices. -/
theorem oneCycle_count [Fintype α] [DecidableEq α] {G : SimpleGraph α} (h : AtMostOneCycle G) : G.edgeSet.ncard ≤ Fintype.card α := by
  classical
  obtain ⟨T, hle, hT, hreach⟩ := G.exists_isAcyclic_reachable_eq_le
  -- every further edge closes a cycle with the forest
  have hcyc : ∀ e, ∃ a : α, e ∈ G.edgeSet \ T.edgeSet → ∃ p : G.Walk a a, p.IsCycle ∧ e ∈ p.edges ∧ ∀ e' ∈ p.edges, e' = e ∨ e' ∈ T.edgeSet := by
    intro e
    induction e with
    | _ a b =>
      refine ⟨a, fun he => ?_⟩
      have hab : G.Adj a b := he.1
      have hr : T.Reachable b a := by rw [hreach]; exact hab.symm.reachable
      obtain ⟨p, hp⟩ := hr.exists_isPath
      refine ⟨Walk.cons hab (p.mapLe hle), ?_, by simp, ?_⟩
      · rw [Walk.cons_isCycle_iff]
        refine ⟨hp.mapLe hle, fun hm => he.2 ?_⟩
        rw [Walk.edges_mapLe_eq_edges] at hm
        exact p.edges_subset_edgeSet hm
      · intro e' he'
        rw [Walk.edges_cons, List.mem_cons, Walk.edges_mapLe_eq_edges] at he'
        rcases he' with rfl | he'
        · exact Or.inl rfl
        · exact Or.inr (p.edges_subset_edgeSet he')
  choose root hcyc using hcyc
  set X : Finset (Sym2 α) := (Set.toFinite (G.edgeSet \ T.edgeSet)).toFinset with hX
  have hXm : ∀ e, e ∈ X ↔ e ∈ G.edgeSet \ T.edgeSet := fun e => by rw [hX, Set.Finite.mem_toFinset]
  have hsep : ∀ e ∈ X, ∀ e' ∈ X, T.Reachable (root e) (root e') → e = e' := by
    intro e he e' he' hr
    rw [hXm] at he he'
    rw [hreach] at hr
    obtain ⟨p, p1, p2, p3⟩ := hcyc e he
    obtain ⟨q, q1, q2, q3⟩ := hcyc e' he'
    rcases p3 e' ((h p q p1 q1 hr e').mpr q2) with h' | h'
    · exact h'.symm
    · exact absurd h' he'.2
  have hcard : (X.image root).card = X.card := Finset.card_image_of_injOn fun e he e' he' heq => hsep e he e' he' (by rw [heq])
  have h1 := forest_count hT (R := X.image root) (by
    intro a ha b hb hab
    obtain ⟨e, he, rfl⟩ := Finset.mem_image.mp ha
    obtain ⟨e', he', rfl⟩ := Finset.mem_image.mp hb
    rw [hsep e he e' he' hab])
  have h2 : G.edgeSet.ncard = T.edgeSet.ncard + X.card := by
    have e : G.edgeSet = T.edgeSet ∪ (G.edgeSet \ T.edgeSet) := (Set.union_sdiff_cancel (edgeSet_mono hle)).symm
    have e2 : X.card = (G.edgeSet \ T.edgeSet).ncard := by rw [hX, Set.ncard_eq_toFinset_card _ (Set.toFinite _)]
    rw [e2]
    conv_lhs => rw [e]
    exact Set.ncard_union_eq Set.disjoint_sdiff_right (Set.toFinite _) (Set.toFinite _)
  omega

/-- If moreover every vertex has two neighbours, none has three. -/
theorem oneCycle_degree [Fintype α] [DecidableEq α] {G : SimpleGraph α} [DecidableRel G.Adj] (h : AtMostOneCycle G) (hd : ∀ a, 2 ≤ G.degree a) (a : α) :
    G.degree a = 2 := by
  have h1 := oneCycle_count h
  have h2 := G.sum_degrees_eq_twice_card_edges
  rw [← Set.ncard_coe_finset, coe_edgeFinset] at h2
  by_contra hne
  have h3 : ∑ _a : α, 2 < ∑ a, G.degree a := Finset.sum_lt_sum (fun b _ => hd b) ⟨a, Finset.mem_univ _, lt_of_le_of_ne (hd a) (Ne.symm hne)⟩
  rw [Finset.sum_const, Finset.card_univ, smul_eq_mul] at h3
  omega

/-- A cycle through an edge is the edge and a path that joins its ends without it. -/
theorem cycle_open [DecidableEq α] {G : SimpleGraph α} {u a b : α} {p : G.Walk u u} (hp : p.IsCycle) (he : s(a, b) ∈ p.edges) :
    ∃ q : (G.deleteEdges {s(a, b)}).Walk b a, q.IsPath ∧ ∀ e, e ∈ p.edges ↔ e = s(a, b) ∨ e ∈ q.edges := by
  -- from a step along the edge
  have main : ∀ {a b : α} {e0 : Sym2 α} (hab : G.Adj a b), e0 = s(a, b) → (⟨(a, b), hab⟩ : G.Dart) ∈ p.darts →
      ∃ q : (G.deleteEdges {e0}).Walk b a, q.IsPath ∧ ∀ e, e ∈ p.edges ↔ e = e0 ∨ e ∈ q.edges := by
    rintro a b _ hab rfl hd
    have ha : a ∈ p.support := p.dart_fst_mem_support_of_mem_darts hd
    have hc := hp.rotate ha
    have hd' : (⟨(a, b), hab⟩ : G.Dart) ∈ (p.rotate a ha).darts := (p.rotate_darts a ha).perm.mem_iff.mpr hd
    have hedges : ∀ e, e ∈ (p.rotate a ha).edges ↔ e ∈ p.edges := fun e => (p.rotate_edges a ha).perm.mem_iff
    generalize p.rotate a ha = c at hc hd' hedges
    cases c with
    | nil => exact absurd rfl hc.ne_nil
    | @cons _ b' _ h q =>
      rw [Walk.cons_isCycle_iff] at hc
      rw [Walk.darts_cons, List.mem_cons] at hd'
      have hfst : (⟨(a, b), hab⟩ : G.Dart) ∉ q.darts := by
        intro hm
        have h1 := hc.1.support_nodup
        rw [← Walk.map_fst_darts_append, List.nodup_append] at h1
        exact h1.2.2 a (List.mem_map.mpr ⟨_, hm, rfl⟩) a (List.mem_singleton_self a) rfl
      have hbb : b = b' := by
        rcases hd' with hd' | hd'
        · exact congrArg (fun d : G.Dart => d.snd) hd'
        · exact absurd hd' hfst
      subst hbb
      refine ⟨q.toDeleteEdges {s(a, b)} (fun e he => by rintro rfl; exact hc.2 he), hc.1.toDeleteEdges _ _ _, fun e => ?_⟩
      rw [← hedges e, Walk.edges_cons, List.mem_cons, Walk.toDeleteEdges, Walk.edges_transfer]
  obtain ⟨d, hd, e⟩ := List.mem_map.mp he
  rcases d with ⟨⟨x, y⟩, hxy⟩
  rcases Sym2.eq_iff.mp (show s(x, y) = s(a, b) from e) with ⟨rfl, rfl⟩ | ⟨rfl, rfl⟩
  · exact main hxy rfl hd
  · obtain ⟨q, h1, h2⟩ := main hxy Sym2.eq_swap hd
    exact ⟨q.reverse, h1.reverse, fun e => by rw [h2, Walk.edges_reverse, List.mem_reverse]⟩

/-- If leaving out one edge leaves no cycle, there was at most one. -/
theorem oneCycle_of_delete {G : SimpleGraph α} {a b : α} (h : (G.deleteEdges {s(a, b)}).IsAcyclic) : AtMostOneCycle G := by
  classical
  have hall : ∀ {u : α} (p : G.Walk u u), p.IsCycle → s(a, b) ∈ p.edges := by
    intro u p hp
    by_contra hn
    exact h _ (hp.toDeleteEdges _ {s(a, b)} (fun e he => by rintro rfl; exact hn he))
  intro u v p q hp hq _ e
  obtain ⟨p', h1, h2⟩ := cycle_open hp (hall p hp)
  obtain ⟨q', h3, h4⟩ := cycle_open hq (hall q hq)
  have : p' = q' := congrArg Subtype.val ((h.subsingleton_path b a).elim ⟨p', h1⟩ ⟨q', h3⟩)
  rw [h2, h4, this]

end graph

section
variable {ι κ : Type} [DecidableEq ι] [DecidableEq κ] {G : Finset κ} {V : κ → Finset ι}

/-- Constraints that all share two variables with others: each shares exactly two, and each of these belongs to exactly two of them. -/
theorem core_degrees (ha : AtMostOneCycle (factorGraph G V)) {F : Finset κ} (hF : F ⊆ G)
    (hne : ∀ c ∈ F, (V c).Nonempty) (h : ∀ c ∈ F, ∀ u, ∃ v ∈ V c, v ≠ u ∧ ∃ c' ∈ F, c' ≠ c ∧ v ∈ V c') {S : Finset ι}
    (hS : ∀ v, v ∈ S ↔ ∃ c ∈ F, ∃ c' ∈ F, c' ≠ c ∧ v ∈ V c ∧ v ∈ V c') :
    (∀ c ∈ F, (V c ∩ S).card = 2) ∧ ∀ v ∈ S, (F.filter (fun c => v ∈ V c)).card = 2 := by
  classical
  set f : ↥F ⊕ ↥S → κ ⊕ ι := Sum.map Subtype.val Subtype.val with hf
  have hinj : Function.Injective f := Sum.map_injective.mpr ⟨Subtype.val_injective, Subtype.val_injective⟩
  set H : SimpleGraph (↥F ⊕ ↥S) := (factorGraph G V).comap f with hH
  have hone : AtMostOneCycle H := oneCycle_hom (G := factorGraph G V) (⟨f, fun {a b} hab => hab⟩ : H →g factorGraph G V) hinj ha
  have hadj : ∀ (c : ↥F) (v : ↥S), H.Adj (.inl c) (.inr v) ↔ v.1 ∈ V c.1 := by
    intro c v
    rw [hH, comap_adj]
    constructor
    · rintro ⟨c', _, v', hv', (⟨h1, h2⟩ | ⟨h1, h2⟩)⟩
      · obtain rfl := Sum.inl.inj h1
        obtain rfl := Sum.inr.inj h2
        exact hv'
      · cases h1
    · exact fun hv => factor_adj (hF c.2) hv
  have hll : ∀ c c' : ↥F, ¬ H.Adj (.inl c) (.inl c') := by
    rintro c c' ⟨_, _, _, _, (⟨_, h2⟩ | ⟨h1, _⟩)⟩
    · cases h2
    · cases h1
  have hrr : ∀ v v' : ↥S, ¬ H.Adj (.inr v) (.inr v') := by
    rintro c c' ⟨_, _, _, _, (⟨h1, _⟩ | ⟨_, h2⟩)⟩
    · cases h1
    · cases h2
  have hdl : ∀ c : ↥F, H.degree (.inl c) = (V c.1 ∩ S).card := by
    intro c
    rw [← card_neighborFinset_eq_degree]
    symm
    refine Finset.card_bij (fun v hv => Sum.inr ⟨v, (Finset.mem_inter.mp hv).2⟩) (fun v hv => ?_) (fun v _ v' _ e => ?_) (fun x hx => ?_)
    · rw [mem_neighborFinset, hadj]; exact (Finset.mem_inter.mp hv).1
    · exact congrArg Subtype.val (Sum.inr.inj e)
    · rw [mem_neighborFinset] at hx
      rcases x with c' | v
      · exact absurd hx (hll c c')
      · exact ⟨v.1, Finset.mem_inter.mpr ⟨(hadj c v).mp hx, v.2⟩, rfl⟩
  have hdr : ∀ v : ↥S, H.degree (.inr v) = (F.filter (fun c => v.1 ∈ V c)).card := by
    intro v
    rw [← card_neighborFinset_eq_degree]
    symm
    refine Finset.card_bij (fun c hc => Sum.inl ⟨c, (Finset.mem_filter.mp hc).1⟩) (fun c hc => ?_) (fun v _ v' _ e => ?_) (fun x hx => ?_)
    · rw [mem_neighborFinset, adj_comm, hadj]; exact (Finset.mem_filter.mp hc).2
    · exact congrArg Subtype.val (Sum.inl.inj e)
    · rw [mem_neighborFinset] at hx
      rcases x with c | v'
      · exact ⟨c.1, Finset.mem_filter.mpr ⟨c.2, (hadj c v).mp hx.symm⟩, rfl⟩
      · exact absurd hx (hrr v v')
  have hmin : ∀ a, 2 ≤ H.degree a := by
    rintro (c | v)
    · rw [hdl]
      obtain ⟨v1, w1, -, c1, k1, n1, z1⟩ := h c.1 c.2 (hne c.1 c.2).choose
      obtain ⟨v2, w2, n, c2, k2, n2, z2⟩ := h c.1 c.2 v1
      have : ({v1, v2} : Finset ι) ⊆ V c.1 ∩ S := by
        intro x hx
        rcases Finset.mem_insert.mp hx with rfl | hx
        · exact Finset.mem_inter.mpr ⟨w1, (hS _).mpr ⟨c.1, c.2, c1, k1, n1, w1, z1⟩⟩
        · rw [Finset.mem_singleton.mp hx]; exact Finset.mem_inter.mpr ⟨w2, (hS _).mpr ⟨c.1, c.2, c2, k2, n2, w2, z2⟩⟩
      have h3 := Finset.card_le_card this
      rwa [Finset.card_pair n.symm] at h3
    · rw [hdr]
      obtain ⟨c, hc, c', hc', hne, h1, h2⟩ := (hS v.1).mp v.2
      have : ({c, c'} : Finset κ) ⊆ F.filter (fun c => v.1 ∈ V c) := by
        intro x hx
        rcases Finset.mem_insert.mp hx with rfl | hx
        · exact Finset.mem_filter.mpr ⟨hc, h1⟩
        · rw [Finset.mem_singleton.mp hx]; exact Finset.mem_filter.mpr ⟨hc', h2⟩
      have h3 := Finset.card_le_card this
      rwa [Finset.card_pair hne.symm] at h3
  refine ⟨fun c hc => ?_, fun v hv => ?_⟩
  · rw [← hdl ⟨c, hc⟩]; exact oneCycle_degree hone hmin _
  · rw [← hdr ⟨v, hv⟩]; exact oneCycle_degree hone hmin _

/-- Counting along a graph with at most one cycle in every part: leaving out one variable of every constraint leaves every variable at most once. -/
theorem onecycle_sum (ha : AtMostOneCycle (factorGraph G V)) {g : ι → ℚ} {m : κ → ℚ} (hg : ∀ c ∈ G, ∀ v ∈ V c, 0 < g v) (hm : ∀ c ∈ G, ∀ v ∈ V c, g v ≤ m c) :
    ∀ (n : ℕ) (F : Finset κ), F.card = n → F ⊆ G → (∀ c ∈ F, (V c).Nonempty) → ∑ c ∈ F, (∑ v ∈ V c, g v - m c) ≤ ∑ v ∈ F.biUnion V, g v := by
  intro n
  induction n with
  | zero =>
    intro F hF _ _
    obtain rfl := Finset.card_eq_zero.mp hF
    simp
  | succ n ih =>
    intro F hF hG hV
    have hpos : ∀ v ∈ F.biUnion V, 0 < g v := by
      intro v hv
      obtain ⟨c', hc', hvc⟩ := Finset.mem_biUnion.mp hv
      exact hg c' (hG hc') v hvc
    by_cases hleaf : ∃ c ∈ F, ∃ u ∈ V c, ∀ c' ∈ F, c' ≠ c → ∀ v ∈ V c, v ∈ V c' → v = u
    · obtain ⟨c, hc, u, hu, hs⟩ := hleaf
      have h1 := ih (F.erase c) (by rw [Finset.card_erase_of_mem hc]; omega) ((Finset.erase_subset _ _).trans hG)
        (fun c' hc' => hV c' (Finset.mem_of_mem_erase hc'))
      have hcG := hG hc
      have hdis : Disjoint ((F.erase c).biUnion V) ((V c).erase u) := by
        rw [Finset.disjoint_left]
        intro v hv hv'
        obtain ⟨c', hc', hvc⟩ := Finset.mem_biUnion.mp hv
        exact Finset.ne_of_mem_erase hv' (hs c' (Finset.mem_of_mem_erase hc') (Finset.ne_of_mem_erase hc') v (Finset.mem_of_mem_erase hv') hvc)
      have hsub : (F.erase c).biUnion V ∪ (V c).erase u ⊆ F.biUnion V := by
        intro v hv
        rcases Finset.mem_union.mp hv with h | h
        · obtain ⟨c', hc', hvc⟩ := Finset.mem_biUnion.mp h
          exact Finset.mem_biUnion.mpr ⟨c', Finset.mem_of_mem_erase hc', hvc⟩
        · exact Finset.mem_biUnion.mpr ⟨c, hc, Finset.mem_of_mem_erase h⟩
      have hle : ∑ v ∈ (F.erase c).biUnion V, g v + ∑ v ∈ (V c).erase u, g v ≤ ∑ v ∈ F.biUnion V, g v := by
        rw [← Finset.sum_union hdis]
        exact Finset.sum_le_sum_of_subset_of_nonneg hsub fun v hv _ => (hpos v hv).le
      have hc1 : ∑ v ∈ V c, g v - m c ≤ ∑ v ∈ (V c).erase u, g v := by
        rw [← Finset.add_sum_erase (V c) g hu]
        linarith [hm c hcG u hu]
      have hsplit := Finset.add_sum_erase F (fun c => ∑ v ∈ V c, g v - m c) hc
      beta_reduce at hsplit
      rw [← hsplit]
      linarith
    · push Not at hleaf
      have h : ∀ c ∈ F, ∀ u, ∃ v ∈ V c, v ≠ u ∧ ∃ c' ∈ F, c' ≠ c ∧ v ∈ V c' := by
        intro c hc u
        obtain ⟨u0, hu0⟩ := hV c hc
        by_cases hu : u ∈ V c
        · obtain ⟨c', h1, h2, v, h3, h4, h5⟩ := hleaf c hc u hu
          exact ⟨v, h3, h5, c', h1, h2, h4⟩
        · obtain ⟨c', h1, h2, v, h3, h4, h5⟩ := hleaf c hc u0 hu0
          exact ⟨v, h3, fun e => hu (e ▸ h3), c', h1, h2, h4⟩
      set S : Finset ι := (F.biUnion V).filter (fun v => ∃ c ∈ F, ∃ c' ∈ F, c' ≠ c ∧ v ∈ V c ∧ v ∈ V c') with hSdef
      have hS : ∀ v, v ∈ S ↔ ∃ c ∈ F, ∃ c' ∈ F, c' ≠ c ∧ v ∈ V c ∧ v ∈ V c' := by
        intro v
        rw [hSdef, Finset.mem_filter, Finset.mem_biUnion]
        exact ⟨And.right, fun ⟨c, hc, c', hc', hne, h1, h2⟩ => ⟨⟨c, hc, h1⟩, c, hc, c', hc', hne, h1, h2⟩⟩
      obtain ⟨hd1, hd2⟩ := core_degrees ha hG hV h hS
      -- every variable is counted once, the shared ones twice
      have hswap : ∀ U ⊆ F.biUnion V, ∑ c ∈ F, ∑ v ∈ V c ∩ U, g v = ∑ v ∈ U, ((F.filter (fun c => v ∈ V c)).card : ℚ) * g v := by
        intro U _
        have : ∀ c ∈ F, ∑ v ∈ V c ∩ U, g v = ∑ v ∈ U, if v ∈ V c then g v else 0 := by
          intro c _
          rw [← Finset.sum_filter, Finset.filter_mem_eq_inter, Finset.inter_comm]
        rw [Finset.sum_congr rfl this, Finset.sum_comm]
        refine Finset.sum_congr rfl fun v _ => ?_
        rw [← Finset.sum_filter, Finset.sum_const, nsmul_eq_mul]
      have hSsub : S ⊆ F.biUnion V := Finset.filter_subset _ _
      have e1 : ∑ c ∈ F, ∑ v ∈ V c, g v = ∑ v ∈ F.biUnion V, g v + ∑ v ∈ S, g v := by
        have h0 : ∑ c ∈ F, ∑ v ∈ V c, g v = ∑ c ∈ F, ∑ v ∈ V c ∩ F.biUnion V, g v :=
          Finset.sum_congr rfl fun c hc => by rw [Finset.inter_eq_left.mpr (Finset.subset_biUnion_of_mem V hc)]
        rw [h0, hswap _ (Finset.Subset.refl _), ← Finset.inter_eq_right.mpr hSsub, ← Finset.sum_ite_mem, ← Finset.sum_add_distrib]
        refine Finset.sum_congr rfl fun v hv => ?_
        split_ifs with hvS
        · rw [hd2 v hvS]; push_cast; ring
        · obtain ⟨c, hc, hvc⟩ := Finset.mem_biUnion.mp hv
          have : F.filter (fun c => v ∈ V c) = {c} := by
            ext c'
            rw [Finset.mem_filter, Finset.mem_singleton]
            refine ⟨fun hc' => ?_, fun e => e ▸ ⟨hc, hvc⟩⟩
            by_contra hne
            exact hvS ((hS v).mpr ⟨c, hc, c', hc'.1, hne, hvc, hc'.2⟩)
          rw [this]; simp
      have e2 : ∑ c ∈ F, ∑ v ∈ V c ∩ S, g v = 2 * ∑ v ∈ S, g v := by
        rw [hswap S hSsub, Finset.mul_sum]
        refine Finset.sum_congr rfl fun v hv => ?_
        rw [hd2 v hv]; push_cast; ring
      have e3 : ∑ c ∈ F, ∑ v ∈ V c ∩ S, g v ≤ ∑ c ∈ F, 2 * m c := by
        refine Finset.sum_le_sum fun c hc => ?_
        have := Finset.sum_le_card_nsmul (V c ∩ S) g (m c) (fun v hv => hm c (hG hc) v (Finset.mem_inter.mp hv).1)
        rw [hd1 c hc] at this
        simpa using this
      rw [← Finset.mul_sum] at e3
      rw [Finset.sum_sub_distrib, e1]
      linarith

end

section
variable {ι κ : Type} [DecidableEq ι] [DecidableEq κ] {vars : Finset ι} {F : Finset κ} {V : κ → Finset ι} {w b : ι → ℚ} {x r : κ → ι → ℚ}
  {valid : κ → Finset ι → Prop}

/-- Settled messages without ties: no change with at most one cycle in each part improves the decisions. -/
theorem settled_cycle (hV : ∀ c ∈ F, V c ⊆ vars) (hw : ∀ v ∈ vars, b v = w v + ∑ c ∈ F.filter (fun c => v ∈ V c), r c v)
    (hx : ∀ c ∈ F, ∀ v ∈ V c, x c v = b v - r c v) (hm : ∀ c ∈ F, ∀ v ∈ V c, IsMessage (V c) (valid c) (x c) v (fin (r c v)))
    (hb : ∀ v ∈ vars, b v ≠ 0) {S : Finset ι} (hS : S ⊆ vars) (hval : ∀ c ∈ F, valid c (V c ∩ S)) 
    (hac : OneCycleChange F V (vars.filter (fun v => b v < 0)) S) : cost w (vars.filter (fun v => b v < 0)) ≤ cost w S := by
  set D : κ → Finset ι := fun c => (V c).filter (fun v => v ∈ S ↔ ¬ b v < 0) with hD
  have hDeq : ∀ c ∈ F, (V c).filter (fun v => ¬ (v ∈ vars.filter (fun v => b v < 0) ↔ v ∈ S)) = D c := by
    intro c hc
    rw [hD]
    refine Finset.filter_congr fun v hv => ?_
    rw [Finset.mem_filter]
    have := hV c hc hv
    by_cases h1 : v ∈ S <;> by_cases h2 : b v < 0 <;> simp [h1, h2, this]
  have hac' : AtMostOneCycle (factorGraph F D) := by
    have : factorGraph F (fun c => (V c).filter (fun v => ¬ (v ∈ vars.filter (fun v => b v < 0) ↔ v ∈ S))) = factorGraph F D := by
      ext p q
      simp only [factorGraph]
      constructor
      · rintro ⟨c, hc, v, hv, h⟩
        exact ⟨c, hc, v, by rw [← hDeq c hc]; exact hv, h⟩
      · rintro ⟨c, hc, v, hv, h⟩
        exact ⟨c, hc, v, by rw [hDeq c hc]; exact hv, h⟩
    rw [← this]; exact hac
  set m : κ → ℚ := fun c => cost (x c) (V c ∩ S) - cost (x c) ((V c).filter (fun v => b v < 0)) with hmdef
  have hgain : ∀ c ∈ F, ∀ v ∈ D c, |b v| ≤ m c := by
    intro c hc v hv
    obtain ⟨h1, h2⟩ := Finset.mem_filter.mp hv
    have := (settled_valid (vars := V c) (valid := valid c) (x := x c) (b := b) (fun u hu => by
      have := hm c hc u hu
      rw [show b u - x c u = r c u by rw [hx c hc u hu]; ring]; exact this) ⟨v, h1⟩ (fun u hu => hb u (hV c hc hu))).2 (V c ∩ S) Finset.inter_subset_left
        (hval c hc) v h1 (by rw [← h2]; simp [h1])
    rw [hmdef]; linarith
  have hpos : ∀ v ∈ vars, 0 < |b v| := fun v hv => abs_pos.mpr (hb v hv)
  have t1 := onecycle_sum (G := F) hac' (g := fun v => |b v|) (m := m) (fun c hc v hv => hpos v (hV c hc (Finset.mem_filter.mp hv).1)) hgain _
    (F.filter (fun c => (D c).Nonempty)) rfl (Finset.filter_subset _ _) (fun c hc => (Finset.mem_filter.mp hc).2)
  have hsum : ∑ c ∈ F, (m c - ∑ v ∈ D c, |b v|) = - ∑ c ∈ F.filter (fun c => (D c).Nonempty), (∑ v ∈ D c, |b v| - m c) := by
    rw [← Finset.sum_neg_distrib, Finset.sum_filter]
    refine Finset.sum_congr rfl fun c hc => ?_
    split_ifs with h
    · ring
    · have h0 := Finset.not_nonempty_iff_eq_empty.mp h
      have : V c ∩ S = (V c).filter (fun v => b v < 0) := by
        ext v
        rw [Finset.mem_inter, Finset.mem_filter]
        refine and_congr_right fun hv => ?_
        have : v ∉ D c := by rw [h0]; simp
        rw [hD] at this
        simp only [Finset.mem_filter, hv, true_and] at this
        tauto
      rw [hmdef, h0]
      simp only [this, Finset.sum_empty]; ring
  have hg := settled_gain hV hw hx hS
  have hsub : (F.filter (fun c => (D c).Nonempty)).biUnion D ⊆ vars.filter (fun v => v ∈ S ↔ ¬ b v < 0) := by
    intro v hv
    obtain ⟨c, hc, hvc⟩ := Finset.mem_biUnion.mp hv
    obtain ⟨h1, h2⟩ := Finset.mem_filter.mp hvc
    exact Finset.mem_filter.mpr ⟨hV c (Finset.mem_filter.mp hc).1 h1, h2⟩
  have hle : ∑ v ∈ (F.filter (fun c => (D c).Nonempty)).biUnion D, |b v| ≤ ∑ v ∈ vars.filter (fun v => v ∈ S ↔ ¬ b v < 0), |b v| :=
    Finset.sum_le_sum_of_subset_of_nonneg hsub fun v _ _ => abs_nonneg _
  have hg' : cost w S - cost w (vars.filter (fun v => b v < 0)) = ∑ v ∈ vars.filter (fun v => v ∈ S ↔ ¬ b v < 0), |b v| + ∑ c ∈ F, (m c - ∑ v ∈ D c, |b v|) := hg
  rw [hsum] at hg'
  linarith

end

end Verif.Proofs
