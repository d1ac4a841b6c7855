import Verif.Proofs.TspKOpt
import Verif.Spec.Loops

/-! Helper lemmas for the selected edges that post-processing keeps. -/

namespace Verif.Proofs
open Verif Model Spec Num

/-- Selected edges into and out of a node. -/
def entering (sel : List (ℕ × ℕ)) (k : ℕ) : List (ℕ × ℕ) := sel.filter (fun e => e.2 == k)
def leaving (sel : List (ℕ × ℕ)) (k : ℕ) : List (ℕ × ℕ) := sel.filter (fun e => e.1 == k)

def gOf (sel : List (ℕ × ℕ)) (k : ℕ) : List ℕ × List ℕ := ((entering sel k).map Prod.fst, (leaving sel k).map Prod.snd)

def addKey (ks : List ℕ) (a : ℕ) : List ℕ := if a ∈ ks then ks else ks ++ [a]

theorem addKey_nodup {ks : List ℕ} {a : ℕ} (h : ks.Nodup) : (addKey ks a).Nodup := by
  unfold addKey
  split_ifs with ha
  · exact h
  · exact List.nodup_append.mpr ⟨h, by simp, fun x hx y hy => by rw [List.mem_singleton.mp hy]; rintro rfl; exact ha hx⟩

theorem mem_addKey {ks : List ℕ} {a k : ℕ} : k ∈ addKey ks a ↔ k ∈ ks ∨ k = a := by
  unfold addKey
  split_ifs with ha
  · constructor
    · exact .inl
    · rintro (h | rfl) <;> assumption
  · simp

theorem upsert_map {ks : List ℕ} {f : ℕ → List ℕ × List ℕ} (h0 : ∀ k, k ∉ ks → f k = ([], [])) (a : ℕ)
    (change : List ℕ × List ℕ → List ℕ × List ℕ) :
    upsert (ks.map (fun k => (k, f k))) a change (change ([], [])) =
      (addKey ks a).map (fun k => (k, if k = a then change (f a) else f k)) := by
  unfold upsert addKey
  by_cases ha : a ∈ ks
  · rw [if_pos (by simpa using ha), if_pos ha, List.map_map]
    refine List.map_congr_left fun k _ => ?_
    by_cases hk : k = a
    · subst hk; simp
    · simp [hk]
  · rw [if_neg (by simpa using ha), if_neg ha, List.map_append]
    congr 1
    · refine List.map_congr_left fun k hk => ?_
      have : k ≠ a := fun h => ha (h ▸ hk)
      simp [this]
    · simp [h0 a ha]

theorem constructGraph_eq (sel : List (ℕ × ℕ)) : ∃ ks : List ℕ, constructGraph sel = ks.map (fun k => (k, gOf sel k)) ∧ ks.Nodup ∧
    ∀ k, k ∈ ks ↔ ∃ e ∈ sel, e.1 = k ∨ e.2 = k := by
  induction sel using List.reverseRecOn with
  | nil => exact ⟨[], rfl, by simp, by simp⟩
  | append_singleton sel e ih =>
    obtain ⟨ks, h1, h2, h3⟩ := ih
    have h0 : ∀ k, k ∉ ks → gOf sel k = ([], []) := by
      intro k hk
      rw [h3] at hk
      unfold gOf entering leaving
      rw [List.filter_eq_nil_iff.mpr (fun e he => by have : e.2 ≠ k := fun h => hk ⟨e, he, .inr h⟩; simpa using this),
        List.filter_eq_nil_iff.mpr (fun e he => by have : e.1 ≠ k := fun h => hk ⟨e, he, .inl h⟩; simpa using this)]
      rfl
    refine ⟨addKey (addKey ks e.1) e.2, ?_, addKey_nodup (addKey_nodup h2), fun k => ?_⟩
    · unfold constructGraph at h1 ⊢
      rw [List.foldl_append, h1, List.foldl_cons, List.foldl_nil]
      have u1 := upsert_map h0 e.1 (fun p => (p.1, p.2 ++ [e.2]))
      rw [show ([], [e.2]) = (fun p : List ℕ × List ℕ => (p.1, p.2 ++ [e.2])) ([], []) from rfl, u1]
      have u2 := upsert_map (ks := addKey ks e.1) (f := fun k => if k = e.1 then ((gOf sel e.1).1, (gOf sel e.1).2 ++ [e.2]) else gOf sel k)
        (fun k hk => by
          rw [mem_addKey, not_or] at hk
          simp only [hk.2, if_false]
          exact h0 k hk.1) e.2 (fun p => (p.1 ++ [e.1], p.2))
      rw [show ([e.1], []) = (fun p : List ℕ × List ℕ => (p.1 ++ [e.1], p.2)) ([], []) from rfl]
      refine u2.trans (List.map_congr_left fun k _ => ?_)
      have hin : ∀ k, entering (sel ++ [e]) k = entering sel k ++ if e.2 = k then [e] else [] := fun k => by
        simp only [entering, List.filter_append, List.filter_cons, List.filter_nil, beq_iff_eq]
      have hout : ∀ k, leaving (sel ++ [e]) k = leaving sel k ++ if e.1 = k then [e] else [] := fun k => by
        simp only [leaving, List.filter_append, List.filter_cons, List.filter_nil, beq_iff_eq]
      simp only [gOf, hin, hout]
      by_cases hk2 : k = e.2
      · subst hk2
        by_cases h12 : e.2 = e.1
        · simp [h12]
        · simp [h12, Ne.symm h12]
      · by_cases hk1 : k = e.1
        · subst hk1; simp [hk2, Ne.symm hk2]
        · simp [hk1, hk2, Ne.symm hk1, Ne.symm hk2]
    · rw [mem_addKey, mem_addKey, h3]
      constructor
      · rintro ((⟨x, hx, h⟩ | rfl) | rfl)
        · exact ⟨x, by simp [hx], h⟩
        · exact ⟨e, by simp, .inl rfl⟩
        · exact ⟨e, by simp, .inr rfl⟩
      · rintro ⟨x, hx, h⟩
        rcases List.mem_append.mp hx with hx | hx
        · exact .inl (.inl ⟨x, hx, h⟩)
        · rw [List.mem_singleton.mp hx] at h
          rcases h with rfl | rfl
          · exact .inl (.inr rfl)
          · exact .inr rfl

theorem lookup_map {ks : List ℕ} (f : ℕ → List ℕ × List ℕ) {k : ℕ} (hk : k ∈ ks) : lookupNode (ks.map (fun k => (k, f k))) k = some (f k) := by
  unfold lookupNode
  induction ks with
  | nil => simp at hk
  | cons a ks ih =>
    by_cases ha : a = k
    · subst ha; simp
    · have : k ∈ ks := by simpa [Ne.symm ha] using hk
      simp only [List.map_cons, List.find?_cons]
      rw [show (a == k) = false by simpa using ha]
      exact ih this

theorem edgeIndex_some {py : TspPy} {e : ℕ × ℕ} (h : e ∈ py.edges) : ∃ i, edgeIndex py e = some i ∧ py.edges[i]? = some e := by
  unfold edgeIndex
  have : (py.edges.findIdx? (fun x => x == e)).isSome := by
    rw [List.findIdx?_isSome, List.any_eq_true]
    exact ⟨e, h, by simp⟩
  obtain ⟨i, hi⟩ := Option.isSome_iff_exists.mp this
  refine ⟨i, hi, ?_⟩
  obtain ⟨h1, h2, -⟩ := List.findIdx?_eq_some_iff_getElem.mp hi
  rw [List.getElem?_eq_getElem h1]
  exact congrArg some (by simpa using h2)

/-- The strength of a belief. -/
def Beliefs (py : TspPy) (b : ℕ × ℕ → ℚ) : Prop := py.intr = py.edges.map (fun e => fin (b e))

theorem weakestEdge_spec {py : TspPy} (hlen : py.edges.length ≤ py.intr.length) {idx : List ℕ} {es : List (ℕ × ℕ)} (hne : es ≠ [])
    (hidx : idx.map (fun i => py.edges[i]?) = es.map some) :
    ∃ m e, weakestEdge py idx = some m ∧ py.edges[m]? = some e ∧ e ∈ es ∧
      ∀ b, Beliefs py b → ∀ e' ∈ es, |b e| ≤ |b e'| := by
  have hl : idx.length = es.length := by simpa using congrArg List.length hidx
  have hget : ∀ i (h : i < idx.length), py.edges[idx[i]]? = some (es[i]'(hl ▸ h)) := by
    intro i h
    have := congrArg (fun l => l[i]?) hidx
    simpa [h, hl ▸ h] using this
  have hlt : ∀ i ∈ idx, i < py.intr.length := by
    intro i hi
    obtain ⟨k, hk, rfl⟩ := List.mem_iff_getElem.mp hi
    have := (List.getElem?_eq_some_iff.mp (hget k hk)).1
    omega
  have hm : idx.mapM (fun i => py.intr[i]?) = some (idx.map (fun i => py.intr.getD i 0)) := mapM_some (fun i hi => by
    rw [List.getD_eq_getElem?_getD, List.getElem?_eq_getElem (hlt i hi)]; rfl)
  have hne' : idx ≠ [] := by
    intro h; rw [h] at hl; exact hne (List.length_eq_zero_iff.mp hl.symm)
  obtain ⟨k, hk, hk2⟩ := argmin_lt (l := (idx.map (fun i => py.intr.getD i 0)).map Num.abs) (by simpa using hne')
  have hk' : k < idx.length := by simpa using hk
  refine ⟨idx[k], es[k]'(hl ▸ hk'), ?_, hget k hk', List.getElem_mem _, fun b hb e' he' => ?_⟩
  · unfold weakestEdge
    rw [hm]
    simp only [Option.bind_eq_bind, Option.bind_some, hk2]
    exact List.getElem?_eq_getElem hk'
  · have hv : (idx.map (fun i => py.intr.getD i 0)).map Num.abs = (es.map (fun e => |b e|)).map fin := by
      refine List.ext_getElem (by simp [hl]) fun i h1 h2 => ?_
      have hi : i < idx.length := by simpa using h1
      simp only [List.getElem_map]
      have hg := hget i hi
      have : py.intr.getD idx[i] 0 = fin (b (es[i]'(hl ▸ hi))) := by
        have hb' : py.intr = py.edges.map (fun e => fin (b e)) := hb
        simp only [hb', List.getD_eq_getElem?_getD, List.getElem?_map, hg, Option.map_some, Option.getD_some]
      rw [this]; rfl
    obtain ⟨k', h1, x, h2, h3⟩ := argmin_fin (l := es.map (fun e => |b e|)) (by simpa using hne)
    rw [hv, h1] at hk2
    obtain rfl : k' = k := by simpa using hk2
    rw [List.getElem?_map, List.getElem?_eq_getElem (hl ▸ hk')] at h2
    have : |b (es[k']'(hl ▸ hk'))| = x := by simpa using h2
    rw [this]
    exact h3 _ (List.mem_map.mpr ⟨e', he', rfl⟩)

theorem thinOut_spec {py : TspPy} (hlen : py.edges.length ≤ py.intr.length) {conns : List (ℕ × ℕ)} (hc : ∀ e ∈ conns, e ∈ py.edges)
    (hd : conns.Nodup) : ∀ (fuel : ℕ) (own removed : List (ℕ × ℕ)), own.Nodup → (∀ e ∈ own, e ∈ conns) → (∀ e ∈ own, e ∈ removed) →
      conns.length ≤ own.length + fuel →
      ∃ R, thinOut py conns fuel own removed = some R ∧ (∀ e ∈ removed, e ∈ R) ∧ (∀ e ∈ R, e ∈ removed ∨ e ∈ conns) ∧
        (conns.filter (fun e => !R.contains e)).length =
          (conns.filter (fun e => !removed.contains e)).length - (conns.length - own.length - 1) ∧
        ∀ b, Beliefs py b → ∀ e ∈ R, e ∉ removed → ∀ e' ∈ conns, e' ∉ R → |b e| ≤ |b e'| := by
  intro fuel
  induction fuel with
  | zero =>
    intro own removed h1 h2 h3 h4
    unfold thinOut
    rw [if_pos (by omega)]
    refine ⟨removed, rfl, fun e h => h, fun e h => .inl h, by rw [show conns.length - own.length - 1 = 0 by omega]; rfl,
      fun b _ e he hn => absurd he hn⟩
  | succ fuel ih =>
    intro own removed h1 h2 h3 h4
    unfold thinOut
    by_cases hle : conns.length - own.length ≤ 1
    · rw [if_pos hle]
      refine ⟨removed, rfl, fun e h => h, fun e h => .inl h, by rw [show conns.length - own.length - 1 = 0 by omega]; rfl,
        fun b _ e he hn => absurd he hn⟩
    · rw [if_neg hle]
      set av := conns.filter (fun e => !removed.contains e) with hav
      have hidx : av.mapM (edgeIndex py) = some (av.map (fun e => (edgeIndex py e).getD 0)) := mapM_some (fun e he => by
        obtain ⟨i, hi, -⟩ := edgeIndex_some (hc e (List.mem_of_mem_filter he))
        rw [hi]; rfl)
      simp only [hidx, Option.bind_eq_bind, Option.bind_some]
      by_cases hav0 : av = []
      · rw [hav0, List.map_nil, if_pos rfl]
        refine ⟨removed, rfl, fun e h => h, fun e h => .inl h, ?_, fun b _ e he hn => absurd he hn⟩
        rw [← hav, hav0]; simp
      · rw [if_neg (by simpa using hav0)]
        obtain ⟨m, e, w1, w2, w3, w4⟩ := weakestEdge_spec hlen (idx := av.map (fun e => (edgeIndex py e).getD 0)) hav0 (by
          rw [List.map_map]
          refine List.map_congr_left fun e he => ?_
          obtain ⟨i, hi, hi2⟩ := edgeIndex_some (hc e (List.mem_of_mem_filter he))
          simp [hi, hi2])
        have hec : e ∈ conns := List.mem_of_mem_filter w3
        have her : e ∉ removed := by have := (List.mem_filter.mp w3).2; simpa using this
        have heo : e ∉ own := fun h => her (h3 e h)
        simp only [w1, Option.bind_some, w2]
        rw [if_neg (by simpa using heo), if_neg (by simpa using her)]
        obtain ⟨R, r1, r2, r3, r4, r5⟩ := ih (own ++ [e]) (removed ++ [e])
          (List.nodup_append.mpr ⟨h1, by simp, fun x hx y hy => by rw [List.mem_singleton.mp hy]; rintro rfl; exact heo hx⟩)
          (fun x hx => by
            rcases List.mem_append.mp hx with hx | hx
            · exact h2 x hx
            · rw [List.mem_singleton.mp hx]; exact hec)
          (fun x hx => by
            rcases List.mem_append.mp hx with hx | hx
            · exact List.mem_append_left _ (h3 x hx)
            · exact List.mem_append_right _ hx) (by simp; omega)
        refine ⟨R, r1, fun x hx => r2 x (List.mem_append_left _ hx), fun x hx => ?_, ?_, fun b hb x hx hxn y hy hyn => ?_⟩
        · rcases r3 x hx with h | h
          · rcases List.mem_append.mp h with h | h
            · exact .inl h
            · rw [List.mem_singleton.mp h]; exact .inr hec
          · exact .inr h
        · rw [r4]
          have : conns.filter (fun x => !(removed ++ [e]).contains x) = av.erase e := by
            rw [(hd.filter _).erase_eq_filter, List.filter_filter]
            refine List.filter_congr fun x _ => ?_
            by_cases a1 : x ∈ removed <;> by_cases a2 : x = e <;> simp [a1, a2]
          rw [this, List.length_erase_of_mem w3, List.length_append, List.length_singleton]
          omega
        · by_cases hxe : x = e
          · subst hxe
            refine w4 b hb y (List.mem_filter.mpr ⟨hy, ?_⟩)
            have : y ∉ removed := fun h => hyn (r2 y (List.mem_append_left _ h))
            simpa using this
          · exact r5 b hb x hx (by simp [hxn, hxe]) y hy hyn

/-- One direction of one node: nothing happens with at most one edge; if one of the edges was removed before, all are removed; otherwise one
strongest edge is left. -/
theorem thinOut_node {py : TspPy} (hlen : py.edges.length ≤ py.intr.length) {conns : List (ℕ × ℕ)} (hc : ∀ e ∈ conns, e ∈ py.edges)
    (hd : conns.Nodup) (removed : List (ℕ × ℕ)) :
    ∃ R, thinOut py conns conns.length [] removed = some R ∧ (∀ e ∈ removed, e ∈ R) ∧ (∀ e ∈ R, e ∈ removed ∨ e ∈ conns) ∧
      (conns.length ≤ 1 → R = removed) ∧ (2 ≤ conns.length → (∃ e ∈ conns, e ∈ removed) → ∀ e ∈ conns, e ∈ R) ∧
      (2 ≤ conns.length → (∀ e ∈ conns, e ∉ removed) →
        ∃ e ∈ conns, (∀ e' ∈ conns, e' ∉ R ↔ e' = e) ∧ ∀ b, Beliefs py b → ∀ e' ∈ conns, |b e'| ≤ |b e|) := by
  obtain ⟨R, h1, h2, h3, h4, h5⟩ := thinOut_spec hlen hc hd conns.length [] removed (by simp) (by simp) (by simp) (by simp)
  refine ⟨R, h1, h2, h3, fun hl => ?_, fun hl ⟨e, he, her⟩ e' he' => ?_, fun hl hno => ?_⟩
  · unfold thinOut at h1
    rw [if_pos (by simpa using hl)] at h1
    simpa using h1.symm
  · by_contra hn
    have hpos : 0 < (conns.filter (fun e => !R.contains e)).length :=
      List.length_pos_of_mem (List.mem_filter.mpr ⟨he', by simpa using hn⟩)
    have hlt : (conns.filter (fun e => !removed.contains e)).length < conns.length :=
      List.length_filter_lt_length_iff_exists.mpr ⟨e, he, by simpa using her⟩
    rw [h4] at hpos
    simp only [List.length_nil] at hpos
    omega
  · have hall : conns.filter (fun e => !removed.contains e) = conns := List.filter_eq_self.mpr (fun e he => by simpa using hno e he)
    rw [hall, List.length_nil] at h4
    obtain ⟨e, he⟩ := List.length_eq_one_iff.mp (show (conns.filter (fun e => !R.contains e)).length = 1 by omega)
    have hmem : ∀ e' ∈ conns, e' ∉ R ↔ e' = e := by
      intro e' he'
      have : e' ∈ conns.filter (fun e => !R.contains e) ↔ e' ∉ R := by simp [he']
      rw [← this, he, List.mem_singleton]
    have hec : e ∈ conns := by
      have : e ∈ conns.filter (fun e => !R.contains e) := by rw [he]; simp
      exact List.mem_of_mem_filter this
    refine ⟨e, hec, hmem, fun b hb e' he' => ?_⟩
    by_cases heq : e' = e
    · rw [heq]
    · have hR : e' ∈ R := by by_contra hn; exact heq ((hmem e' he').mp hn)
      exact h5 b hb e' hR (hno e' he') e hec ((hmem e hec).mpr rfl)

theorem thinOut_left {py : TspPy} (hlen : py.edges.length ≤ py.intr.length) {conns : List (ℕ × ℕ)} (hc : ∀ e ∈ conns, e ∈ py.edges)
    (hd : conns.Nodup) (removed : List (ℕ × ℕ)) :
    ∃ R, thinOut py conns conns.length [] removed = some R ∧ (∀ e ∈ removed, e ∈ R) ∧ (∀ e ∈ R, e ∈ removed ∨ e ∈ conns) ∧
      ∀ e ∈ conns, ∀ e' ∈ conns, e ∉ R → e' ∉ R → e = e' := by
  obtain ⟨R, h1, h2, h3, h4, h5, h6⟩ := thinOut_node hlen hc hd removed
  refine ⟨R, h1, h2, h3, fun e he e' he' hn hn' => ?_⟩
  by_cases hl : conns.length ≤ 1
  · rcases conns with _ | ⟨a, _ | ⟨b, l⟩⟩
    · simp at he
    · rw [List.mem_singleton.mp he, List.mem_singleton.mp he']
    · simp at hl
  · by_cases hex : ∃ e ∈ conns, e ∈ removed
    · exact absurd (h5 (by omega) hex e he) hn
    · obtain ⟨x, -, hx, -⟩ := h6 (by omega) (fun e he hr => hex ⟨e, he, hr⟩)
      rw [(hx e he).mp hn, (hx e' he').mp hn']

theorem conns_in (sel : List (ℕ × ℕ)) (k : ℕ) : (gOf sel k).1.map (fun v => (v, k)) = entering sel k := by
  unfold gOf
  rw [List.map_map]
  conv_rhs => rw [← List.map_id (entering sel k)]
  refine List.map_congr_left fun e he => ?_
  have : e.2 = k := by simpa [entering] using (List.mem_filter.mp he).2
  simp [← this]

theorem conns_out (sel : List (ℕ × ℕ)) (k : ℕ) : (gOf sel k).2.map (fun v => (k, v)) = leaving sel k := by
  unfold gOf
  rw [List.map_map]
  conv_rhs => rw [← List.map_id (leaving sel k)]
  refine List.map_congr_left fun e he => ?_
  have : e.1 = k := by simpa [leaving] using (List.mem_filter.mp he).2
  simp [← this]

/-- One node of `removeExcess`. -/
def nodeStep (py : TspPy) (sel : List (ℕ × ℕ)) (k : ℕ) (removed : List (ℕ × ℕ)) : Option (List (ℕ × ℕ)) := do
  let removed ← thinOut py (entering sel k) (entering sel k).length [] removed
  thinOut py (leaving sel k) (leaving sel k).length [] removed

theorem removeExcess_eq (py : TspPy) (sel : List (ℕ × ℕ)) : ∃ ks : List ℕ, removeExcess py (constructGraph sel) =
    loopList ks (nodeStep py sel) [] ∧ ks.Nodup ∧ ∀ k, k ∈ ks ↔ 2 ≤ (entering sel k).length ∨ 2 ≤ (leaving sel k).length := by
  obtain ⟨ks, h1, h2, h3⟩ := constructGraph_eq sel
  have e1 : ((ks.map (fun k => (k, gOf sel k))).filter (fun p => p.2.1.length > 1 || p.2.2.length > 1)).map Prod.fst =
      ks.filter (fun k => (entering sel k).length > 1 || (leaving sel k).length > 1) := by
    rw [List.filter_map, List.map_map]
    have : (Prod.fst ∘ fun k => (k, gOf sel k)) = id := rfl
    rw [this, List.map_id]
    refine List.filter_congr fun k _ => ?_
    simp [gOf]
  refine ⟨ks.filter (fun k => (entering sel k).length > 1 || (leaving sel k).length > 1), ?_, h2.filter _, fun k => ?_⟩
  · unfold removeExcess
    rw [h1, e1]
    have hsub : ∀ l : List ℕ, (∀ k ∈ l, k ∈ ks) → ∀ r, loopList l (fun key removed => do
        let (ins, outs) ← lookupNode (ks.map (fun k => (k, gOf sel k))) key
        let removed ← thinOut py (ins.map (fun v => (v, key))) ins.length [] removed
        thinOut py (outs.map (fun v => (key, v))) outs.length [] removed) r = loopList l (nodeStep py sel) r := by
      intro l
      induction l with
      | nil => intro _ r; rfl
      | cons a l ih =>
        intro hl r
        rw [loopList, loopList, lookup_map (gOf sel) (hl a (by simp))]
        have : (gOf sel a).1.length = (entering sel a).length := by simp [gOf]
        have h2 : (gOf sel a).2.length = (leaving sel a).length := by simp [gOf]
        simp only [Option.bind_eq_bind, Option.bind_some, conns_in, conns_out, this, h2]
        have ih' := ih (fun k hk => hl k (by simp [hk]))
        unfold nodeStep at ih' ⊢
        simp only [Option.bind_eq_bind] at ih' ⊢
        congr 1
        funext r'
        exact ih' r'
    exact hsub _ (fun k hk => List.mem_of_mem_filter hk) []
  · rw [List.mem_filter, h3]
    simp only [gt_iff_lt, Bool.or_eq_true, decide_eq_true_eq]
    constructor
    · rintro ⟨-, h⟩; exact h
    · intro h
      refine ⟨?_, h⟩
      rcases h with h | h
      · obtain ⟨e, he⟩ := List.exists_mem_of_length_pos (show 0 < (entering sel k).length by omega)
        exact ⟨e, List.mem_of_mem_filter he, .inr (by simpa [entering] using (List.mem_filter.mp he).2)⟩
      · obtain ⟨e, he⟩ := List.exists_mem_of_length_pos (show 0 < (leaving sel k).length by omega)
        exact ⟨e, List.mem_of_mem_filter he, .inl (by simpa [leaving] using (List.mem_filter.mp he).2)⟩

theorem one_of_length {l : List (ℕ × ℕ)} (h : l.length < 2) {e e' : ℕ × ℕ} (he : e ∈ l) (he' : e' ∈ l) : e = e' := by
  rcases l with _ | ⟨a, _ | ⟨b, l⟩⟩
  · simp at he
  · rw [List.mem_singleton.mp he, List.mem_singleton.mp he']
  · simp at h

section
variable {py : TspPy} {sel : List (ℕ × ℕ)} (hlen : py.edges.length ≤ py.intr.length) (hsel : ∀ e ∈ sel, e ∈ py.edges) (hd : sel.Nodup)
include hlen hsel hd

theorem nodeStep_spec (k : ℕ) (removed : List (ℕ × ℕ)) : ∃ R, nodeStep py sel k removed = some R ∧ (∀ e ∈ removed, e ∈ R) ∧
    (∀ e ∈ R, e ∈ removed ∨ e ∈ sel) ∧ (∀ e ∈ sel, ∀ e' ∈ sel, e.2 = k → e'.2 = k → e ∉ R → e' ∉ R → e = e') ∧
    (∀ e ∈ sel, ∀ e' ∈ sel, e.1 = k → e'.1 = k → e ∉ R → e' ∉ R → e = e') := by
  obtain ⟨R1, a1, a2, a3, a4⟩ := thinOut_left hlen (conns := entering sel k) (fun e he => hsel e (List.mem_of_mem_filter he)) (hd.filter _) removed
  obtain ⟨R2, b1, b2, b3, b4⟩ := thinOut_left hlen (conns := leaving sel k) (fun e he => hsel e (List.mem_of_mem_filter he)) (hd.filter _) R1
  refine ⟨R2, ?_, fun e he => b2 e (a2 e he), fun e he => ?_, fun e he e' he' h h' hn hn' => ?_, fun e he e' he' h h' hn hn' => ?_⟩
  · unfold nodeStep
    rw [a1, Option.bind_eq_bind, Option.bind_some, b1]
  · rcases b3 e he with h | h
    · exact (a3 e h).imp id List.mem_of_mem_filter
    · exact .inr (List.mem_of_mem_filter h)
  · exact a4 e (List.mem_filter.mpr ⟨he, by simpa using h⟩) e' (List.mem_filter.mpr ⟨he', by simpa using h'⟩) (fun hh => hn (b2 e hh))
      (fun hh => hn' (b2 e' hh))
  · exact b4 e (List.mem_filter.mpr ⟨he, by simpa using h⟩) e' (List.mem_filter.mpr ⟨he', by simpa using h'⟩) hn hn'

theorem nodeLoop_spec : ∀ (ks : List ℕ) (removed : List (ℕ × ℕ)), ∃ R, loopList ks (nodeStep py sel) removed = some R ∧
    (∀ e ∈ removed, e ∈ R) ∧ (∀ e ∈ R, e ∈ removed ∨ e ∈ sel) ∧
    (∀ k ∈ ks, ∀ e ∈ sel, ∀ e' ∈ sel, e.2 = k → e'.2 = k → e ∉ R → e' ∉ R → e = e') ∧
    (∀ k ∈ ks, ∀ e ∈ sel, ∀ e' ∈ sel, e.1 = k → e'.1 = k → e ∉ R → e' ∉ R → e = e')
  | [], removed => ⟨removed, rfl, fun _ h => h, fun _ h => .inl h, by simp, by simp⟩
  | k :: ks, removed => by
    obtain ⟨R1, a1, a2, a3, a4, a5⟩ := nodeStep_spec hlen hsel hd k removed
    obtain ⟨R2, b1, b2, b3, b4, b5⟩ := nodeLoop_spec ks R1
    refine ⟨R2, by rw [loopList, a1]; simpa using b1, fun e he => b2 e (a2 e he), fun e he => ?_, fun x hx e he e' he' h h' hn hn' => ?_,
      fun x hx e he e' he' h h' hn hn' => ?_⟩
    · rcases b3 e he with h | h
      · exact a3 e h
      · exact .inr h
    · rcases List.mem_cons.mp hx with rfl | hx
      · exact a4 e he e' he' h h' (fun hh => hn (b2 e hh)) (fun hh => hn' (b2 e' hh))
      · exact b4 x hx e he e' he' h h' hn hn'
    · rcases List.mem_cons.mp hx with rfl | hx
      · exact a5 e he e' he' h h' (fun hh => hn (b2 e hh)) (fun hh => hn' (b2 e' hh))
      · exact b5 x hx e he e' he' h h' hn hn'

/-- After the removal no node has two selected edges in the same direction. -/
theorem removeExcess_spec : ∃ R, removeExcess py (constructGraph sel) = some R ∧ (∀ e ∈ R, e ∈ sel) ∧
    (∀ e ∈ sel, ∀ e' ∈ sel, e.2 = e'.2 → e ∉ R → e' ∉ R → e = e') ∧ (∀ e ∈ sel, ∀ e' ∈ sel, e.1 = e'.1 → e ∉ R → e' ∉ R → e = e') := by
  obtain ⟨ks, h1, -, h3⟩ := removeExcess_eq py sel
  obtain ⟨R, r1, -, r3, r4, r5⟩ := nodeLoop_spec hlen hsel hd ks []
  refine ⟨R, h1.trans r1, fun e he => by simpa using r3 e he, fun e he e' he' h hn hn' => ?_, fun e he e' he' h hn hn' => ?_⟩
  · by_cases hk : e'.2 ∈ ks
    · exact r4 _ hk e he e' he' h rfl hn hn'
    · rw [h3, not_or] at hk
      exact one_of_length (l := entering sel e'.2) (by omega) (List.mem_filter.mpr ⟨he, by simpa using h⟩) (List.mem_filter.mpr ⟨he', by simp⟩)
  · by_cases hk : e'.1 ∈ ks
    · exact r5 _ hk e he e' he' h rfl hn hn'
    · rw [h3, not_or] at hk
      exact one_of_length (l := leaving sel e'.1) (by omega) (List.mem_filter.mpr ⟨he, by simpa using h⟩) (List.mem_filter.mpr ⟨he', by simp⟩)
end

end Verif.Proofs
