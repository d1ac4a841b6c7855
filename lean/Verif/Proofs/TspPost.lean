import Verif.Model.TspPost
import Verif.Spec.TspPost
import Verif.Proofs.KcPost

/-! Helper lemmas for the TSP post-processing: sums over tours, argmin, insertion of missing nodes, k-opt. -/

namespace Verif.Proofs
open Verif Model Spec Num

theorem flatMap_filter_perm {α : Type} [BEq α] [LawfulBEq α] : ∀ {edges L : List α}, edges.Nodup → (∀ p ∈ L, p ∈ edges) →
    (edges.flatMap (fun e => L.filter (fun p => e == p))).Perm L
  | [], L, _, h => by
    rcases L with _ | ⟨a, L⟩
    · simp
    · exact absurd (h a (by simp)) (by simp)
  | e :: edges, L, hn, h => by
    obtain ⟨h1, h2⟩ := List.nodup_cons.mp hn
    rw [List.flatMap_cons]
    have ih := flatMap_filter_perm (edges := edges) (L := L.filter (fun p => !(e == p))) h2 (fun p hp => by
      obtain ⟨a, b⟩ := List.mem_filter.mp hp
      rcases List.mem_cons.mp (h p a) with rfl | hm
      · simp at b
      · exact hm)
    have : edges.flatMap (fun e' => L.filter (fun p => e' == p)) =
        edges.flatMap (fun e' => (L.filter (fun p => !(e == p))).filter (fun p => e' == p)) := by
      refine List.flatMap_congr fun e' he' => ?_
      rw [List.filter_filter]
      refine List.filter_congr fun p _ => ?_
      by_cases hp : e' = p
      · subst hp
        have : e ≠ e' := fun hh => h1 (hh ▸ he')
        simp [this]
      · simp [hp]
    rw [this]
    exact (List.Perm.append_left _ ih).trans (List.filter_append_perm _ L)

/-- The cyclic pairs of a tour. -/
abbrev cyc (t : List ℕ) : List (ℕ × ℕ) := t.zip (t.tail ++ t.head?.toList)

theorem cyc_eq (t : List ℕ) : cyc t = t.zip (t.rotate 1) := by
  rcases t with _ | ⟨a, t⟩ <;> simp [cyc]

theorem zipIdx_flatMap_fst {α β : Type} (f : α → List β) : ∀ (l : List α) (n : ℕ), (l.zipIdx n).flatMap (fun p => f p.1) = l.flatMap f
  | [], _ => rfl
  | a :: l, n => by rw [List.zipIdx_cons, List.flatMap_cons, List.flatMap_cons, zipIdx_flatMap_fst f l]

theorem tourEdges_lt {py : TspPy} {t : List ℕ} {i : ℕ} (h : i ∈ tourEdges py t) : ∃ e ∈ cyc t, py.edges[i]? = some e := by
  unfold tourEdges at h
  obtain ⟨p, hp, hi⟩ := List.mem_flatMap.mp h
  obtain ⟨e, he, rfl⟩ := List.mem_map.mp hi
  obtain ⟨e1, e2⟩ := List.mem_filter.mp he
  have := List.mem_zipIdx' hp
  rw [beq_iff_eq] at e2
  refine ⟨e, e1, ?_⟩
  rw [List.getElem?_eq_getElem this.1, ← this.2, e2]

theorem foldl_fin_sum : ∀ (l : List ℚ) (s : ℚ), (l.map fin).foldl (fun s c => s + c) (fin s) = fin (s + l.sum)
  | [], s => by simp
  | a :: l, s => by
    rw [List.map_cons, List.foldl_cons, show (fin s + fin a : Num) = fin (s + a) from rfl, foldl_fin_sum l, List.sum_cons, add_assoc]

/-- The cost of a closed sequence of edges of the graph. -/
theorem tourCost_spec {py : TspPy} {C : ℕ → ℕ → ℚ} (hn : py.edges.Nodup) (hc : py.costs = py.edges.map (fun e => fin (C e.1 e.2)))
    {t : List ℕ} (ht : ∀ p ∈ cyc t, p ∈ py.edges) : tourCost py t = some (fin (tourLength C t)) := by
  unfold tourCost
  rw [mapM_some (g := fun i => fin (C (py.edges.getD i (0, 0)).1 (py.edges.getD i (0, 0)).2)) (fun i hi => by
    obtain ⟨e, -, he⟩ := tourEdges_lt hi
    rw [hc, List.getElem?_map, he, List.getD_eq_getElem?_getD, he]; rfl), Option.bind_eq_bind, Option.bind_some]
  have e1 : (tourEdges py t).map (fun i => C (py.edges.getD i (0, 0)).1 (py.edges.getD i (0, 0)).2) =
      (py.edges.flatMap (fun e => (cyc t).filter (fun p => e == p))).map (fun p => C p.1 p.2) := by
    unfold tourEdges
    rw [← zipIdx_flatMap_fst (fun e => (cyc t).filter (fun p => e == p)) py.edges 0, List.map_flatMap, List.map_flatMap]
    refine List.flatMap_congr fun p hp => ?_
    have hp' := List.mem_zipIdx' hp
    rw [List.map_map]
    refine List.map_congr_left fun e he => ?_
    have := (List.mem_filter.mp he).2
    rw [beq_iff_eq] at this
    have hg : py.edges.getD p.2 (0, 0) = e := by
      rw [List.getD_eq_getElem?_getD, List.getElem?_eq_getElem hp'.1, ← hp'.2, this]; rfl
    simp only [Function.comp, hg]
  have e2 : (tourEdges py t).map (fun i => fin (C (py.edges.getD i (0, 0)).1 (py.edges.getD i (0, 0)).2)) =
      ((tourEdges py t).map (fun i => C (py.edges.getD i (0, 0)).1 (py.edges.getD i (0, 0)).2)).map fin := by
    rw [List.map_map]; rfl
  rw [e2, zero_def, foldl_fin_sum, zero_add, e1]
  have hp := (List.Perm.map (fun p : ℕ × ℕ => C p.1 p.2) (flatMap_filter_perm hn ht)).sum_eq
  refine congrArg some (congrArg fin (hp.trans ?_))
  rw [cyc_eq]
  rfl

/-- Cyclic pairs of a tour of distinct nodes are distinct nodes of the tour. -/
theorem cyc_edges {n : ℕ} {edges : List (ℕ × ℕ)} (hE : Complete n edges) {t : List ℕ} (hd : t.Nodup) (hlt : ∀ v ∈ t, v < n)
    (h2 : 2 ≤ t.length) : ∀ p ∈ cyc t, p ∈ edges := by
  intro p hp
  rw [cyc_eq] at hp
  obtain ⟨i, hi, e⟩ := List.mem_iff_getElem.mp hp
  have hi' : i < t.length := by simpa using hi
  rw [List.getElem_zip, List.getElem_rotate] at e
  have h1 : t[i] ∈ t := List.getElem_mem _
  have h2' : t[(i + 1) % t.length]'(Nat.mod_lt _ (by omega)) ∈ t := List.getElem_mem _
  rw [← e]
  refine hE _ (hlt _ h1) _ (hlt _ h2') fun heq => ?_
  have := (List.Nodup.getElem_inj_iff hd).mp heq
  by_cases hl : i + 1 < t.length
  · rw [Nat.mod_eq_of_lt hl] at this; omega
  · have h3 : (i + 1) % t.length = 0 := by rw [show i + 1 = t.length by omega, Nat.mod_self]
    omega

theorem argminFold (l : List Num) : ∀ (n : ℕ) (s : Num × ℕ), s.2 < n →
    (((l.zipIdx n).foldl (fun (s : Num × ℕ) p => if s.1 = nan then s else if p.1 = nan ∨ lt p.1 s.1 then p else s) s).2 < n + l.length) := by
  induction l with
  | nil => intro n s h; simpa using h
  | cons a l ih =>
    intro n s h
    rw [List.zipIdx_cons, List.foldl_cons, List.length_cons]
    have := ih (n + 1) (if s.1 = nan then s else if (a, n).1 = nan ∨ lt (a, n).1 s.1 then (a, n) else s) (by split_ifs <;> simp <;> omega)
    omega

theorem argmin_lt {l : List Num} (h : l ≠ []) : ∃ k < l.length, argmin l = some k := by
  rcases l with _ | ⟨x, l⟩
  · exact absurd rfl h
  · refine ⟨_, ?_, rfl⟩
    have := argminFold l 1 (x, 0) (by simp)
    simpa [add_comm] using this

/-- On finite numbers `argmin` finds a smallest entry. -/
theorem argmin_fin {l : List ℚ} (h : l ≠ []) : ∃ k : ℕ, argmin (l.map fin) = some k ∧ ∃ x, l[k]? = some x ∧ ∀ y ∈ l, x ≤ y := by
  have key : ∀ (l done : List ℚ) (s : Num × ℕ), (∃ x, s.1 = fin x ∧ done[s.2]? = some x ∧ ∀ y ∈ done, x ≤ y) →
      ∃ r, ((l.map fin).zipIdx done.length).foldl
          (fun (s : Num × ℕ) p => if s.1 = nan then s else if p.1 = nan ∨ lt p.1 s.1 then p else s) s = r ∧
        ∃ x, r.1 = fin x ∧ (done ++ l)[r.2]? = some x ∧ ∀ y ∈ done ++ l, x ≤ y := by
    intro l
    induction l with
    | nil => intro done s h; exact ⟨s, rfl, by simpa using h⟩
    | cons a l ih =>
      rintro done s ⟨x, h1, h2, h3⟩
      rw [List.map_cons, List.zipIdx_cons, List.foldl_cons]
      have := ih (done ++ [a]) (if s.1 = nan then s else if (fin a, done.length).1 = nan ∨ lt (fin a, done.length).1 s.1 then
        (fin a, done.length) else s) (by
          simp only [h1, reduceCtorEq, if_false, false_or, lt_fin, decide_eq_true_eq]
          split_ifs with hlt
          · refine ⟨a, rfl, by simp, fun y hy => ?_⟩
            rcases List.mem_append.mp hy with hy | hy
            · exact hlt.le.trans (h3 y hy)
            · rw [List.mem_singleton.mp hy]
          · refine ⟨x, h1, ?_, fun y hy => ?_⟩
            · rw [List.getElem?_append_left (List.getElem?_eq_some_iff.mp h2).1]; exact h2
            · rcases List.mem_append.mp hy with hy | hy
              · exact h3 y hy
              · rw [List.mem_singleton.mp hy]; exact not_lt.mp hlt)
      rw [List.length_append, List.length_singleton] at this
      simpa using this
  rcases l with _ | ⟨x, l⟩
  · exact absurd rfl h
  · obtain ⟨r, h1, y, -, h3, h4⟩ := key l [x] (fin x, 0) ⟨x, rfl, rfl, by simp⟩
    refine ⟨r.2, ?_, y, h3, h4⟩
    rw [← h1]; rfl

/-! ## Missing nodes -/

theorem cheapest_fin {m : Mat Num} {n : ℕ} {C : ℕ → ℕ → ℚ} (hm : m.Is n n C) :
    ∀ (l : List (ℕ × ℕ)), (∀ c ∈ l, c.1 < n ∧ c.2 < n) → ∀ (c0 : ℕ × ℕ),
      ∃ c ∈ c0 :: l, loopList l (fun c s => do
        let x ← m.rd c.1 c.2
        some (if lt x s.1 then (x, some c) else s)) (fin (C c0.1 c0.2), some c0) = some (fin (C c.1 c.2), some c) ∧
        ∀ c' ∈ c0 :: l, C c.1 c.2 ≤ C c'.1 c'.2
  | [], _, c0 => ⟨c0, by simp, rfl, by simp⟩
  | a :: l, h, c0 => by
    have ha := h a (by simp)
    simp only [loopList, hm.rd ha.1 ha.2, Option.bind_eq_bind, Option.bind_some, lt_fin, decide_eq_true_eq]
    by_cases hlt : C a.1 a.2 < C c0.1 c0.2
    · obtain ⟨c, c1, c2, c3⟩ := cheapest_fin hm l (fun c hc => h c (by simp [hc])) a
      rw [if_pos hlt]
      refine ⟨c, by simp only [List.mem_cons] at c1 ⊢; tauto, by simpa using c2, fun c' hc' => ?_⟩
      rcases List.mem_cons.mp hc' with rfl | hc'
      · exact (c3 a (by simp)).trans hlt.le
      · exact c3 c' hc'
    · obtain ⟨c, c1, c2, c3⟩ := cheapest_fin hm l (fun c hc => h c (by simp [hc])) c0
      rw [if_neg hlt]
      refine ⟨c, by simp only [List.mem_cons] at c1 ⊢; tauto, by simpa using c2, fun c' hc' => ?_⟩
      rcases List.mem_cons.mp hc' with rfl | hc'
      · exact c3 c' (by simp)
      · rcases List.mem_cons.mp hc' with rfl | hc'
        · exact (c3 c0 (by simp)).trans (not_lt.mp hlt)
        · exact c3 c' (by simp [hc'])

theorem cheapest_spec {m : Mat Num} {n : ℕ} {C : ℕ → ℕ → ℚ} (hm : m.Is n n C) {l : List (ℕ × ℕ)} (h : ∀ c ∈ l, c.1 < n ∧ c.2 < n)
    (hne : l ≠ []) (old : Option (ℕ × ℕ)) :
    ∃ c ∈ l, cheapest m l old = some (fin (C c.1 c.2), some c) ∧ ∀ c' ∈ l, C c.1 c.2 ≤ C c'.1 c'.2 := by
  rcases l with _ | ⟨a, l⟩
  · exact absurd rfl hne
  · have ha := h a (by simp)
    obtain ⟨c, c1, c2, c3⟩ := cheapest_fin hm l (fun c hc => h c (by simp [hc])) a
    refine ⟨c, c1, ?_, c3⟩
    unfold cheapest
    simp only [loopList, hm.rd ha.1 ha.2, Option.bind_eq_bind, Option.bind_some]
    rw [show lt (fin (C a.1 a.2)) pinf = true from rfl, if_pos rfl]
    simpa using c2

theorem argmin_two (x y : ℚ) : argmin [fin x, fin y] = some (if y < x then 1 else 0) := by
  simp only [argmin, List.zipIdx_cons, List.zipIdx_nil, List.foldl_cons, List.foldl_nil, reduceCtorEq, if_false, false_or, lt_fin, decide_eq_true_eq]
  split_ifs <;> rfl

theorem addMissingLoop_spec {m : Mat Num} {n : ℕ} {C : ℕ → ℕ → ℚ} (hm : m.Is n n C) {missing : List ℕ} (hd : missing.Nodup)
    (hlt : ∀ v ∈ missing, v < n) : ∀ (fuel : ℕ) (tour added : List ℕ) (left right : Option (ℕ × ℕ)), tour ≠ [] → (∀ v ∈ tour, v < n) →
      added.Nodup → (∀ v ∈ added, v ∈ missing) → missing.length = added.length + fuel →
      ∃ r, addMissingLoop m missing fuel tour added left right = some r ∧ Greedy C tour (missing.filter (fun v => !added.contains v)) r
  | 0, tour, added, left, right, _, _, hda, hsub, hlen => by
    unfold addMissingLoop
    rw [if_pos (by omega)]
    refine ⟨tour, rfl, ?_⟩
    have hp : added.Perm missing := (List.subperm_of_subset hda hsub).perm_of_length_le (by omega)
    have : missing.filter (fun v => !added.contains v) = [] := List.filter_eq_nil_iff.mpr (fun v hv => by
      simp [hp.mem_iff.mpr hv])
    rw [this]; exact .done
  | fuel + 1, tour, added, left, right, hne, htl, hda, hsub, hlen => by
    unfold addMissingLoop
    rw [if_neg (by omega)]
    simp only [List.head?_eq_some_head hne, List.getLast?_eq_some_getLast hne, Option.bind_eq_bind, Option.bind_some]
    set rest := missing.filter (fun v => !added.contains v) with hrest
    have hrne : rest ≠ [] := by
      intro h0
      have : missing ⊆ added := fun v hv => by
        by_contra hno
        have : v ∈ rest := List.mem_filter.mpr ⟨hv, by simpa using hno⟩
        rw [h0] at this; simp at this
      have := (List.subperm_of_subset hd this).length_le
      omega
    have hrlt : ∀ v ∈ rest, v < n := fun v hv => hlt v (List.mem_of_mem_filter hv)
    obtain ⟨c, c1, c2, c3⟩ := cheapest_spec hm (l := rest.map (fun v => (v, tour.head hne))) (fun c hc => by
      obtain ⟨v, hv, rfl⟩ := List.mem_map.mp hc
      exact ⟨hrlt v hv, htl _ (List.head_mem hne)⟩) (by simpa using hrne) left
    obtain ⟨e, e1, e2, e3⟩ := cheapest_spec hm (l := rest.map (fun v => (tour.getLast hne, v))) (fun c hc => by
      obtain ⟨v, hv, rfl⟩ := List.mem_map.mp hc
      exact ⟨htl _ (List.getLast_mem hne), hrlt v hv⟩) (by simpa using hrne) right
    obtain ⟨a, ha, rfl⟩ := List.mem_map.mp c1
    obtain ⟨b, hb, rfl⟩ := List.mem_map.mp e1
    have ca : ∀ w ∈ rest, C a (tour.head hne) ≤ C w (tour.head hne) := fun w hw => c3 _ (List.mem_map.mpr ⟨w, hw, rfl⟩)
    have cb : ∀ w ∈ rest, C (tour.getLast hne) b ≤ C (tour.getLast hne) w := fun w hw => e3 _ (List.mem_map.mpr ⟨w, hw, rfl⟩)
    simp only [c2, e2, Option.bind_some, argmin_two]
    have hstep : ∀ v ∈ rest, (added ++ [v]).Nodup ∧ (∀ w ∈ added ++ [v], w ∈ missing) ∧
        missing.filter (fun w => !(added ++ [v]).contains w) = rest.erase v := by
      intro v hv
      obtain ⟨v1, v2⟩ := List.mem_filter.mp hv
      have v2' : v ∉ added := by simpa using v2
      refine ⟨List.nodup_append.mpr ⟨hda, by simp, fun x hx y hy => by
        rw [List.mem_singleton.mp hy]; rintro rfl; exact v2' hx⟩, fun w hw => ?_, ?_⟩
      · rcases List.mem_append.mp hw with hw | hw
        · exact hsub w hw
        · rw [List.mem_singleton.mp hw]; exact v1
      · rw [(hd.filter _).erase_eq_filter, List.filter_filter]
        refine List.filter_congr fun w _ => ?_
        by_cases h1 : w ∈ added <;> by_cases h2 : w = v <;> simp [h1, h2]
    by_cases hside : C (tour.getLast hne) b < C a (tour.head hne)
    · rw [if_pos hside, if_neg (by decide)]
      obtain ⟨s1, s2, s3⟩ := hstep b hb
      obtain ⟨r, r1, r2⟩ := addMissingLoop_spec hm hd hlt fuel (tour ++ [b]) (added ++ [b]) (some (a, tour.head hne))
        (some (tour.getLast hne, b)) (by simp) (fun v hv => by
          rcases List.mem_append.mp hv with hv | hv
          · exact htl v hv
          · rw [List.mem_singleton.mp hv]; exact hrlt b hb) s1 s2 (by simp; omega)
      rw [s3] at r2
      exact ⟨r, r1, .right hne hb cb (fun w hw => hside.le.trans (ca w hw)) r2⟩
    · rw [if_neg hside, if_pos rfl]
      obtain ⟨s1, s2, s3⟩ := hstep a ha
      obtain ⟨r, r1, r2⟩ := addMissingLoop_spec hm hd hlt fuel (a :: tour) (added ++ [a]) (some (a, tour.head hne))
        (some (tour.getLast hne, b)) (by simp) (fun v hv => by
          rcases List.mem_cons.mp hv with rfl | hv
          · exact hrlt v ha
          · exact htl v hv) s1 s2 (by simp; omega)
      rw [s3] at r2
      exact ⟨r, r1, .left hne ha ca (fun w hw => (not_lt.mp hside).trans (cb w hw)) r2⟩

theorem addMissing_spec {m : Mat Num} {n : ℕ} {C : ℕ → ℕ → ℚ} (hm : m.Is n n C) {missing tour : List ℕ} (hd : missing.Nodup)
    (hlt : ∀ v ∈ missing, v < n) (hne : tour ≠ []) (htl : ∀ v ∈ tour, v < n) :
    ∃ r, addMissing m tour missing = some r ∧ Greedy C tour missing r := by
  obtain ⟨r, h1, h2⟩ := addMissingLoop_spec hm hd hlt missing.length tour [] none none hne htl (by simp) (by simp) (by simp)
  exact ⟨r, h1, by simpa using h2⟩

theorem Greedy.parts {C : ℕ → ℕ → ℚ} {t rest r : List ℕ} (h : Greedy C t rest r) : ∃ l l', r = l ++ t ++ l' ∧ (l ++ l').Perm rest := by
  induction h with
  | done => exact ⟨[], [], by simp, by simp⟩
  | @left t rest r v ht hv _ _ _ ih =>
    obtain ⟨l, l', e, hp⟩ := ih
    refine ⟨l ++ [v], l', by rw [e]; simp, ?_⟩
    refine List.Perm.trans ?_ (List.perm_cons_erase hv).symm
    refine List.Perm.trans ?_ (hp.cons v)
    rw [List.append_assoc]
    exact List.perm_middle
  | @right t rest r v ht hv _ _ _ ih =>
    obtain ⟨l, l', e, hp⟩ := ih
    refine ⟨l, v :: l', by rw [e]; simp, ?_⟩
    refine List.Perm.trans ?_ (List.perm_cons_erase hv).symm
    exact List.perm_middle.trans (hp.cons v)

end Verif.Proofs
