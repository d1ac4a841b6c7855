import Verif.Proofs.TspKept

/-! Helper lemmas for the open paths of the kept edges. -/

namespace Verif.Proofs
open Verif Model Spec Num

theorem det_prefix {r : ℕ → ℕ → Prop} (hr : ∀ x y z, r x y → r x z → y = z) : ∀ {x y : List ℕ} {v : ℕ}, (v :: x).IsChain r → (v :: y).IsChain r →
    x <+: y ∨ y <+: x
  | [], y, _, _, _ => .inl List.nil_prefix
  | x, [], _, _, _ => .inr List.nil_prefix
  | a :: x, b :: y, v, hx, hy => by
    rw [List.isChain_cons_cons] at hx hy
    obtain rfl := hr _ _ _ hx.1 hy.1
    rcases det_prefix hr hx.2 hy.2 with h | h
    · exact .inl ((List.prefix_cons_inj a).mpr h)
    · exact .inr ((List.prefix_cons_inj a).mpr h)

/-- `p` follows `E` and cannot be continued. -/
structure ToSink (E : List (ℕ × ℕ)) (p : List ℕ) : Prop where
  ne : p ≠ []
  chain : p.IsChain (Joined E)
  nodup : p.Nodup
  sink : ∀ v ∈ p.getLast?, ∀ w, ¬ Joined E v w

section
variable {E : List (ℕ × ℕ)} (hout : OneOut E) (hin : OneIn E)

include hout in
/-- From a common node two such paths continue in the same way. -/
theorem toSink_tail {a b c d : List ℕ} {v : ℕ} (hp : ToSink E (a ++ v :: b)) (hq : ToSink E (c ++ v :: d)) : b = d := by
  have h1 : (v :: b).IsChain (Joined E) := hp.chain.right_of_append
  have h2 : (v :: d).IsChain (Joined E) := hq.chain.right_of_append
  have key : ∀ {b d a c : List ℕ}, ToSink E (a ++ v :: b) → ToSink E (c ++ v :: d) → b <+: d → b = d := by
    intro b d a c hp hq ⟨e, he⟩
    rcases e with _ | ⟨x, e⟩
    · simpa using he
    · exfalso
      have hc : (v :: d).IsChain (Joined E) := hq.chain.right_of_append
      rw [← he, ← List.cons_append, List.isChain_append] at hc
      refine hp.sink ((v :: b).getLast (by simp)) ?_ x ?_
      · rw [List.getLast?_append_of_ne_nil _ (by simp), List.getLast?_eq_some_getLast (by simp)]; rfl
      · exact hc.2.2 _ (by rw [List.getLast?_eq_some_getLast (by simp)]; rfl) x (by simp)
  rcases det_prefix hout h1 h2 with h | h
  · exact key hp hq h
  · exact (key hq hp h).symm

include hout hin in
/-- Two such paths with a common node: one is the end of the other. -/
theorem toSink_suffix {p q : List ℕ} (hp : ToSink E p) (hq : ToSink E q) {v : ℕ} (hvp : v ∈ p) (hvq : v ∈ q) : p <:+ q ∨ q <:+ p := by
  obtain ⟨a, b, rfl⟩ := List.append_of_mem hvp
  obtain ⟨c, d, rfl⟩ := List.append_of_mem hvq
  obtain rfl := toSink_tail hout hp hq
  have r1 : ∀ {a : List ℕ}, (a ++ v :: b).IsChain (Joined E) → (v :: a.reverse).IsChain (fun x y => Joined E y x) := by
    intro a h
    have : (a ++ [v]).IsChain (Joined E) := by
      rw [show a ++ v :: b = (a ++ [v]) ++ b by simp] at h
      exact h.left_of_append
    have := List.isChain_reverse.mpr this
    simpa [flip] using this
  rcases det_prefix (r := fun x y => Joined E y x) (fun x y z h1 h2 => hin _ _ _ h1 h2) (r1 hp.chain) (r1 hq.chain) with h | h
  · left
    obtain ⟨t, ht⟩ := List.reverse_prefix.mp h
    exact ⟨t, by rw [← ht]; simp⟩
  · right
    obtain ⟨t, ht⟩ := List.reverse_prefix.mp h
    exact ⟨t, by rw [← ht]; simp⟩

include hin in
/-- A walk that runs into itself is a cycle. -/
theorem walk_cycle {l : List ℕ} {a : ℕ} (hc : (a :: l).IsChain (Joined E)) (hd : (a :: l).Nodup) {u : ℕ} (hu : u ∈ a :: l)
    (hj : Joined E ((a :: l).getLast (by simp)) u) : IsCycle (Joined E) (a :: l) := by
  refine ⟨a, (a :: l).getLast (by simp), ⟨rfl, List.getLast?_eq_some_getLast _, hc, hd⟩, ?_⟩
  obtain ⟨x, y, e⟩ := List.append_of_mem hu
  rcases List.eq_nil_or_concat x with rfl | ⟨x', w, rfl⟩
  · simp only [List.nil_append, List.cons.injEq] at e
    have : u = a := e.1.symm
    subst this
    exact hj
  · exfalso
    rw [List.concat_eq_append, List.append_assoc, List.singleton_append] at e
    have hw : Joined E w u := by
      rw [e] at hc
      exact (List.isChain_cons_cons.mp hc.right_of_append).1
    have hlast := hin _ _ _ hw hj
    have : (a :: l).getLast (by simp) ∈ u :: y := by
      have h1 : (a :: l).getLast? = (u :: y).getLast? := by
        rw [e, List.getLast?_append_of_ne_nil _ (by simp), List.getLast?_cons_cons]
      rw [List.getLast?_eq_some_getLast (by simp), List.getLast?_eq_some_getLast (by simp), Option.some.injEq] at h1
      rw [h1]; exact List.getLast_mem _
    rw [← hlast] at this
    rw [e] at hd
    have := (List.nodup_append.mp hd).2.1
    exact (List.nodup_cons.mp this).1 ‹w ∈ u :: y›

include hout in
theorem cycle_step {l : List ℕ} (h : IsCycle (Joined E) l) {v w : ℕ} (hv : v ∈ l) (hj : Joined E v w) : w ∈ l := by
  obtain ⟨a, b, ⟨h1, h2, h3, h4⟩, h5⟩ := h
  obtain ⟨x, y, rfl⟩ := List.append_of_mem hv
  rcases y with _ | ⟨c, y⟩
  · have : v = b := by simpa using h2
    subst this
    obtain rfl := hout _ _ _ hj h5
    exact List.mem_of_mem_head? (by rw [h1]; rfl)
  · have := (List.isChain_cons_cons.mp h3.right_of_append).1
    obtain rfl := hout _ _ _ hj this
    simp

theorem cycle_next {E : List (ℕ × ℕ)} {l : List ℕ} (h : IsCycle (Joined E) l) {v : ℕ} (hv : v ∈ l) : ∃ w, Joined E v w := by
  obtain ⟨a, b, ⟨h1, h2, h3, h4⟩, h5⟩ := h
  obtain ⟨x, y, rfl⟩ := List.append_of_mem hv
  rcases y with _ | ⟨c, y⟩
  · have : v = b := by simpa using h2
    subst this
    exact ⟨_, h5⟩
  · exact ⟨c, (List.isChain_cons_cons.mp h3.right_of_append).1⟩

include hout in
/-- No such path meets a cycle. -/
theorem toSink_cycle {p l : List ℕ} (hp : ToSink E p) (hl : IsCycle (Joined E) l) {v : ℕ} (hv : v ∈ p) : v ∉ l := by
  intro hvl
  obtain ⟨a, b, rfl⟩ := List.append_of_mem hv
  have key : ∀ (b : List ℕ) (v : ℕ), v ∈ l → (v :: b).IsChain (Joined E) → (v :: b).getLast (by simp) ∈ l := by
    intro b
    induction b with
    | nil => intro v hv _; simpa using hv
    | cons c b ih =>
      intro v hv hc
      rw [List.isChain_cons_cons] at hc
      have := ih c (cycle_step hout hl hv hc.1) hc.2
      simpa using this
  have hlast := key b v hvl hp.chain.right_of_append
  obtain ⟨w, hw⟩ := cycle_next hl hlast
  refine hp.sink _ ?_ w hw
  rw [List.getLast?_append_of_ne_nil _ (by simp), List.getLast?_eq_some_getLast (by simp)]; rfl
end

/-! ## `find_paths` -/

theorem outs_cases {E : List (ℕ × ℕ)} (hd : E.Nodup) (hout : OneOut E) (v : ℕ) :
    ((gOf E v).2 = [] ∧ ∀ w, ¬ Joined E v w) ∨ ∃ w, (gOf E v).2 = [w] ∧ Joined E v w := by
  have hmem : ∀ w, w ∈ (gOf E v).2 ↔ Joined E v w := by
    intro w
    unfold gOf leaving Joined
    simp only [List.mem_map, List.mem_filter, beq_iff_eq]
    constructor
    · rintro ⟨e, ⟨h1, rfl⟩, rfl⟩; exact h1
    · intro h; exact ⟨(v, w), ⟨h, rfl⟩, rfl⟩
  have hone : (leaving E v).length ≤ 1 := by
    rcases h : leaving E v with _ | ⟨a, _ | ⟨b, l⟩⟩
    · simp
    · simp
    · exfalso
      have hn : (leaving E v).Nodup := hd.filter _
      have ha : a ∈ leaving E v := by rw [h]; simp
      have hb : b ∈ leaving E v := by rw [h]; simp
      obtain ⟨a1, a2⟩ := List.mem_filter.mp ha
      obtain ⟨b1, b2⟩ := List.mem_filter.mp hb
      rw [beq_iff_eq] at a2 b2
      have : a.2 = b.2 := hout v a.2 b.2 (by rw [← a2]; exact a1) (by rw [← b2]; exact b1)
      have hab : a = b := Prod.ext (a2.trans b2.symm) this
      rw [h, hab] at hn
      simp at hn
  rcases h : (gOf E v).2 with _ | ⟨w, _ | ⟨b, l⟩⟩
  · left
    refine ⟨rfl, fun w hw => ?_⟩
    have := (hmem w).mpr hw
    rw [h] at this; simp at this
  · right
    exact ⟨w, rfl, (hmem w).mp (by rw [h]; simp)⟩
  · exfalso
    have : (gOf E v).2.length ≤ 1 := by simpa [gOf] using hone
    rw [h] at this
    simp at this

theorem findPaths_spec {E : List (ℕ × ℕ)} (hd : E.Nodup) (hout : OneOut E) {ks : List ℕ} (hks : ks.Nodup)
    (hk : ∀ k, k ∈ ks ↔ Touched E k) : ∀ (fuel node : ℕ) (visited path seen : List ℕ), node ∈ ks → node ∉ visited → visited.Nodup →
      (∀ v ∈ visited, v ∈ ks) → ks.length ≤ visited.length + fuel →
      ∃ q, (node :: q).IsChain (Joined E) ∧ (node :: q).Nodup ∧ (∀ v ∈ node :: q, v ∉ visited) ∧ (∀ v ∈ node :: q, v ∈ ks) ∧
        ((findPaths (ks.map (fun k => (k, gOf E k))) fuel node visited path seen = some (some (path ++ node :: q), seen ++ node :: q) ∧
            ∀ w, ¬ Joined E ((node :: q).getLast (by simp)) w) ∨
          (findPaths (ks.map (fun k => (k, gOf E k))) fuel node visited path seen = some (none, seen ++ node :: q) ∧
            ∃ u ∈ visited ++ node :: q, Joined E ((node :: q).getLast (by simp)) u)) := by
  intro fuel
  induction fuel with
  | zero =>
    intro node visited path seen h1 h2 h3 h4 h5
    exfalso
    have hn : (node :: visited).Nodup := List.nodup_cons.mpr ⟨h2, h3⟩
    have := (List.subperm_of_subset hn (fun v hv => by
      rcases List.mem_cons.mp hv with rfl | hv
      · exact h1
      · exact h4 v hv)).length_le
    rw [List.length_cons] at this
    omega
  | succ fuel ih =>
    intro node visited path seen h1 h2 h3 h4 h5
    unfold findPaths
    rw [lookup_map (gOf E) h1]
    simp only [Option.bind_eq_bind, Option.bind_some]
    rcases outs_cases hd hout node with ⟨e1, e2⟩ | ⟨w, e1, e2⟩
    · refine ⟨[], by simp, by simp, by simpa using h2, by simpa using h1, .inl ⟨?_, by simpa using e2⟩⟩
      rw [if_pos e1]
    · rw [e1, if_neg (by simp)]
      simp only [loopList]
      by_cases hw : w ∈ visited ++ [node]
      · rw [if_pos (by simpa using hw)]
        exact ⟨[], by simp, by simp, by simpa using h2, by simpa using h1, .inr ⟨rfl, w, hw, by simpa using e2⟩⟩
      · rw [if_neg (by simpa using hw)]
        obtain ⟨q, q1, q2, q3, q4, q5⟩ := ih w (visited ++ [node]) (path ++ [node]) (seen ++ [node]) ((hk w).mpr ⟨node, .inl e2⟩) hw
          (List.nodup_append.mpr ⟨h3, by simp, fun x hx y hy => by rw [List.mem_singleton.mp hy]; rintro rfl; exact h2 hx⟩)
          (fun v hv => by
            rcases List.mem_append.mp hv with hv | hv
            · exact h4 v hv
            · rw [List.mem_singleton.mp hv]; exact h1) (by simp; omega)
        refine ⟨w :: q, List.isChain_cons_cons.mpr ⟨e2, q1⟩, ?_, ?_, ?_, ?_⟩
        · refine List.nodup_cons.mpr ⟨fun h => q3 node h (by simp), q2⟩
        · intro v hv
          rcases List.mem_cons.mp hv with rfl | hv
          · exact h2
          · exact fun h => q3 v hv (by simp [h])
        · intro v hv
          rcases List.mem_cons.mp hv with rfl | hv
          · exact h1
          · exact q4 v hv
        · rcases q5 with ⟨f1, f2⟩ | ⟨f1, u, f2, f3⟩
          · left
            refine ⟨?_, by simpa using f2⟩
            rw [f1]; simp
          · right
            refine ⟨?_, u, by simpa using f2, by simpa using f3⟩
            rw [f1]; simp

/-- State of `get_paths`. -/
structure PathsInv (E : List (ℕ × ℕ)) (s : List (List ℕ) × List ℕ) : Prop where
  toSink : ∀ p ∈ s.1, ToSink E p
  sub : ∀ p ∈ s.1, ∀ v ∈ p, v ∈ s.2
  touched : ∀ p ∈ s.1, ∀ v ∈ p, Touched E v
  heads : (s.1.map List.head?).Nodup
  seen : ∀ v ∈ s.2, (∃ p ∈ s.1, v ∈ p) ∨ ∃ l, v ∈ l ∧ IsCycle (Joined E) l

theorem pathsLoop {E : List (ℕ × ℕ)} (hd : E.Nodup) (hout : OneOut E) (hin : OneIn E) {ks : List ℕ} (hks : ks.Nodup)
    (hk : ∀ k, k ∈ ks ↔ Touched E k) {limit : ℕ} (hl : ks.length ≤ limit) : ∀ (todo : List ℕ), (∀ k ∈ todo, k ∈ ks) →
      ∀ s, PathsInv E s → ∃ s', loopList todo (fun node (s : List (List ℕ) × List ℕ) =>
        if s.2.contains node then some s
        else do
          let (p, seen) ← findPaths (ks.map (fun k => (k, gOf E k))) limit node [] [] s.2
          some (match p with
            | some p => (s.1 ++ [p], seen)
            | none => (s.1, seen))) s = some s' ∧ PathsInv E s' ∧ (∀ v ∈ s.2, v ∈ s'.2) ∧ ∀ k ∈ todo, k ∈ s'.2
  | [], _, s, hs => ⟨s, rfl, hs, fun _ h => h, by simp⟩
  | a :: todo, ht, s, hs => by
    rw [loopList]
    by_cases ha : a ∈ s.2
    · rw [if_pos (by simpa using ha)]
      obtain ⟨s', e1, e2, e3, e4⟩ := pathsLoop hd hout hin hks hk hl todo (fun k hk' => ht k (by simp [hk'])) s hs
      refine ⟨s', by simpa using e1, e2, e3, fun k hk' => ?_⟩
      rcases List.mem_cons.mp hk' with rfl | hk'
      · exact e3 _ ha
      · exact e4 k hk'
    · rw [if_neg (by simpa using ha)]
      obtain ⟨q, q1, q2, -, q4, q5⟩ := findPaths_spec hd hout hks hk limit a [] [] s.2 (ht a (by simp)) (by simp) (by simp) (by simp)
        (by simpa using hl)
      have next : ∀ s1, PathsInv E s1 → (∀ v ∈ s.2, v ∈ s1.2) → a ∈ s1.2 → ∃ s', loopList todo (fun node (s : List (List ℕ) × List ℕ) =>
        if s.2.contains node then some s
        else do
          let (p, seen) ← findPaths (ks.map (fun k => (k, gOf E k))) limit node [] [] s.2
          some (match p with
            | some p => (s.1 ++ [p], seen)
            | none => (s.1, seen))) s1 = some s' ∧ PathsInv E s' ∧ (∀ v ∈ s.2, v ∈ s'.2) ∧ ∀ k ∈ a :: todo, k ∈ s'.2 := by
        intro s1 hs1 h1 h2
        obtain ⟨s', e1, e2, e3, e4⟩ := pathsLoop hd hout hin hks hk hl todo (fun k hk' => ht k (by simp [hk'])) s1 hs1
        refine ⟨s', e1, e2, fun v hv => e3 v (h1 v hv), fun k hk' => ?_⟩
        rcases List.mem_cons.mp hk' with rfl | hk'
        · exact e3 _ h2
        · exact e4 k hk'
      rcases q5 with ⟨f1, f2⟩ | ⟨f1, u, f2, f3⟩
      · have hinv : PathsInv E (s.1 ++ [a :: q], s.2 ++ a :: q) := by
          refine ⟨?_, ?_, ?_, ?_, ?_⟩
          · intro p hp
            rcases List.mem_append.mp hp with hp | hp
            · exact hs.toSink p hp
            · rw [List.mem_singleton.mp hp]
              refine ⟨by simp, q1, q2, fun v hv w => ?_⟩
              rw [List.getLast?_eq_some_getLast (by simp)] at hv
              obtain rfl := Option.mem_some_iff.mp hv
              exact f2 w
          · intro p hp v hv
            rcases List.mem_append.mp hp with hp | hp
            · exact List.mem_append_left _ (hs.sub p hp v hv)
            · rw [List.mem_singleton.mp hp] at hv
              exact List.mem_append_right _ hv
          · intro p hp v hv
            rcases List.mem_append.mp hp with hp | hp
            · exact hs.touched p hp v hv
            · rw [List.mem_singleton.mp hp] at hv
              exact (hk v).mp (q4 v hv)
          · rw [List.map_append, List.nodup_append]
            refine ⟨hs.heads, by simp, fun x hx y hy hxy => ?_⟩
            simp only [List.map_cons, List.map_nil, List.mem_singleton, List.head?_cons] at hy
            obtain ⟨p, hp, rfl⟩ := List.mem_map.mp hx
            rw [hy] at hxy
            exact ha (hs.sub p hp a (List.mem_of_mem_head? hxy))
          · intro v hv
            rcases List.mem_append.mp hv with hv | hv
            · rcases hs.seen v hv with ⟨p, h1, h2⟩ | h
              · exact .inl ⟨p, List.mem_append_left _ h1, h2⟩
              · exact .inr h
            · exact .inl ⟨a :: q, List.mem_append_right _ (by simp), hv⟩
        obtain ⟨s', e1, e2⟩ := next _ hinv (fun v hv => by simp [hv]) (by simp)
        refine ⟨s', ?_, e2⟩
        rw [f1]
        simpa using e1
      · have hinv : PathsInv E (s.1, s.2 ++ a :: q) := by
          refine ⟨hs.toSink, fun p hp v hv => List.mem_append_left _ (hs.sub p hp v hv), hs.touched, hs.heads, ?_⟩
          · intro v hv
            rcases List.mem_append.mp hv with hv | hv
            · exact hs.seen v hv
            · exact .inr ⟨a :: q, hv, walk_cycle hin q1 q2 (by simpa using f2) f3⟩
        obtain ⟨s', e1, e2⟩ := next _ hinv (fun v hv => by simp [hv]) (by simp)
        refine ⟨s', ?_, e2⟩
        rw [f1]
        simpa using e1

theorem mem_dropContained {P : List (List ℕ)} {p : List ℕ} : p ∈ dropContained P ↔
    ∃ i : ℕ, P[i]? = some p ∧ ∀ j q, P[j]? = some q → (∀ v ∈ p, v ∈ q) → j = i := by
  unfold dropContained
  simp only [List.mem_map, List.mem_filter, Bool.not_eq_true', List.any_eq_false, Bool.and_eq_true, bne_iff_ne, ne_eq, List.all_eq_true,
    List.contains_iff_mem, not_and, Prod.exists, exists_and_right, exists_eq_right, Prod.forall]
  constructor
  · rintro ⟨i, h1, h2⟩
    refine ⟨i, List.mk_mem_zipIdx_iff_getElem?.mp h1, fun j q hq hs => ?_⟩
    by_contra hne
    exact h2 q j (List.mk_mem_zipIdx_iff_getElem?.mpr hq) hne hs
  · rintro ⟨i, h1, h2⟩
    refine ⟨i, List.mk_mem_zipIdx_iff_getElem?.mpr h1, fun q j hq hne hs => hne (h2 j q (List.mk_mem_zipIdx_iff_getElem?.mp hq) hs)⟩

theorem dropContained_pairwise {P : List (List ℕ)} (R : List ℕ → List ℕ → Prop)
    (h : ∀ (i j : ℕ) p q, P[i]? = some p → P[j]? = some q → i ≠ j → (¬ ∀ v ∈ p, v ∈ q) → (¬ ∀ v ∈ q, v ∈ p) → R p q) :
    (dropContained P).Pairwise R := by
  unfold dropContained
  rw [List.pairwise_map]
  have hidx : P.zipIdx.Pairwise (fun a b => a.2 ≠ b.2) := by
    have : (P.zipIdx.map Prod.snd).Nodup := by
      rw [List.zipIdx_map_snd]
      exact List.nodup_range'
    exact List.pairwise_map.mp this
  refine List.Pairwise.imp_of_mem ?_ (hidx.filter _)
  intro a b ha hb hne
  obtain ⟨a1, a2⟩ := List.mem_filter.mp ha
  obtain ⟨b1, b2⟩ := List.mem_filter.mp hb
  simp only [Bool.not_eq_true', List.any_eq_false, Bool.and_eq_true, bne_iff_ne, ne_eq, List.all_eq_true, List.contains_iff_mem, not_and] at a2 b2
  refine h a.2 b.2 a.1 b.1 (List.mk_mem_zipIdx_iff_getElem?.mp a1) (List.mk_mem_zipIdx_iff_getElem?.mp b1) hne (a2 b b1 (Ne.symm hne)) (b2 a a1 hne)

theorem nodup_index {P : List (List ℕ)} (h : (P.map List.head?).Nodup) {i j : ℕ} {p : List ℕ} (hi : P[i]? = some p) (hj : P[j]? = some p) :
    i = j := by
  have hi' : i < P.length := (List.getElem?_eq_some_iff.mp hi).1
  have hj' : j < P.length := (List.getElem?_eq_some_iff.mp hj).1
  have := (h.getElem_inj_iff (i := i) (j := j) (hi := by simpa using hi') (hj := by simpa using hj')).mp (by
    rw [List.getElem_map, List.getElem_map, (List.getElem?_eq_some_iff.mp hi).2, (List.getElem?_eq_some_iff.mp hj).2])
  exact this

section
variable {E : List (ℕ × ℕ)} (hout : OneOut E) (hin : OneIn E) {s : List (List ℕ) × List ℕ} (hs : PathsInv E s)
include hout hin hs

/-- The longest path through a node is not dropped. -/
theorem longest_kept {v : ℕ} {p : List ℕ} (hp : p ∈ s.1) (hv : v ∈ p) : ∃ q ∈ dropContained s.1, v ∈ q := by
  obtain ⟨q, hq, hmax⟩ := Finset.exists_max_image ((s.1.filter (fun q => decide (v ∈ q))).toFinset) List.length
    ⟨p, by simp [hp, hv]⟩
  have hq' : q ∈ s.1 ∧ v ∈ q := by simpa using hq
  obtain ⟨i, hi⟩ := List.mem_iff_getElem?.mp hq'.1
  refine ⟨q, mem_dropContained.mpr ⟨i, hi, fun j r hr hsub => ?_⟩, hq'.2⟩
  have hr' : r ∈ s.1 := List.mem_of_getElem? hr
  have hvr := hsub v hq'.2
  have hlen : r.length ≤ q.length := hmax r (by simp [hr', hvr])
  have hlen2 : q.length ≤ r.length := (List.subperm_of_subset (hs.toSink q hq'.1).nodup hsub).length_le
  have heq : q = r := by
    rcases toSink_suffix hout hin (hs.toSink q hq'.1) (hs.toSink r hr') hq'.2 hvr with h | h
    · exact h.eq_of_length (by omega)
    · exact (h.eq_of_length (by omega)).symm
  subst heq
  exact nodup_index hs.heads hr hi

theorem dropContained_open (hseen : ∀ v, Touched E v → v ∈ s.2) : OpenPaths E (dropContained s.1) := by
  have hmem : ∀ p ∈ dropContained s.1, p ∈ s.1 := fun p hp => by
    obtain ⟨i, hi, -⟩ := mem_dropContained.mp hp
    exact List.mem_of_getElem? hi
  refine ⟨fun p hp => (hs.toSink p (hmem p hp)).ne, fun p hp => (hs.toSink p (hmem p hp)).chain, ?_,
    fun p hp => (hs.toSink p (hmem p hp)).sink, ?_, ?_, ?_⟩
  · intro p hp v hv u hj
    have hpS := hs.toSink p (hmem p hp)
    obtain ⟨q, rfl⟩ : ∃ q, p = v :: q := by
      rcases p with _ | ⟨a, q⟩
      · simp at hv
      · obtain rfl : a = v := by simpa using hv
        exact ⟨q, rfl⟩
    rcases hs.seen u (hseen u ⟨v, .inr hj⟩) with ⟨r, hr, hur⟩ | ⟨l, hul, hl⟩
    · have hrS := hs.toSink r hr
      obtain ⟨x, y, rfl⟩ := List.append_of_mem hur
      rcases y with _ | ⟨c, y⟩
      · exact hrS.sink u (by simp) v hj
      · obtain rfl := hout _ _ _ hj (List.isChain_cons_cons.mp hrS.chain.right_of_append).1
        have hqy : q = y := by
          refine toSink_tail hout (a := []) (c := x ++ [u]) (v := v) (by simpa using hpS) (by simpa using hrS)
        subst hqy
        obtain ⟨i, hi, hi2⟩ := mem_dropContained.mp hp
        obtain ⟨j, hj'⟩ := List.mem_iff_getElem?.mp hr
        have := hi2 j _ hj' (fun w hw => by simp only [List.mem_append, List.mem_cons] at hw ⊢; tauto)
        subst this
        rw [hi] at hj'
        have hlen := congrArg List.length (Option.some.inj hj')
        simp at hlen
        omega
    · exact toSink_cycle hout hpS hl (by simp) (cycle_step hout hl hul hj)
  · rw [List.nodup_flatten]
    refine ⟨fun p hp => (hs.toSink p (hmem p hp)).nodup, dropContained_pairwise _ fun i j p q hi hj _ h1 h2 => ?_⟩
    intro v hvp hvq
    rcases toSink_suffix hout hin (hs.toSink p (List.mem_of_getElem? hi)) (hs.toSink q (List.mem_of_getElem? hj)) hvp hvq with h | h
    · exact h1 (fun w hw => h.subset hw)
    · exact h2 (fun w hw => h.subset hw)
  · intro v hv
    obtain ⟨p, hp, hvp⟩ := List.mem_flatten.mp hv
    exact hs.touched p (hmem p hp) v hvp
  · intro v hv
    rcases hs.seen v (hseen v hv) with ⟨p, hp, hvp⟩ | h
    · obtain ⟨q, hq, hvq⟩ := longest_kept hout hin hs hp hvp
      exact .inl (List.mem_flatten.mpr ⟨q, hq, hvq⟩)
    · exact .inr h
end

theorem getPaths_spec {E : List (ℕ × ℕ)} (hd : E.Nodup) (hout : OneOut E) (hin : OneIn E) {n limit : ℕ} (hE : ∀ e ∈ E, e.1 < n ∧ e.2 < n)
    (hl : n ≤ limit) : ∃ paths, getPaths limit (constructGraph E) = some paths ∧ OpenPaths E paths := by
  obtain ⟨ks, h1, h2, h3⟩ := constructGraph_eq E
  have hk : ∀ k, k ∈ ks ↔ Touched E k := by
    intro k
    rw [h3]
    constructor
    · rintro ⟨e, he, rfl | rfl⟩
      · exact ⟨e.2, .inr he⟩
      · exact ⟨e.1, .inl he⟩
    · rintro ⟨u, h | h⟩
      · exact ⟨(u, k), h, .inr rfl⟩
      · exact ⟨(k, u), h, .inl rfl⟩
  have hlen : ks.length ≤ n := by
    have := (List.subperm_of_subset h2 (l₂ := List.range n) (fun k hk' => by
      obtain ⟨e, he, h⟩ := (h3 k).mp hk'
      have := hE e he
      rw [List.mem_range]
      rcases h with rfl | rfl <;> omega)).length_le
    simpa using this
  obtain ⟨s', e1, e2, -, e4⟩ := pathsLoop hd hout hin h2 hk (le_trans hlen hl) ks (fun _ h => h) ([], [])
    ⟨by simp, by simp, by simp, by simp, by simp⟩
  refine ⟨dropContained s'.1, ?_, dropContained_open hout hin e2 (fun v hv => e4 v ((hk v).mpr hv))⟩
  unfold getPaths
  rw [h1, List.map_map]
  have : (Prod.fst ∘ fun k => (k, gOf E k)) = id := rfl
  rw [this, List.map_id]
  exact (congrArg (fun o => Option.bind o (fun r => some (dropContained r.1))) e1).trans rfl

end Verif.Proofs
