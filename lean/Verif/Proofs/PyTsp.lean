import Verif.Model.PyTsp
import Verif.Proofs.PyNp
import Verif.Proofs.TspRun

/-! # The pure Python TSP message passing computes what the C++ message passing computes -/

namespace Verif.Proofs
open Verif Num Model Spec

theorem mem_pyRemaining {l : List ℕ} (hn : l.Nodup) {i : ℕ} (hi : i < l.length) {j : ℕ} :
    j ∈ pyRemaining l i ↔ j ∈ l ∧ j ≠ l[i] := by
  rw [pyRemaining, ← List.eraseIdx_eq_take_drop_succ, List.mem_eraseIdx_iff_getElem]
  constructor
  · rintro ⟨k, hk, hne, rfl⟩
    exact ⟨List.getElem_mem hk, fun e => hne ((hn.getElem_inj_iff).mp e)⟩
  · rintro ⟨h1, h2⟩
    obtain ⟨k, hk, rfl⟩ := List.mem_iff_getElem.mp h1
    exact ⟨k, hk, fun e => h2 (by subst e; rfl), rfl⟩

theorem pyRemaining_ne {l : List ℕ} (h2 : 2 ≤ l.length) {i : ℕ} (hi : i < l.length) : pyRemaining l i ≠ [] := by
  intro h
  rw [pyRemaining, ← List.eraseIdx_eq_take_drop_succ] at h
  have := congrArg List.length h
  rw [List.length_eraseIdx_of_lt hi, List.length_nil] at this
  omega

/-- The candidates of the minimum are the other members of the group. -/
theorem pyRemaining_others {l : List ℕ} (hn : l.Nodup) {i : ℕ} (hi : i < l.length) (f : ℕ → ℚ) :
    {r | r ∈ (pyRemaining l i).map f} = others l.toFinset f l[i] := by
  ext q
  simp only [Set.mem_ofPred_eq, List.mem_map, others, List.mem_toFinset]
  constructor
  · rintro ⟨j, hj, rfl⟩
    exact ⟨j, ((mem_pyRemaining hn hi).mp hj).1, ((mem_pyRemaining hn hi).mp hj).2, rfl⟩
  · rintro ⟨j, h1, h2, rfl⟩
    exact ⟨j, (mem_pyRemaining hn hi).mpr ⟨h1, h2⟩, rfl⟩

/-- The builtin minimum. -/
theorem minElement_fin {l : List ℚ} (h : l ≠ []) : ∃ q, minElement (l.map fin) = some (fin q) ∧ IsLeast {r | r ∈ l} q := by
  obtain ⟨q, h1, -, h3⟩ := npMin_fin h
  refine ⟨q, ?_, h3⟩
  cases l with
  | nil => exact absurd rfl h
  | cons a l =>
    simp only [npMin, minElement, List.map_cons, Option.some.injEq] at h1 ⊢
    rw [← h1]
    clear h h1 h3
    induction l generalizing a with
    | nil => rfl
    | cons b l ih => simp only [List.map_cons, List.foldl_cons, cmin_fin, npMin2_fin]; exact ih (min a b)

section
variable {n E : ℕ} {x : ℕ → ℕ → ℚ} {M : Mat Num}

/-- One group of edges of one node, in Python. -/
theorem pyDegreeGroup_is (hM : M.Is E n x) {v : ℕ} (hv : v < n) {l : List ℕ} (hn : l.Nodup) (h2 : 2 ≤ l.length)
    (hlt : ∀ e ∈ l, e < E) {out : Mat Num} (hr : out.rows = E) (hc : out.cols = n) :
    ∃ out', pyDegreeGroup M v l out = some out' ∧ out'.rows = E ∧ out'.cols = n ∧
      (∀ e ∈ l, ∃ w, IsMin (others l.toFinset (fun e => x e v) e) w ∧ out'.data e v = -w) ∧
      ∀ e w, ¬ (e ∈ l ∧ w = v) → out'.data e w = out.data e w := by
  obtain ⟨out', g1, g2, g3, g4, g5⟩ := loopUp_inv (n := l.length) (body := fun i (out : Mat Num) => do
      let e ← l[i]?
      let xs ← (pyRemaining l i).mapM (fun j => M.rd j v)
      let m ← npMin xs
      out.wr e v (-m)) (s := out)
    (fun i o => o.rows = E ∧ o.cols = n ∧
      (∀ j, ∀ h : j < l.length, j < i → ∃ w, IsMin (others l.toFinset (fun e => x e v) l[j]) w ∧ o.data l[j] v = -w) ∧
      ∀ e w, ¬ (e ∈ l ∧ w = v) → o.data e w = out.data e w)
    ⟨hr, hc, fun _ _ h => absurd h (by omega), fun _ _ _ => rfl⟩
    (by
      rintro i hi o ⟨o1, o2, o3, o4⟩
      have hrd : (pyRemaining l i).mapM (fun j => M.rd j v) = some (((pyRemaining l i).map (fun e => x e v)).map fin) := by
        rw [List.map_map]
        exact mapM_some fun j hj => hM.rd (hlt j ((mem_pyRemaining hn hi).mp hj).1) hv
      obtain ⟨q, q1, -, q3⟩ := npMin_fin (l := (pyRemaining l i).map (fun e => x e v))
        (by simpa using pyRemaining_ne h2 hi)
      rw [pyRemaining_others hn hi] at q3
      have hli : l[i] < E := hlt _ (List.getElem_mem hi)
      refine ⟨⟨o.rows, o.cols, fun a b => if a = l[i] ∧ b = v then -fin q else o.data a b⟩, ?_, ?_⟩
      · simp only [List.getElem?_eq_getElem hi, hrd, q1, Option.bind_eq_bind, Option.bind_some]
        exact Mat.wr_of_lt (by omega) (by omega)
      · refine ⟨o1, o2, fun j hj hji => ?_, fun e w hew => ?_⟩
        · by_cases h : j = i
          · subst h
            exact ⟨fin q, isMin_fin q3, by simp⟩
          · have hne : l[j] ≠ l[i] := fun e => h ((hn.getElem_inj_iff).mp e)
            obtain ⟨w, w1, w2⟩ := o3 j hj (by omega)
            exact ⟨w, w1, by simp [hne, w2]⟩
        · have : ¬ (e = l[i] ∧ w = v) := fun h => hew ⟨by rw [h.1]; exact List.getElem_mem hi, h.2⟩
          simp only [this, if_false]
          exact o4 e w hew)
  refine ⟨out', g1, g2, g3, fun e he => ?_, g5⟩
  obtain ⟨j, hj, rfl⟩ := List.mem_iff_getElem.mp he
  exact g4 j hj hj

theorem mem_pyConnFirst {edges : List (ℕ × ℕ)} {v i : ℕ} : i ∈ pyConnFirst edges v ↔ i ∈ outEdges edges v := by
  rw [mem_outEdges]
  simp only [pyConnFirst, List.mem_filter, List.mem_range]
  constructor
  · rintro ⟨h, e⟩
    rw [List.getElem?_eq_getElem h] at e
    exact ⟨h, by rw [src_eq h]; exact (beq_iff_eq.mp e).symm⟩
  · rintro ⟨h, e⟩
    rw [List.getElem?_eq_getElem h]
    rw [src_eq h] at e
    exact ⟨h, by simp [e]⟩

theorem mem_pyConnSecond {edges : List (ℕ × ℕ)} {v i : ℕ} : i ∈ pyConnSecond edges v ↔ i ∈ inEdges edges v := by
  rw [mem_inEdges]
  simp only [pyConnSecond, List.mem_filter, List.mem_range]
  constructor
  · rintro ⟨h, e⟩
    rw [List.getElem?_eq_getElem h] at e
    exact ⟨h, by rw [dst_eq h]; exact (beq_iff_eq.mp e).symm⟩
  · rintro ⟨h, e⟩
    rw [List.getElem?_eq_getElem h]
    rw [dst_eq h] at e
    exact ⟨h, by simp [e]⟩

theorem pyConnFirst_toFinset (edges : List (ℕ × ℕ)) (v : ℕ) : (pyConnFirst edges v).toFinset = outEdges edges v := by
  ext i; rw [List.mem_toFinset, mem_pyConnFirst]
theorem pyConnSecond_toFinset (edges : List (ℕ × ℕ)) (v : ℕ) : (pyConnSecond edges v).toFinset = inEdges edges v := by
  ext i; rw [List.mem_toFinset, mem_pyConnSecond]
theorem pyConnFirst_nodup (edges : List (ℕ × ℕ)) (v : ℕ) : (pyConnFirst edges v).Nodup := List.nodup_range.filter _
theorem pyConnSecond_nodup (edges : List (ℕ × ℕ)) (v : ℕ) : (pyConnSecond edges v).Nodup := List.nodup_range.filter _

theorem out_in_disjoint {edges : List (ℕ × ℕ)} (hok : EdgesOk n edges) {v e : ℕ} (h1 : e ∈ outEdges edges v)
    (h2 : e ∈ inEdges edges v) : False := by
  have a := mem_outEdges.mp h1
  have b := mem_inEdges.mp h2
  exact src_ne_dst hok a.1 (a.2.trans b.2.symm)

/-- The closed form of a degree update that starts from zeros. -/
structure DegForm (n : ℕ) (edges : List (ℕ × ℕ)) (x : ℕ → ℕ → ℚ) (D : Mat Num) : Prop where
  rows : D.rows = edges.length
  cols : D.cols = n
  out : ∀ v < n, ∀ e ∈ outEdges edges v, ∃ w, IsMin (others (outEdges edges v) (fun e => x e v) e) w ∧ D.data e v = -w
  inn : ∀ v < n, ∀ e ∈ inEdges edges v, ∃ w, IsMin (others (inEdges edges v) (fun e => x e v) e) w ∧ D.data e v = -w
  off : ∀ v < n, ∀ e < edges.length, e ∉ outEdges edges v → e ∉ inEdges edges v → D.data e v = 0

/-- The messages only depend on the incoming messages at the two ends of each edge. -/
theorem DegForm.same {edges : List (ℕ × ℕ)} {x y : ℕ → ℕ → ℚ} {D D' : Mat Num} (h : DegForm n edges x D)
    (h' : DegForm n edges y D') (hxy : ∀ e < edges.length, x e (src edges e) = y e (src edges e) ∧
      x e (dst edges e) = y e (dst edges e)) : SameMat edges.length n D D' := by
  refine ⟨h.rows, h'.rows, h.cols, h'.cols, fun e he v hv => ?_⟩
  have ho : ∀ S : Finset ℕ, (∀ s ∈ S, x s v = y s v) → ∀ w w', IsMin (others S (fun e => x e v) e) w →
      IsMin (others S (fun e => y e v) e) w' → w = w' := by
    intro S hS w w' hw hw'
    refine IsMin.unique hw (hw'.congr ?_)
    ext q
    constructor
    · rintro ⟨s, h1, h2, rfl⟩; exact ⟨s, h1, h2, hS s h1⟩
    · rintro ⟨s, h1, h2, rfl⟩; exact ⟨s, h1, h2, (hS s h1).symm⟩
  by_cases h1 : e ∈ outEdges edges v
  · obtain ⟨w, w1, w2⟩ := h.out v hv e h1
    obtain ⟨w', w1', w2'⟩ := h'.out v hv e h1
    rw [w2, w2', ho _ (fun s hs => ?_) w w' w1 w1']
    have := mem_outEdges.mp hs
    rw [← this.2]; exact (hxy s this.1).1
  by_cases h2 : e ∈ inEdges edges v
  · obtain ⟨w, w1, w2⟩ := h.inn v hv e h2
    obtain ⟨w', w1', w2'⟩ := h'.inn v hv e h2
    rw [w2, w2', ho _ (fun s hs => ?_) w w' w1 w1']
    have := mem_inEdges.mp hs
    rw [← this.2]; exact (hxy s this.1).2
  · rw [h.off v hv e he h1 h2, h'.off v hv e he h1 h2]

theorem pyDegreeUpdate_is {edges : List (ℕ × ℕ)} (hok : EdgesOk n edges) (hE : edges.length = E) (h2 : TwoWays n edges)
    (hM : M.Is E n x) : ∃ D, pyDegreeUpdate n E M edges = some D ∧ DegForm n edges x D := by
  obtain ⟨D, d1, d2, d3, d4, d5⟩ := loopUp_inv (n := n) (body := fun node (out : Mat Num) => do
      let out ← pyDegreeGroup M node (pyConnFirst edges node) out
      pyDegreeGroup M node (pyConnSecond edges node) out) (s := Mat.fill E n 0)
    (fun i D => D.rows = E ∧ D.cols = n ∧
      (∀ v < i,
        (∀ e ∈ outEdges edges v, ∃ w, IsMin (others (outEdges edges v) (fun e => x e v) e) w ∧ D.data e v = -w) ∧
        (∀ e ∈ inEdges edges v, ∃ w, IsMin (others (inEdges edges v) (fun e => x e v) e) w ∧ D.data e v = -w) ∧
        ∀ e, e ∉ outEdges edges v → e ∉ inEdges edges v → D.data e v = 0) ∧
      ∀ v, i ≤ v → ∀ e, D.data e v = 0)
    ⟨rfl, rfl, fun _ h => absurd h (by omega), fun _ _ _ => rfl⟩
    (by
      rintro i hi D ⟨o1, o2, o3, o4⟩
      have c1 : (pyConnFirst edges i).length = (outEdges edges i).card := by
        rw [← pyConnFirst_toFinset, List.toFinset_card_of_nodup (pyConnFirst_nodup _ _)]
      have c2 : (pyConnSecond edges i).length = (inEdges edges i).card := by
        rw [← pyConnSecond_toFinset, List.toFinset_card_of_nodup (pyConnSecond_nodup _ _)]
      obtain ⟨D1, a1, a2, a3, a4, a5⟩ := pyDegreeGroup_is hM hi (pyConnFirst_nodup edges i)
        (by rw [c1]; exact (h2 i hi).1) (fun e he => by
          rw [← hE]; exact (mem_outEdges.mp (mem_pyConnFirst.mp he)).1) o1 o2
      obtain ⟨D2, b1, b2, b3, b4, b5⟩ := pyDegreeGroup_is hM hi (pyConnSecond_nodup edges i)
        (by rw [c2]; exact (h2 i hi).2) (fun e he => by
          rw [← hE]; exact (mem_inEdges.mp (mem_pyConnSecond.mp he)).1) a2 a3
      rw [pyConnFirst_toFinset] at a4
      rw [pyConnSecond_toFinset] at b4
      refine ⟨D2, by simp only [a1, b1, Option.bind_eq_bind, Option.bind_some], b2, b3, fun v hv => ?_, fun v hv e => ?_⟩
      · by_cases h : v = i
        · subst h
          refine ⟨fun e he => ?_, fun e he => b4 e (mem_pyConnSecond.mpr he), fun e h3 h4 => ?_⟩
          · obtain ⟨w, w1, w2⟩ := a4 e (mem_pyConnFirst.mpr he)
            refine ⟨w, w1, ?_⟩
            rw [b5 e v (fun hh => out_in_disjoint hok he (mem_pyConnSecond.mp hh.1)), w2]
          · rw [b5 e v (fun hh => h4 (mem_pyConnSecond.mp hh.1)), a5 e v (fun hh => h3 (mem_pyConnFirst.mp hh.1))]
            exact o4 v (le_refl _) e
        · have hk : ∀ e, D2.data e v = D.data e v := fun e => by
            rw [b5 e v (fun hh => h hh.2), a5 e v (fun hh => h hh.2)]
          obtain ⟨p1, p2, p3⟩ := o3 v (by omega)
          exact ⟨fun e he => by rw [hk]; exact p1 e he, fun e he => by rw [hk]; exact p2 e he,
            fun e h3 h4 => by rw [hk]; exact p3 e h3 h4⟩
      · rw [b5 e v (fun hh => by omega), a5 e v (fun hh => by omega)]
        exact o4 v (by omega) e)
  exact ⟨D, d1, by rw [hE]; exact d2, d3, fun v hv => (d4 v hv).1, fun v hv => (d4 v hv).2.1,
    fun v hv e _ h1 h2 => (d4 v hv).2.2 e h1 h2⟩

theorem twoWays_nonempty {edges : List (ℕ × ℕ)} (h : TwoWays n edges) :
    (∀ v < n, (outEdges edges v).Nonempty) ∧ ∀ v < n, (inEdges edges v).Nonempty :=
  ⟨fun v hv => Finset.card_pos.mp (by have := (h v hv).1; omega), fun v hv => Finset.card_pos.mp (by have := (h v hv).2; omega)⟩

/-- The closed form of the C++ update when the table it overwrites is zero off the ends. -/
theorem degreeUpdate_form {edges : List (ℕ × ℕ)} (hok : EdgesOk n edges) (hE : edges.length = E) (h2 : TwoWays n edges)
    (hM : M.Is E n x) {old : Mat Num} (hr : old.rows = E) (hc : old.cols = n)
    (hz : ∀ e < E, ∀ v < n, v ≠ src edges e → v ≠ dst edges e → old.data e v = 0) :
    ∃ D, degreeUpdate n E M edges old = some D ∧ DegForm n edges x D := by
  obtain ⟨D, d1, d2, d3, d4⟩ := degreeUpdate_eq hok hE (twoWays_nonempty h2).1 (twoWays_nonempty h2).2 hM hr hc
  refine ⟨D, d1, by rw [hE]; exact d2, d3, fun v hv => (d4 v hv).1, fun v hv => (d4 v hv).2.1, fun v hv e he h3 h4 => ?_⟩
  rw [(d4 v hv).2.2 e h3 h4]
  exact hz e (by rw [← hE]; exact he) v hv (fun h => h3 (mem_outEdges.mpr ⟨he, h.symm⟩))
    (fun h => h4 (mem_inEdges.mpr ⟨he, h.symm⟩))

/-- The two degree updates agree. -/
theorem pyDegreeUpdate_agree {edges : List (ℕ × ℕ)} (hok : EdgesOk n edges) (hE : edges.length = E) (h2 : TwoWays n edges)
    (hM : M.Is E n x) {old : Mat Num} (hr : old.rows = E) (hc : old.cols = n)
    (hz : ∀ e < E, ∀ v < n, v ≠ src edges e → v ≠ dst edges e → old.data e v = 0) :
    AgreeMat E n (pyDegreeUpdate n E M edges) (degreeUpdate n E M edges old) := by
  obtain ⟨p, p1, p2⟩ := pyDegreeUpdate_is hok hE h2 hM
  obtain ⟨q, q1, q2⟩ := degreeUpdate_form hok hE h2 hM hr hc hz
  have := p2.same q2 (fun _ _ => ⟨rfl, rfl⟩)
  rw [hE] at this
  exact ⟨p, q, p1, q1, this⟩

/-- The subtour update in Python. -/
theorem pySubtourUpdate_of {C : ℕ} {deltas : List (List ℕ)} (hC : deltas.length = C)
    (hd : ∀ l ∈ deltas, l.Nodup ∧ l.length ≠ 1 ∧ ∀ e ∈ l, e < E)
    {y : ℕ → ℕ → ℚ} {Y : Mat Num} (hY : Y.Is C E y) :
    ∃ out, pySubtourUpdate E Y deltas = some out ∧ out.rows = C ∧ out.cols = E ∧
      ∀ c, ∀ h : c < deltas.length,
        (∀ e ∈ deltas[c], ∃ w, IsMin (others deltas[c].toFinset (y c) e) w ∧ out.data c e = cmin (-w) (fin 0)) ∧
        ∀ e, e ∉ deltas[c] → out.data c e = 0 := by
  obtain ⟨out, h1, h2, h3, h4, h5⟩ := loopUp_inv (n := deltas.length) (body := fun c (out : Mat Num) => do
      let l ← deltas[c]?
      loopUp l.length (fun i out => do
        let e ← l[i]?
        let xs ← (pyRemaining l i).mapM (fun j => Y.rd c j)
        let m ← minElement xs
        out.wr c e (-(npMax2 m 0))) out) (s := Mat.fill deltas.length E 0)
    (fun k o => o.rows = C ∧ o.cols = E ∧
      (∀ c, ∀ h : c < deltas.length, c < k →
        (∀ e ∈ deltas[c], ∃ w, IsMin (others deltas[c].toFinset (y c) e) w ∧ o.data c e = cmin (-w) (fin 0)) ∧
        ∀ e, e ∉ deltas[c] → o.data c e = 0) ∧
      ∀ c, k ≤ c → ∀ e, o.data c e = 0)
    ⟨hC, rfl, fun _ _ h => absurd h (by omega), fun _ _ _ => rfl⟩
    (by
      rintro k hk o ⟨o1, o2, o3, o4⟩
      have hl := hd _ (List.getElem_mem hk)
      simp only [List.getElem?_eq_getElem hk, Option.bind_eq_bind, Option.bind_some]
      set l := deltas[k] with hldef
      obtain ⟨r, r1, r2, r3, r4, r5⟩ := loopUp_inv (n := l.length) (body := fun i (out : Mat Num) =>
          (l[i]?).bind fun e => ((pyRemaining l i).mapM (fun j => Y.rd k j)).bind fun xs => (minElement xs).bind fun m =>
            out.wr k e (-(npMax2 m 0))) (s := o)
        (fun i r => r.rows = C ∧ r.cols = E ∧
          (∀ j, ∀ h : j < l.length, j < i → ∃ w, IsMin (others l.toFinset (y k) l[j]) w ∧ r.data k l[j] = cmin (-w) (fin 0)) ∧
          ∀ c e, ¬ (c = k ∧ e ∈ l) → r.data c e = o.data c e)
        ⟨o1, o2, fun _ _ h => absurd h (by omega), fun _ _ _ => rfl⟩
        (by
          rintro i hi r ⟨p1, p2, p3, p4⟩
          have hrd : (pyRemaining l i).mapM (fun j => Y.rd k j) = some (((pyRemaining l i).map (y k)).map fin) := by
            rw [List.map_map]
            exact mapM_some fun j hj => hY.rd (by omega) (hl.2.2 j ((mem_pyRemaining hl.1 hi).mp hj).1)
          obtain ⟨q, q1, q3⟩ := minElement_fin (l := (pyRemaining l i).map (y k))
            (by simpa using pyRemaining_ne (by have := hl.2.1; omega) hi)
          rw [pyRemaining_others hl.1 hi] at q3
          have hli : l[i] < E := hl.2.2 _ (List.getElem_mem hi)
          have hval : -(npMax2 (fin q) 0) = cmin (-(fin q)) (fin 0) := by
            have := maxNegNeg (-q) 0
            rw [neg_neg, neg_zero] at this
            rw [zero_def, npMax2_fin, neg_fin, neg_fin, cmin_fin, this, neg_neg]
          refine ⟨⟨r.rows, r.cols, fun a b => if a = k ∧ b = l[i] then -(npMax2 (fin q) 0) else r.data a b⟩, ?_, ?_⟩
          · simp only [List.getElem?_eq_getElem hi, hrd, q1, Option.bind_some]
            exact Mat.wr_of_lt (by omega) (by omega)
          · refine ⟨p1, p2, fun j hj hji => ?_, fun c e hce => ?_⟩
            · by_cases h : j = i
              · subst h
                exact ⟨fin q, isMin_fin q3, by simp [hval]⟩
              · have hne : l[j] ≠ l[i] := fun e => h ((hl.1.getElem_inj_iff).mp e)
                obtain ⟨w, w1, w2⟩ := p3 j hj (by omega)
                exact ⟨w, w1, by simp [hne, w2]⟩
            · have : ¬ (c = k ∧ e = l[i]) := fun h => hce ⟨h.1, by rw [h.2]; exact List.getElem_mem hi⟩
              simp only [this, if_false]
              exact p4 c e hce)
      refine ⟨r, r1, r2, r3, fun c hc hck => ?_, fun c hc e => ?_⟩
      · by_cases h : c = k
        · subst h
          refine ⟨fun e he => ?_, fun e he => ?_⟩
          · obtain ⟨j, hj, rfl⟩ := List.mem_iff_getElem.mp he
            exact r4 j hj hj
          · rw [r5 c e (fun hh => he hh.2)]; exact o4 c (le_refl _) e
        · have hk' : ∀ e, r.data c e = o.data c e := fun e => r5 c e (fun hh => h hh.1)
          obtain ⟨g1, g2⟩ := o3 c hc (by omega)
          exact ⟨fun e he => by rw [hk']; exact g1 e he, fun e he => by rw [hk']; exact g2 e he⟩
      · rw [r5 c e (fun hh => by omega)]; exact o4 c (by omega) e)
  exact ⟨out, h1, h2, h3, fun c h => h4 c h h⟩

theorem pySubtourUpdate_is {C : ℕ} {deltas : List (List ℕ)} (hC : deltas.length = C) (hd : CutsOk E deltas)
    {y : ℕ → ℕ → ℚ} {Y : Mat Num} (hY : Y.Is C E y) :
    ∃ out, pySubtourUpdate E Y deltas = some out ∧ out.rows = C ∧ out.cols = E ∧
      ∀ c, ∀ h : c < deltas.length,
        (∀ e ∈ deltas[c], ∃ w, IsMin (others deltas[c].toFinset (y c) e) w ∧ out.data c e = cmin (-w) (fin 0)) ∧
        ∀ e, e ∉ deltas[c] → out.data c e = 0 :=
  pySubtourUpdate_of hC (fun l hl => ⟨(hd l hl).1, by have := (hd l hl).2.1; omega, (hd l hl).2.2⟩) hY

/-- The two subtour updates agree. -/
theorem pySubtourUpdate_agree {C : ℕ} {deltas : List (List ℕ)} (hC : deltas.length = C) (hd : CutsOk E deltas)
    {y : ℕ → ℕ → ℚ} {Y : Mat Num} (hY : Y.Is C E y) {old : Mat Num} (hr : old.rows = C) (hc : old.cols = E)
    (hz : ∀ k < C, ∀ e < E, e ∉ deltas.getD k [] → old.data k e = 0) :
    AgreeMat C E (pySubtourUpdate E Y deltas) (subtourUpdate E Y deltas old) := by
  obtain ⟨p, p1, p2, p3, p4⟩ := pySubtourUpdate_is hC hd hY
  obtain ⟨q, q1, q2, q3, q4⟩ := subtourUpdate_eq hC (fun l hl => ⟨(hd l hl).1, by
    rintro rfl; have := (hd _ hl).2.1; simp at this, (hd l hl).2.2⟩) hY hr hc
  refine ⟨p, q, p1, q1, p2, q2, p3, q3, fun c hc e he => ?_⟩
  have hc' : c < deltas.length := by omega
  by_cases h : e ∈ deltas[c]
  · obtain ⟨w, w1, w2⟩ := (p4 c hc').1 e h
    obtain ⟨w', w1', w2'⟩ := (q4 c hc').1 e h
    rw [w2, w2', IsMin.unique w1 w1']
  · rw [(p4 c hc').2 e h, (q4 c hc').2 e h, hz c hc e he (by simpa [hc'] using h)]

theorem pyFlip_eq (m : Mat Num) (edges : List (ℕ × ℕ)) : pyFlip m edges = flipMatrix m edges m := rfl

/-- `a + b` on finite tables. -/
theorem npAdd2_is {r c : ℕ} {A B : Mat Num} {a b : ℕ → ℕ → ℚ} (hA : A.Is r c a) (hB : B.Is r c b) :
    ∃ R, npAdd2 A B = some R ∧ R.Is r c (fun i j => a i j + b i j) :=
  ⟨⟨A.rows, A.cols, fun i j => A.data i j + B.data i j⟩, by rw [npAdd2, if_pos ⟨by rw [hA.1, hB.1], by rw [hA.2.1, hB.2.1]⟩],
    hA.1, hA.2.1, fun i hi j hj => by simp only [hA.2.2 i hi j hj, hB.2.2 i hi j hj, fin_add]⟩

/-- `a + b` on finite vectors. -/
theorem npAdd1_is {r : ℕ} {A B : Arr Num} {a b : ℕ → ℚ} (hA : A.Is r a) (hB : B.Is r b) :
    ∃ R, npAdd1 A B = some R ∧ R.Is r (fun i => a i + b i) :=
  ⟨⟨A.size, fun i => A.data i + B.data i⟩, by rw [npAdd1, if_pos (by rw [hA.1, hB.1])], hA.1, fun i hi => by simp only [hA.2 i hi, hB.2 i hi, fin_add]⟩

theorem npRowSum_is {r c : ℕ} {A : Mat Num} {a : ℕ → ℕ → ℚ} (hA : A.Is r c a) {e : ℕ} (he : e < r) :
    npRowSum A e = some (fin (∑ v ∈ Finset.range c, a e v)) := by
  rw [npRowSum, if_pos (by rw [hA.1]; exact he), hA.2.1]
  have : (List.range c).map (A.data e) = ((List.range c).map (a e)).map fin := by
    rw [List.map_map]
    exact List.map_congr_left fun j hj => hA.2.2 e he j (List.mem_range.mp hj)
  rw [this, npSum_fin, sum_range_list]

/-- The message of an edge to the degree constraints of the relaxed graph. -/
theorem pyEdgeToDegreeRelaxed_agree {edges : List (ℕ × ℕ)} (hok : EdgesOk n edges) (hE : edges.length = E) {D cost out : Mat Num}
    {c : ℕ → ℕ → ℚ} (hD : D.Is E n x) (hc : cost.Is E n c) (hor : out.rows = E) (hoc : out.cols = n) :
    ∃ p q g, pyEdgeToDegreeRelaxed edges cost D = some p ∧ edgeToDegreeRelaxed E edges cost D out = some q ∧ p.Is E n g ∧
      q.Is E n g := by
  obtain ⟨F, f1, f2, f3, f4⟩ := flipMatrix_is hok hE hD
  obtain ⟨q, q1, q2, q3, q4⟩ := edgeToDegreeRelaxed_is hok hE hD hc hor hoc
  have hq : q.Is E n q.val := Mat.isFin q2 q3 fun e he v hv => ⟨_, q4 e (by omega) v hv⟩
  have hF : F.Is E n F.val := Mat.isFin f2 f3 fun e he v hv => ⟨_, f4 e (by omega) v hv⟩
  obtain ⟨p, p1, p2⟩ := npAdd2_is hF hc
  refine ⟨p, q, q.val, ?_, q1, p2.congr fun e he v hv => ?_, hq⟩
  · simp only [pyEdgeToDegreeRelaxed, pyFlip_eq, f1, Option.bind_eq_bind, Option.bind_some, p1]
  · rw [Mat.val, Mat.val, f4 e (by omega) v hv, q4 e (by omega) v hv, Num.val_fin, Num.val_fin]

theorem pyAssign_is {l : List ℕ} {f : ℕ → Option Num} {g : ℕ → ℚ} (hl : ∀ e ∈ l, e < E)
    (hf : ∀ e < E, f e = some (fin (g e))) :
    ∃ r, pyAssign E l f = some r ∧ r.Is E (fun e => if e ∈ l then g e else 0) :=
  writeList (f := g) hl (fun e he row => by simp only [hf e he, Option.bind_eq_bind, Option.bind_some])

/-- Degree messages that are zero off the ends sum to the two messages at the ends. -/
theorem row_two {edges : List (ℕ × ℕ)} (hok : EdgesOk n edges) (hz : ∀ e < edges.length, ∀ v < n, v ≠ src edges e →
    v ≠ dst edges e → x e v = 0) {e : ℕ} (he : e < edges.length) :
    ∑ v ∈ Finset.range n, x e v = x e edges[e].1 + x e edges[e].2 := by
  have hne := src_ne_dst hok he
  rw [← src_eq he, ← dst_eq he, ← Finset.sum_pair hne]
  symm
  refine Finset.sum_subset ?_ ?_
  · intro v hv
    rw [Finset.mem_insert, Finset.mem_singleton] at hv
    rcases hv with rfl | rfl
    · exact Finset.mem_range.mpr (src_lt hok he)
    · exact Finset.mem_range.mpr (dst_lt hok he)
  · intro v hv hn
    rw [Finset.mem_insert, Finset.mem_singleton, not_or] at hn
    exact hz e he v (Finset.mem_range.mp hv) hn.1 hn.2

theorem sum_filter_list (f : ℕ → ℚ) (m k : ℕ) :
    (((List.range m).filter (fun j => decide (j ≠ k))).map f).sum = ((Finset.range m).erase k).sum f := by
  induction m with
  | zero => simp
  | succ m ih =>
    rw [List.range_succ, List.filter_append, List.map_append, List.sum_append, ih, Finset.range_add_one]
    by_cases h : m = k
    · subst h
      rw [Finset.erase_insert (by simp), Finset.erase_eq_of_notMem (by simp)]
      simp
    · rw [Finset.erase_insert_of_ne h, Finset.sum_insert (by simp)]
      simp [h, add_comm]

/-- The messages of the edges to the subtour constraints agree. -/
theorem pyEdgeToSubtour_agree {edges : List (ℕ × ℕ)} (hok : EdgesOk n edges) (hE : edges.length = E) {deltas : List (List ℕ)}
    {C : ℕ} (hC : deltas.length = C) (hd : ∀ l ∈ deltas, ∀ e ∈ l, e < E) {cost : Arr Num} {D S : Mat Num} {c : ℕ → ℚ}
    {s : ℕ → ℕ → ℚ} (hcost : cost.Is E c) (hD : D.Is E n x) (hS : S.Is C E s)
    (hz : ∀ e < E, ∀ v < n, v ≠ src edges e → v ≠ dst edges e → x e v = 0) :
    ∃ p q g, pyEdgeToSubtour E D S deltas cost = some p ∧ edgeToSubtour E deltas cost D S edges = some q ∧ p.Is C E g ∧
      q.Is C E g := by
  obtain ⟨q, q1, q2, q3, q4⟩ := edgeToSubtour_is hok hE hC hd hcost hD hS
  have hq : q.Is C E q.val := Mat.isFin q2 q3 fun k hk e he => ⟨_, q4 k (by omega) e (by omega)⟩
  have hrow : ∀ e < E, npRowSum D e = some (fin (∑ v ∈ Finset.range n, x e v)) := fun e he => npRowSum_is hD he
  have htwo : ∀ e, ∀ he : e < edges.length, ∑ v ∈ Finset.range n, x e v = x e edges[e].1 + x e edges[e].2 :=
    fun e he => row_two hok (fun e he v hv => hz e (by omega) v hv) he
  by_cases h1 : deltas.length = 1
  · obtain ⟨row, r1, r2⟩ := pyAssign_is (E := E) (l := deltas[0]) (f := fun e => do
        let d ← npRowSum D e
        let c ← cost.rd e
        some (d + c)) (g := fun e => (∑ v ∈ Finset.range n, x e v) + c e)
      (fun e he => hd _ (List.getElem_mem (by omega)) e he)
      (fun e he => by simp only [hrow e he, hcost.rd he, Option.bind_eq_bind, Option.bind_some, fin_add])
    refine ⟨⟨1, E, fun _ => row.data⟩, q, q.val, ?_, q1, ?_, hq⟩
    · simp only [pyEdgeToSubtour, h1, if_true, List.getElem?_eq_getElem (show 0 < deltas.length by omega),
        Option.bind_eq_bind, Option.bind_some]
      simp only [Option.bind_eq_bind] at r1
      rw [r1]; rfl
    · refine ⟨by simp only; omega, rfl, fun k hk e he => ?_⟩
      obtain rfl : k = 0 := by omega
      have hC1 : C = 1 := by omega
      subst hC1
      simp only
      rw [r2.2 e he, Mat.val, q4 0 (by omega) e (by omega), Num.val_fin]
      by_cases h : e ∈ deltas[0]
      · simp only [if_pos h, htwo e (show e < edges.length by omega)]
        simp; ring
      · simp only [if_neg h]
  · obtain ⟨p, p1, p2, p3, p4⟩ := Mat.genM_eq (m := deltas.length) (n := E) (f := fun k => do
        let l ← deltas[k]?
        let d ← pyAssign E l (npRowSum D)
        let c ← pyAssign E l cost.rd
        let s ← pyAssign E l (pySumRows S ((List.range deltas.length).filter (fun j => decide (j ≠ k))))
        let ds ← npAdd1 d s
        npAdd1 ds c) (g := fun k e => fin (q.val k e)) (by
      intro k hk
      have hl : ∀ e ∈ deltas[k], e < E := hd _ (List.getElem_mem hk)
      obtain ⟨d, d1, d2⟩ := pyAssign_is hl hrow
      obtain ⟨cc, c1, c2⟩ := pyAssign_is hl (f := cost.rd) (g := c) (fun e he => hcost.rd he)
      obtain ⟨ss, s1, s2⟩ := pyAssign_is hl
        (f := pySumRows S ((List.range deltas.length).filter (fun j => decide (j ≠ k))))
        (g := fun e => ((Finset.range C).erase k).sum (fun j => s j e)) (fun e he => by
          rw [pySumRows, mapM_some (g := fun j => fin (s j e)) (fun j hj => by
            refine hS.rd ?_ he
            have := List.mem_range.mp (List.mem_filter.mp hj).1
            omega)]
          simp only [Option.bind_eq_bind, Option.bind_some]
          rw [show (fun j => fin (s j e)) = fin ∘ (fun j => s j e) from rfl, ← List.map_map, npSum_fin, sum_filter_list, hC])
      obtain ⟨a, a1, a2⟩ := npAdd1_is d2 s2
      obtain ⟨b, b1, b2⟩ := npAdd1_is a2 c2
      refine ⟨b, ?_, b2.1, fun e he => ?_⟩
      · simp only [List.getElem?_eq_getElem hk, d1, c1, s1, a1, b1, Option.bind_eq_bind, Option.bind_some]
      · rw [b2.2 e he, Mat.val, q4 k hk e (by omega), Num.val_fin]
        by_cases h : e ∈ deltas[k]
        · simp only [if_pos h, htwo e (show e < edges.length by omega)]
          congr 1; ring
        · simp only [if_neg h, add_zero])
    refine ⟨p, q, q.val, ?_, q1, ⟨by omega, p3, fun k hk e he => p4 k (by omega) e he⟩, hq⟩
    simp only [pyEdgeToSubtour, h1, if_false]
    exact p1

/-- The messages of the edges to the degree constraints of the augmented graph, in Python. -/
theorem pyEdgeToDegreeAugmented_full {edges : List (ℕ × ℕ)} (hok : EdgesOk n edges) (hE : edges.length = E) {C : ℕ} (hC : C ≠ 0)
    {D S cost : Mat Num} {s c : ℕ → ℕ → ℚ} (hD : D.Is E n x) (hS : S.Is C E s) (hc : cost.Is E n c) :
    ∃ p g, pyEdgeToDegreeAugmented edges cost D S = some p ∧ p.Is E n g ∧
      ∀ e, ∀ he : e < edges.length, g e edges[e].1 = c e edges[e].1 + x e edges[e].2 + (Finset.range C).sum (fun j => s j e) ∧
        g e edges[e].2 = c e edges[e].2 + x e edges[e].1 + (Finset.range C).sum (fun j => s j e) ∧
        ∀ v < n, v ≠ edges[e].1 → v ≠ edges[e].2 → g e v = c e v + x e v := by
  obtain ⟨F, f1, f2, f3, f4⟩ := flipMatrix_is hok hE hD
  have hF : F.Is E n F.val := Mat.isFin f2 f3 fun e he v hv => ⟨_, f4 e (by omega) v hv⟩
  have hsum := npSumAxis0_is hS
  obtain ⟨R, r1, r2⟩ := loopUp_inv (n := edges.length) (body := fun i (out : Mat Num) => do
      let e ← edges[i]?
      let x ← (npSumAxis0 S).rd i
      let out ← out.wr i e.1 x
      out.wr i e.2 x) (s := Mat.fill F.rows F.cols 0)
    (fun k R => R.Is E n (fun e v => if e < k ∧ (v = src edges e ∨ v = dst edges e) then
      (Finset.range C).sum (fun j => s j e) else 0))
    ⟨f2, f3, fun _ _ _ _ => by simp [Mat.fill]; rfl⟩
    (by
      intro k hk R hR
      have hk' : k < E := by omega
      have hs1 : edges[k].1 < n := (hok _ (List.getElem_mem hk)).1
      have hs2 : edges[k].2 < n := (hok _ (List.getElem_mem hk)).2.1
      obtain ⟨R1, a1, a2⟩ := hR.wr hk' hs1 ((Finset.range C).sum (fun j => s j k))
      obtain ⟨R2, b1, b2⟩ := a2.wr hk' hs2 ((Finset.range C).sum (fun j => s j k))
      refine ⟨R2, ?_, b2.congr fun e _ v _ => ?_⟩
      · simp only [List.getElem?_eq_getElem hk, hsum.rd hk', a1, b1, Option.bind_eq_bind, Option.bind_some]
      · by_cases he : e = k
        · subst he
          rw [src_eq hk, dst_eq hk]
          by_cases h1 : v = edges[e].1 <;> by_cases h2 : v = edges[e].2 <;> simp [h1, h2]
        · have : (e < k + 1 ∧ (v = src edges e ∨ v = dst edges e)) ↔ (e < k ∧ (v = src edges e ∨ v = dst edges e)) := by
            constructor
            · rintro ⟨h, h'⟩; exact ⟨by omega, h'⟩
            · rintro ⟨h, h'⟩; exact ⟨by omega, h'⟩
          simp only [he, false_and, if_false, this])
  obtain ⟨A, a1, a2⟩ := npAdd2_is r2 hF
  obtain ⟨p, p1, p2⟩ := npAdd2_is a2 hc
  refine ⟨p, _, ?_, p2, fun e he => ?_⟩
  · simp only [pyEdgeToDegreeAugmented, hS.1, hC, if_false, pyFlip_eq, f1, Option.bind_eq_bind, Option.bind_some]
    simp only [Option.bind_eq_bind] at r1
    rw [r1]
    simp only [Option.bind_some, a1, p1]
  · have hs1 : edges[e].1 < n := (hok _ (List.getElem_mem he)).1
    have hs2 : edges[e].2 < n := (hok _ (List.getElem_mem he)).2.1
    have hne : edges[e].2 ≠ edges[e].1 := fun h => (hok _ (List.getElem_mem he)).2.2 h.symm
    refine ⟨?_, ?_, fun v hv h1 h2 => ?_⟩
    · simp only [Mat.val, f4 e he _ hs1, Num.val_fin, src_eq he, dst_eq he, he, true_and, true_or, if_true]
      ring
    · simp only [Mat.val, f4 e he _ hs2, Num.val_fin, src_eq he, dst_eq he, he, true_and, or_true, if_true, if_neg hne]
      ring
    · simp only [Mat.val, f4 e he _ hv, Num.val_fin, src_eq he, dst_eq he, he, true_and, h1, h2, or_self, if_false]
      ring

theorem pyEdgeToDegreeAugmented_is {edges : List (ℕ × ℕ)} (hok : EdgesOk n edges) (hE : edges.length = E) {C : ℕ} (hC : C ≠ 0)
    {D S cost : Mat Num} {s c : ℕ → ℕ → ℚ} (hD : D.Is E n x) (hS : S.Is C E s) (hc : cost.Is E n c) :
    ∃ p g, pyEdgeToDegreeAugmented edges cost D S = some p ∧ p.Is E n g ∧
      ∀ e, ∀ he : e < edges.length, g e edges[e].1 = c e edges[e].1 + x e edges[e].2 + (Finset.range C).sum (fun j => s j e) ∧
        g e edges[e].2 = c e edges[e].2 + x e edges[e].1 + (Finset.range C).sum (fun j => s j e) := by
  obtain ⟨p, g, h1, h2, h3⟩ := pyEdgeToDegreeAugmented_full hok hE hC hD hS hc
  exact ⟨p, g, h1, h2, fun e he => ⟨(h3 e he).1, (h3 e he).2.1⟩⟩

end

end Verif.Proofs
