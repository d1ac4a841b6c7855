import Verif.Proofs.TspNames
import Verif.Proofs.TspOrder
import Mathlib.Algebra.BigOperators.Field
import Mathlib.Tactic.FieldSimp

/-! Helper lemmas for C79: rounds of a renamed instance, read with the old names. -/

namespace Verif.Proofs
open Verif Num Spec Model

section
variable {A : Finset ℕ} {ρ : ℕ → ℕ} {P Q : Finset ℕ → Prop} {g : ℕ → ℚ} {s : ℚ} (hs : 0 < s)
  (hρ : ∀ u ∈ A, ∀ v ∈ A, ρ u = ρ v → u = v) (hPQ : ∀ S ⊆ A, (Q (S.image ρ) ↔ P S))
include hs hρ hPQ

theorem least_pull {c c' : Finset ℕ → Prop} (hc : ∀ S ⊆ A, (c' (S.image ρ) ↔ c S)) {q : ℚ} (h : IsLeast (costs (A.image ρ) Q g c') q) :
    IsLeast (costs A P (fun e => g (ρ e) / s) c) (q / s) := by
  have hcost : ∀ S ⊆ A, cost (fun e => g (ρ e) / s) S = cost g (S.image ρ) / s := fun S hS => by
    unfold cost
    rw [Finset.sum_image (fun u hu v hv e => hρ u (hS hu) v (hS hv) e), Finset.sum_div]
  obtain ⟨⟨T, t1, t2, t3, rfl⟩, hm⟩ := h
  obtain ⟨S, hS, rfl⟩ := Finset.subset_image_iff.mp t1
  have hS : S ⊆ A := by simpa using hS
  refine ⟨⟨S, hS, (hPQ S hS).mp t2, (hc S hS).mp t3, hcost S hS⟩, ?_⟩
  rintro q ⟨U, u1, u2, u3, rfl⟩
  rw [hcost U u1]
  exact div_le_div_of_nonneg_right (hm ⟨U.image ρ, Finset.image_subset_image u1, (hPQ U u1).mpr u2, (hc U u1).mpr u3, rfl⟩) hs.le

/-- A message on renamed and scaled variables. -/
theorem message_pull {e : ℕ} (he : e ∈ A) {b : ℚ} (h : IsMessage (A.image ρ) Q g (ρ e) (fin b)) :
    IsMessage A P (fun e => g (ρ e) / s) e (fin (b / s)) := by
  have hmem : ∀ S ⊆ A, (ρ e ∈ S.image ρ ↔ e ∈ S) := fun S hS => by
    rw [Finset.mem_image]
    constructor
    · rintro ⟨u, hu, h1⟩
      obtain rfl := hρ u (hS hu) e he h1
      exact hu
    · exact fun hu => ⟨e, hu, rfl⟩
  obtain ⟨a, c, h1, h2, h3⟩ := marg_of_message h
  refine ⟨fin (a / s), fin (c / s), Or.inr ⟨_, rfl, least_pull hs hρ hPQ hmem h1⟩,
    Or.inr ⟨_, rfl, least_pull hs hρ hPQ (fun S hS => not_congr (hmem S hS)) h2⟩, ?_⟩
  simp only [fin_sub]
  rw [← sub_div, ← sub_div, ← h3]
  congr 2; ring

end

theorem exactlyOne_image {A : Finset ℕ} {ρ : ℕ → ℕ} (hρ : ∀ u ∈ A, ∀ v ∈ A, ρ u = ρ v → u = v) {S : Finset ℕ} (hS : S ⊆ A) :
    ExactlyOne (S.image ρ) ↔ ExactlyOne S := by
  constructor
  · rintro ⟨i, hi⟩
    have : i ∈ S.image ρ := by rw [hi]; simp
    obtain ⟨u, hu, rfl⟩ := Finset.mem_image.mp this
    refine ⟨u, Finset.eq_singleton_iff_unique_mem.mpr ⟨hu, fun d hd => ?_⟩⟩
    have : ρ d ∈ S.image ρ := Finset.mem_image_of_mem _ hd
    rw [hi, Finset.mem_singleton] at this
    exact hρ d (hS hd) u (hS hu) this
  · rintro ⟨i, rfl⟩
    exact ⟨ρ i, by simp⟩

/-- The same problem with other names, another order of edges and other units. -/
structure SameProblem (s : ℚ) (π ρ : ℕ → ℕ) (P P' : TspProblem) : Prop where
  n : P'.n = P.n
  graph : SameGraph P.n π ρ P.edges P'.edges
  w : ∀ e < P.edges.length, P'.w (ρ e) = s * P.w e
  c : ∀ e < P.edges.length, ∀ v, v = src P.edges e ∨ v = dst P.edges e → P'.c (ρ e) (π v) = s * P.c e v
  C : ∀ u < P.n, ∀ v < P.n, P'.C (π u) (π v) = s * P.C u v
  flag : P'.flag = P.flag
  alpha : P'.alpha = P.alpha
  iters : P'.iters = P.iters
  reset : P'.reset = P.reset
  thr : ∀ b, Above (fin (s * b)) P'.thr ↔ Above (fin b) P.thr

/-- A constraint of the renamed instance, with the old places of its edges. -/
def pullCut (ρ : ℕ → ℕ) (E : ℕ) (d : List ℕ) : List ℕ := (List.range E).filter (fun e => ρ e ∈ d)

theorem mem_pullCut {ρ : ℕ → ℕ} {E : ℕ} {d : List ℕ} {e : ℕ} : e ∈ pullCut ρ E d ↔ e < E ∧ ρ e ∈ d := by
  simp [pullCut]

/-- A round of the renamed instance, with the old names. -/
noncomputable def pullRound (s : ℚ) (π ρ : ℕ → ℕ) (edges : List (ℕ × ℕ)) (R : TspRound) : TspRound where
  cuts := R.cuts.map (pullCut ρ edges.length)
  x0 := fun e v => R.x0 (ρ e) (π v) / s
  d0 := fun e v => R.d0 (ρ e) (π v) / s
  s0 := fun k e => R.s0 k (ρ e) / s
  x := fun j e v => R.x j (ρ e) (π v) / s
  r := fun j e v => R.r j (ρ e) (π v) / s
  y := fun j k e => R.y j k (ρ e) / s
  q := fun j k e => R.q j k (ρ e) / s
  sel := edges.filter (fun p => (π p.1, π p.2) ∈ R.sel)

theorem getD_pull {ρ : ℕ → ℕ} {E : ℕ} {D : List (List ℕ)} {k : ℕ} (hk : k < D.length) :
    (D.map (pullCut ρ E)).getD k [] = pullCut ρ E (D.getD k []) := by
  rw [List.getD_eq_getElem _ _ (by simpa using hk), List.getD_eq_getElem _ _ hk, List.getElem_map]

theorem cuts_pull {ρ : ℕ → ℕ} {E : ℕ} {D : List (List ℕ)} {e : ℕ} (he : e < E) : cuts (D.map (pullCut ρ E)) e = cuts D (ρ e) := by
  ext k
  rw [mem_cuts, mem_cuts, List.length_map]
  refine and_congr_right fun hk => ?_
  rw [getD_pull hk, mem_pullCut]
  simp [he]

theorem damped_div (flag : Bool) (alpha s : ℚ) (r : ℕ → ℚ) (j : ℕ) : damped flag alpha (fun i => r i / s) j = damped flag alpha r j / s := by
  simp only [div_eq_inv_mul]
  exact damped_smul flag alpha _ r j

theorem prev_div (flag : Bool) (alpha s s0 : ℚ) (r : ℕ → ℚ) (j : ℕ) : prev flag alpha (s0 / s) (fun i => r i / s) j = prev flag alpha s0 r j / s := by
  simp only [div_eq_inv_mul]
  exact prev_smul flag alpha _ s0 r j

section
variable {s : ℚ} {π ρ : ℕ → ℕ} {P P' : TspProblem} (hs : 0 < s) (hok : EdgesOk P.n P.edges) (hp : SameProblem s π ρ P P')
include hs hok hp

theorem trace_pull {D : List (List ℕ)} (hD : ∀ l ∈ D, ∀ e ∈ l, e < P'.edges.length) {x0 s0 : ℕ → ℕ → ℚ} {x r y q : ℕ → ℕ → ℕ → ℚ}
    (t : IsTspTrace P'.n P'.edges D P'.w P'.c P'.flag P'.alpha x0 s0 x r y q) :
    IsTspTrace P.n P.edges (D.map (pullCut ρ P.edges.length)) P.w P.c P.flag P.alpha (fun e v => x0 (ρ e) (π v) / s) (fun k e => s0 k (ρ e) / s)
      (fun j e v => x j (ρ e) (π v) / s) (fun j e v => r j (ρ e) (π v) / s) (fun j k e => y j k (ρ e) / s) (fun j k e => q j k (ρ e) / s) := by
  have g := hp.graph
  have hE : ∀ e < P.edges.length, ρ e < P'.edges.length := fun e he => by rw [g.length]; exact g.place e he
  rw [hp.flag, hp.alpha, hp.n] at t
  have hs' : s ≠ 0 := hs.ne'
  constructor
  · intro e he
    rw [← g.src e he, t.init_src _ (hE e he)]
  · intro e he
    rw [← g.dst e he, t.init_dst _ (hE e he)]
  · intro j v hv e he
    have hinj : ∀ a ∈ outEdges P.edges v, ∀ b ∈ outEdges P.edges v, ρ a = ρ b → a = b :=
      fun a ha b hb => g.place_inj a (mem_out.mp ha).1 b (mem_out.mp hb).1
    have := t.out j (π v) (g.node v hv) (ρ e) (by rw [out_same hok g hv]; exact Finset.mem_image_of_mem _ he)
    rw [out_same hok g hv] at this
    exact message_pull hs hinj (fun S hS => exactlyOne_image hinj hS) he this
  · intro j v hv e he
    have hinj : ∀ a ∈ inEdges P.edges v, ∀ b ∈ inEdges P.edges v, ρ a = ρ b → a = b :=
      fun a ha b hb => g.place_inj a (mem_in.mp ha).1 b (mem_in.mp hb).1
    have := t.inn j (π v) (g.node v hv) (ρ e) (by rw [in_same hok g hv]; exact Finset.mem_image_of_mem _ he)
    rw [in_same hok g hv] at this
    exact message_pull hs hinj (fun S hS => exactlyOne_image hinj hS) he this
  · intro j k hk e he
    rw [List.length_map] at hk
    rw [getD_pull hk, mem_pullCut] at he
    have := t.to_cut j k hk (ρ e) he.2
    rw [g.src e he.1, g.dst e he.1] at this
    rw [this, damped_div, damped_div, hp.w e he.1, cuts_pull he.1]
    simp only [prev_div]
    rw [← Finset.sum_div]
    field_simp
  · intro j k hk e he
    rw [List.length_map] at hk
    rw [getD_pull hk] at he ⊢
    have he' := mem_pullCut.mp he
    have hmem : D.getD k [] ∈ D := by rw [List.getD_eq_getElem _ _ hk]; exact List.getElem_mem hk
    have himg : (pullCut ρ P.edges.length (D.getD k [])).toFinset.image ρ = (D.getD k []).toFinset := by
      ext d
      rw [Finset.mem_image, List.mem_toFinset]
      constructor
      · rintro ⟨a, ha, rfl⟩
        rw [List.mem_toFinset, mem_pullCut] at ha
        exact ha.2
      · intro hd
        have hlt := hD _ hmem d hd
        rw [g.length] at hlt
        obtain ⟨a, ha, rfl⟩ := place_surj g d hlt
        exact ⟨a, List.mem_toFinset.mpr (mem_pullCut.mpr ⟨ha, hd⟩), rfl⟩
    have := t.cut j k hk (ρ e) he'.2
    rw [← himg] at this
    exact message_pull hs (fun a ha b hb => g.place_inj a (mem_pullCut.mp (List.mem_toFinset.mp ha)).1 b (mem_pullCut.mp (List.mem_toFinset.mp hb)).1)
      (fun S hS => Finset.image_nonempty) (List.mem_toFinset.mpr he) this
  · intro j e he
    have := t.var_src j (ρ e) (hE e he)
    rw [g.src e he, g.dst e he] at this
    rw [this, damped_div, hp.c e he _ (Or.inl rfl), cuts_pull he]
    simp only [damped_div]
    rw [← Finset.sum_div]
    field_simp
  · intro j e he
    have := t.var_dst j (ρ e) (hE e he)
    rw [g.src e he, g.dst e he] at this
    rw [this, damped_div, hp.c e he _ (Or.inr rfl), cuts_pull he]
    simp only [damped_div]
    rw [← Finset.sum_div]
    field_simp

omit hok in
theorem output_pull (R : TspRound) {e : ℕ} (he : e < P.edges.length) : (pullRound s π ρ P.edges R).output P e = R.output P' (ρ e) / s := by
  have g := hp.graph
  unfold TspRound.output tspOutput pullRound
  simp only
  rw [hp.flag, hp.alpha, hp.iters, g.src e he, g.dst e he, prev_div, prev_div, cuts_pull he]
  simp only [prev_div]
  rw [← Finset.sum_div]
  field_simp
end

theorem isCycle_image {E E' : ℕ → ℕ → Prop} {f : ℕ → ℕ} {l : List ℕ} (h : IsCycle E l) (hE : ∀ u v, E u v → E' (f u) (f v))
    (hinj : ∀ u ∈ l, ∀ v ∈ l, f u = f v → u = v) : IsCycle E' (l.map f) := by
  obtain ⟨u, v, ⟨h1, h2, h3, h4⟩, h5⟩ := h
  refine ⟨f u, f v, ⟨by simp [h1], by simp [h2], ?_, (List.nodup_map_iff_inj_on h4).mpr hinj⟩, hE _ _ h5⟩
  rw [List.isChain_map]
  exact h3.imp fun _ _ h => hE _ _ h

theorem rounds_cuts_sorted {P : TspProblem} {x0 : ℕ → ℕ → ℚ} {R : ℕ → TspRound} {k : ℕ} (hR : TspRounds P x0 R k) :
    ∀ i ≤ k, ∀ l ∈ (R i).cuts, l.Pairwise (· < ·) := by
  intro i
  induction i with
  | zero => intro _ l hl; rw [hR.first_cuts] at hl; simp at hl
  | succ i ih =>
    intro hi l hl
    rcases (hR.next i (by omega)).sound l hl with h | ⟨-, _, -, h⟩
    · exact ih (by omega) l h
    · exact h.1

/-- Old names of new nodes. -/
theorem exists_old_names {n : ℕ} {π : ℕ → ℕ} (hπ : ∀ v < n, π v < n) (hinj : ∀ u < n, ∀ v < n, π u = π v → u = v) :
    ∃ κ : ℕ → ℕ, (∀ v < n, κ v < n) ∧ (∀ v < n, π (κ v) = v) ∧ ∀ v < n, κ (π v) = v := by
  have hs := Finset.surj_on_of_inj_on_of_card_le (s := Finset.range n) (t := Finset.range n) (fun e _ => π e)
    (fun e he => Finset.mem_range.mpr (hπ e (Finset.mem_range.mp he)))
    (fun a b ha hb hab => hinj a (Finset.mem_range.mp ha) b (Finset.mem_range.mp hb) hab) le_rfl
  have h1 : ∀ v, ∃ u, v < n → u < n ∧ π u = v := by
    intro v
    by_cases hv : v < n
    · obtain ⟨u, hu, h⟩ := hs v (Finset.mem_range.mpr hv)
      exact ⟨u, fun _ => ⟨Finset.mem_range.mp hu, h.symm⟩⟩
    · exact ⟨0, fun h => absurd h hv⟩
  choose κ hκ using h1
  refine ⟨κ, fun v hv => (hκ v hv).1, fun v hv => (hκ v hv).2, fun v hv => ?_⟩
  obtain ⟨a, b⟩ := hκ _ (hπ v hv)
  exact hinj _ a _ hv b

theorem selects_mem {E : List (ℕ × ℕ)} {ww b : ℕ → ℚ} {thr : Num} {sel : List (ℕ × ℕ)} {cost : ℚ} (hnd : E.Nodup)
    (h : Selects E ww b thr sel cost) {e : ℕ} (he : e < E.length) : (src E e, dst E e) ∈ sel ↔ ¬ Above (fin (b e)) thr := by
  obtain ⟨L, l1, l2, l3, l4⟩ := h
  have hp : (src E e, dst E e) ∈ sel ↔ some (src E e, dst E e) ∈ sel.map some := by simp
  rw [hp, l3, List.mem_map]
  constructor
  · rintro ⟨d, hd, hde⟩
    have hdlt := ((l2 d).mp hd).1
    rw [List.getElem?_eq_getElem hdlt, Option.some.injEq, src_dst hdlt, Prod.mk.injEq] at hde
    obtain rfl := edge_inj hnd hdlt he hde.1 hde.2
    exact ((l2 d).mp hd).2
  · intro hab
    exact ⟨e, (l2 e).mpr ⟨he, hab⟩, by rw [List.getElem?_eq_getElem he, src_dst he]⟩

theorem edges_range (edges : List (ℕ × ℕ)) : edges = (List.range edges.length).map (fun e => (src edges e, dst edges e)) := by
  refine List.ext_getElem (by simp) fun e h1 h2 => ?_
  simp [src_dst h1]

section
variable {s : ℚ} {π ρ : ℕ → ℕ} {P P' : TspProblem}

/-- The selection of the renamed instance, with the old names. -/
theorem selects_pull (hs : 0 < s) (hp : SameProblem s π ρ P P') (hnd : P'.edges.Nodup) (R : TspRound) {cost : ℚ}
    (h : Selects P'.edges P'.w (fun e => R.output P' e + P'.w e) P'.thr R.sel cost) :
    ∃ cost, Selects P.edges P.w (fun e => (pullRound s π ρ P.edges R).output P e + P.w e) P.thr (pullRound s π ρ P.edges R).sel cost := by
  classical
  have g := hp.graph
  have hmem : ∀ e < P.edges.length, ((π (src P.edges e), π (dst P.edges e)) ∈ R.sel ↔
      ¬ Above (fin ((pullRound s π ρ P.edges R).output P e + P.w e)) P.thr) := fun e he => by
    have := selects_mem hnd h (e := ρ e) (by rw [g.length]; exact g.place e he)
    rw [g.src e he, g.dst e he] at this
    rw [this, output_pull hs hp R he, ← hp.thr, hp.w e he]
    rw [mul_add, mul_div_cancel₀ _ hs.ne']
  refine ⟨_, (List.range P.edges.length).filter (fun e => ¬ Above (fin ((pullRound s π ρ P.edges R).output P e + P.w e)) P.thr),
    List.pairwise_lt_range.filter _, fun e => by simp, ?_, rfl⟩
  show (P.edges.filter _).map some = _
  conv_lhs => rw [edges_range P.edges]
  rw [List.filter_map, List.map_map]
  have hf : (List.range P.edges.length).filter ((fun p => decide ((π p.1, π p.2) ∈ R.sel)) ∘ fun e => (src P.edges e, dst P.edges e)) =
      (List.range P.edges.length).filter (fun e => decide (¬ Above (fin ((pullRound s π ρ P.edges R).output P e + P.w e)) P.thr)) :=
    List.filter_congr fun e he => by
      simp only [Function.comp]
      exact decide_eq_decide.mpr (hmem e (List.mem_range.mp he))
  rw [hf]
  refine List.map_congr_left fun e he => ?_
  have := List.mem_range.mp (List.mem_filter.mp he).1
  simp only [Function.comp]
  rw [List.getElem?_eq_getElem this, src_dst this]

theorem joined_pull (R : TspRound) {u v : ℕ} : Joined (pullRound s π ρ P.edges R).sel u v ↔ (u, v) ∈ P.edges ∧ Joined R.sel (π u) (π v) := by
  simp [Joined, pullRound]

theorem next_pull (hs : 0 < s) (hok : EdgesOk P.n P.edges) (hok' : EdgesOk P'.n P'.edges) (hp : SameProblem s π ρ P P') {R R1 : TspRound}
    (hsel : ∀ p ∈ R.sel, p ∈ P'.edges) (hc : ∀ l ∈ R1.cuts, l.Pairwise (· < ·)) (hlt : ∀ l ∈ R1.cuts, ∀ e ∈ l, e < P'.edges.length)
    (h : R.Next P' R1) : (pullRound s π ρ P.edges R).Next P (pullRound s π ρ P.edges R1) := by
  have g := hp.graph
  have hE : ∀ e < P.edges.length, ρ e < P'.edges.length := fun e he => by rw [g.length]; exact g.place e he
  obtain ⟨κ, k1, k2, k3⟩ := exists_old_names g.node g.node_inj
  have hend : ∀ e < P.edges.length, ∀ v, v = src P.edges e ∨ v = dst P.edges e → (π v = src P'.edges (ρ e) ∨ π v = dst P'.edges (ρ e)) := by
    rintro e he v (rfl | rfl)
    · exact Or.inl (g.src e he).symm
    · exact Or.inr (g.dst e he).symm
  have hget : ∀ {D : List (List ℕ)} {k : ℕ} {e : ℕ}, k < D.length → e ∈ (D.map (pullCut ρ P.edges.length)).getD k [] → ρ e ∈ D.getD k [] := by
    intro D k e hk he
    rw [getD_pull hk] at he
    exact (mem_pullCut.mp he).2
  -- cycles with old names
  have hn' : ∀ {u v}, Joined R.sel u v → u < P.n ∧ v < P.n := fun {u v} huv => by
    have := hok' _ (hsel _ huv)
    rw [hp.n] at this
    exact ⟨this.1, this.2.1⟩
  have hcyc : ∀ {l}, IsCycle (Joined R.sel) l → ∀ v ∈ l, v < P.n := fun {l} hl v hv => by
    have := isCycle_trans hl hv
    obtain ⟨w, hw, -⟩ := Relation.TransGen.head'_iff.mp this
    exact (hn' hw).1
  have hjoin : ∀ u v, Joined R.sel u v → Joined (pullRound s π ρ P.edges R).sel (κ u) (κ v) := by
    intro u v huv
    obtain ⟨hu, hv⟩ := hn' huv
    rw [joined_pull, k2 u hu, k2 v hv]
    refine ⟨?_, huv⟩
    obtain ⟨d, hd, d1, d2⟩ := edge_of_mem (hsel _ huv)
    rw [g.length] at hd
    obtain ⟨e, he, rfl⟩ := place_surj g d hd
    rw [g.src e he] at d1
    rw [g.dst e he] at d2
    have := List.getElem_mem he
    rw [src_dst he] at this
    rw [← d1, ← d2, k3 _ (src_lt hok he), k3 _ (dst_lt hok he)]
    exact this
  have hpc : ∀ {l}, IsCycle (Joined R.sel) l → IsCycle (Joined (pullRound s π ρ P.edges R).sel) (l.map κ) := fun {l} hl =>
    isCycle_image hl hjoin fun u hu v hv huv => by
      rw [← k2 u (hcyc hl u hu), ← k2 v (hcyc hl v hv), huv]
  have hmemκ : ∀ {l}, IsCycle (Joined R.sel) l → ∀ v < P.n, (v ∈ l.map κ ↔ π v ∈ l) := fun {l} hl v hv => by
    rw [List.mem_map]
    constructor
    · rintro ⟨u, hu, rfl⟩
      rw [k2 u (hcyc hl u hu)]; exact hu
    · exact fun h => ⟨π v, h, k3 v hv⟩
  have hcut : ∀ {l d}, IsCycle (Joined R.sel) l → IsCut P'.edges (· ∈ l) d → IsCut P.edges (· ∈ l.map κ) (pullCut ρ P.edges.length d) := by
    intro l d hl hd
    refine ⟨List.pairwise_lt_range.filter _, fun e => ?_⟩
    rw [mem_pullCut, hd.2]
    constructor
    · rintro ⟨he, c, c1, c2, c3⟩
      rw [List.getElem?_eq_getElem (hE e he), src_dst (hE e he), Option.some.injEq] at c1
      subst c1
      simp only [g.src e he, g.dst e he] at c2 c3
      refine ⟨_, by rw [List.getElem?_eq_getElem he, src_dst he], ?_, ?_⟩
      · simp only; rw [hmemκ hl _ (src_lt hok he)]; exact c2
      · simp only; rw [hmemκ hl _ (dst_lt hok he)]; exact c3
    · rintro ⟨c, c1, c2, c3⟩
      have he : e < P.edges.length := by
        by_contra hh
        rw [List.getElem?_eq_none (by omega)] at c1
        simp at c1
      rw [List.getElem?_eq_getElem he, src_dst he, Option.some.injEq] at c1
      subst c1
      simp only at c2 c3
      rw [hmemκ hl _ (src_lt hok he)] at c2
      rw [hmemκ hl _ (dst_lt hok he)] at c3
      exact ⟨he, _, by rw [List.getElem?_eq_getElem (hE e he), src_dst (hE e he)], by simp only [g.src e he]; exact c2,
        by simp only [g.dst e he]; exact c3⟩
  constructor
  · intro e he v hv
    have := h.start (ρ e) (hE e he) (π v) (hend e he v hv)
    show R1.x0 (ρ e) (π v) / s = _
    rw [this]
    unfold augStart
    rw [hp.reset, hp.iters, g.src e he, g.dst e he]
    have hv' := hend e he v hv
    rw [g.src e he, g.dst e he] at hv'
    by_cases hr : P.reset = true
    · rw [if_pos ⟨hr, hv'⟩, if_pos ⟨hr, hv⟩, hp.C _ (src_lt hok he) _ (dst_lt hok he), mul_div_cancel_left₀ _ hs.ne']
    · rw [if_neg (fun h => hr h.1), if_neg (fun h => hr h.1)]; rfl
  · intro e he v hv
    show R1.d0 (ρ e) (π v) / s = prev P.flag P.alpha (R.d0 (ρ e) (π v) / s) (fun i => R.r i (ρ e) (π v) / s) P.iters
    rw [h.degree (ρ e) (hE e he) (π v) (hend e he v hv), prev_div, hp.flag, hp.alpha, hp.iters]
  · intro k hk e he
    have hk' : k < R.cuts.length := by simpa [pullRound] using hk
    show R1.s0 k (ρ e) / s = prev P.flag P.alpha (R.s0 k (ρ e) / s) (fun i => R.q i k (ρ e) / s) P.iters
    rw [h.old_cut k hk' (ρ e) (hget hk' he), prev_div, hp.flag, hp.alpha, hp.iters]
  · intro k hk hk1 e he
    have hk' : R.cuts.length ≤ k := by simpa [pullRound] using hk
    have hk1' : k < R1.cuts.length := by simpa [pullRound] using hk1
    show R1.s0 k (ρ e) / s = 0
    rw [h.new_cut k hk' hk1' (ρ e) (hget hk1' he), zero_div]
  · exact h.keep.map _
  · intro hnd
    refine (List.nodup_map_iff_inj_on (h.nodup (List.Nodup.of_map _ hnd))).mpr fun a ha b hb hab => ?_
    have : ∀ d, d ∈ a ↔ d ∈ b := by
      have key : ∀ {a b}, a ∈ R1.cuts → pullCut ρ P.edges.length a = pullCut ρ P.edges.length b → ∀ d ∈ a, d ∈ b := by
        intro a b ha hab d hd
        have hl := hlt a ha d hd
        rw [g.length] at hl
        obtain ⟨e, he, rfl⟩ := place_surj g d hl
        have : e ∈ pullCut ρ P.edges.length a := mem_pullCut.mpr ⟨he, hd⟩
        rw [hab] at this
        exact (mem_pullCut.mp this).2
      exact fun d => ⟨key ha hab d, key hb hab.symm d⟩
    exact ((List.perm_ext_iff_of_nodup ((hc a ha).imp (fun h => (Nat.ne_of_lt h))) ((hc b hb).imp (fun h => (Nat.ne_of_lt h)))).mpr this).eq_of_pairwise
      (le := (· < ·)) (fun _ _ _ _ h1 h2 => absurd h1 (by omega)) (hc a ha) (hc b hb)
  · intro d hd
    obtain ⟨d', hd', rfl⟩ := List.mem_map.mp (show d ∈ R1.cuts.map _ from hd)
    rcases h.sound d' hd' with h1 | ⟨h1, l, hl, hld⟩
    · exact Or.inl (List.mem_map.mpr ⟨d', h1, rfl⟩)
    · refine Or.inr ⟨?_, l.map κ, hpc hl, hcut hl hld⟩
      obtain ⟨x, hx⟩ := List.exists_mem_of_ne_nil d' h1
      have hl := hlt d' hd' x hx
      rw [g.length] at hl
      obtain ⟨e, he, rfl⟩ := place_surj g x hl
      exact List.ne_nil_of_mem (mem_pullCut.mpr ⟨he, hx⟩)
  · intro v hv
    have hvn : v < P.n := by
      obtain ⟨w, hw, -⟩ := Relation.TransGen.head'_iff.mp hv
      exact (hok _ (joined_pull R |>.mp hw).1).1
    have hv' : Relation.TransGen (Joined R.sel) (π v) (π v) := hv.lift π (fun a b hab => ((joined_pull R).mp hab).2)
    obtain ⟨l, l1, l2, l3⟩ := h.complete (π v) hv'
    refine ⟨l.map κ, hpc l1, (hmemκ l1 v hvn).mpr l2, fun d hd => ?_⟩
    have hd' := leavingEdges_isCut P'.edges l
    have := isCut_unique hd (hcut l1 hd')
    subst this
    rcases l3 _ hd' with h0 | h0
    · left; rw [h0]; simp [pullCut]
    · exact Or.inr (List.mem_map.mpr ⟨_, h0, rfl⟩)

theorem rounds_pull (hs : 0 < s) (hok : EdgesOk P.n P.edges) (hok' : EdgesOk P'.n P'.edges) (hnd : P'.edges.Nodup)
    (hp : SameProblem s π ρ P P') {x0 x0' : ℕ → ℕ → ℚ}
    (hx : ∀ e < P.edges.length, ∀ v, v = src P.edges e ∨ v = dst P.edges e → x0' (ρ e) (π v) = s * x0 e v)
    {R : ℕ → TspRound} {k : ℕ} (hR : TspRounds P' x0' R k) : TspRounds P x0 (fun i => pullRound s π ρ P.edges (R i)) k := by
  have g := hp.graph
  have hE : ∀ e < P.edges.length, ρ e < P'.edges.length := fun e he => by rw [g.length]; exact g.place e he
  have hend : ∀ e < P.edges.length, ∀ v, v = src P.edges e ∨ v = dst P.edges e → (π v = src P'.edges (ρ e) ∨ π v = dst P'.edges (ρ e)) := by
    rintro e he v (rfl | rfl)
    · exact Or.inl (g.src e he).symm
    · exact Or.inr (g.dst e he).symm
  refine ⟨by simp [pullRound, hR.first_cuts], fun e he v hv => ?_, fun e he v hv => ?_, fun i hi => ⟨?_, ?_⟩, fun i hi => ?_⟩
  · show (R 0).x0 (ρ e) (π v) / s = x0 e v
    rw [hR.first_start _ (hE e he) _ (hend e he v hv), hx e he v hv, mul_div_cancel_left₀ _ hs.ne']
  · show (R 0).d0 (ρ e) (π v) / s = 0
    rw [hR.first_degree _ (hE e he) _ (hend e he v hv), zero_div]
  · exact trace_pull hs hok hp (rounds_cuts_lt hR i hi) (hR.ok i hi).trace
  · obtain ⟨c, hc⟩ := (hR.ok i hi).selects
    exact selects_pull hs hp hnd (R i) hc
  · obtain ⟨c, hc⟩ := (hR.ok i (by omega)).selects
    exact next_pull hs hok hok' hp (selects_sub hc) (rounds_cuts_sorted hR (i + 1) (by omega)) (rounds_cuts_lt hR (i + 1) (by omega)) (hR.next i hi)

/-- Renaming, reordering and other units carry over to all rounds. -/
theorem rounds_named (hs : 0 < s) (hok : EdgesOk P.n P.edges) (hok' : EdgesOk P'.n P'.edges) (hnd : P'.edges.Nodup)
    (hp : SameProblem s π ρ P P') {x0 x0' : ℕ → ℕ → ℚ}
    (hx : ∀ e < P.edges.length, ∀ v, v = src P.edges e ∨ v = dst P.edges e → x0' (ρ e) (π v) = s * x0 e v)
    {R R' : ℕ → TspRound} {k : ℕ} (hR : TspRounds P x0 R k) (hR' : TspRounds P' x0' R' k) (ha : ∀ i < k, CyclesApart (R i).sel) :
    ∀ i ≤ k, (R i).sel = P.edges.filter (fun p => (π p.1, π p.2) ∈ (R' i).sel) ∧
      ∀ e < P.edges.length, (R' i).output P' (ρ e) = s * (R i).output P e := by
  intro i hi
  obtain ⟨⟨h1, h2⟩, -⟩ := rounds_determined hok hR (rounds_pull hs hok hok' hnd hp hx hR') ha i hi
  refine ⟨h1, fun e he => ?_⟩
  rw [h2 e he, output_pull hs hp _ he, mul_div_cancel₀ _ hs.ne']
end

end Verif.Proofs
