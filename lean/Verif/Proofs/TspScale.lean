import Verif.Proofs.TspRounds
import Verif.Proofs.KsatSym

/-! Multiplying all costs of a TSP instance by a positive number. -/

namespace Verif.Proofs
open Verif Num Spec Model

theorem cost_smul {ι : Type} (s : ℚ) (x : ι → ℚ) (S : Finset ι) : cost (fun i => s * x i) S = s * cost x S := by
  unfold cost; rw [Finset.mul_sum]

theorem isLeast_smul {ι : Type} {s : ℚ} (hs : 0 < s) {vars : Finset ι} {valid c : Finset ι → Prop} {x : ι → ℚ} {q : ℚ}
    (h : IsLeast (costs vars valid x c) q) : IsLeast (costs vars valid (fun i => s * x i) c) (s * q) := by
  obtain ⟨⟨S, s1, s2, s3, rfl⟩, hm⟩ := h
  refine ⟨⟨S, s1, s2, s3, cost_smul s x S⟩, ?_⟩
  rintro _ ⟨T, t1, t2, t3, rfl⟩
  rw [cost_smul]
  exact mul_le_mul_of_nonneg_left (hm ⟨T, t1, t2, t3, rfl⟩) hs.le

/-- Finite messages scale with the incoming messages. -/
theorem message_smul {ι : Type} {s : ℚ} (hs : 0 < s) {vars : Finset ι} {valid : Finset ι → Prop} {x : ι → ℚ} {i : ι} {r : ℚ}
    (h : IsMessage vars valid x i (fin r)) : IsMessage vars valid (fun i => s * x i) i (fin (s * r)) := by
  obtain ⟨a, b, ha, hb, hr⟩ := h
  rcases ha with ⟨-, rfl⟩ | ⟨qa, rfl, ha⟩ <;> rcases hb with ⟨-, rfl⟩ | ⟨qb, rfl, hb⟩
  · cases hr
  · cases hr
  · cases hr
  · refine ⟨_, _, Or.inr ⟨_, rfl, isLeast_smul hs ha⟩, Or.inr ⟨_, rfl, isLeast_smul hs hb⟩, ?_⟩
    have : r = qa - qb - x i := by simpa [Num.fin_sub] using hr
    rw [this]
    simp only [Num.fin_sub, Num.fin.injEq]
    ring

theorem message_congr {ι : Type} {vars : Finset ι} {valid : Finset ι → Prop} {x x' : ι → ℚ} {i : ι} (hi : i ∈ vars)
    (hx : ∀ j ∈ vars, x j = x' j) {mu : Num} (h : IsMessage vars valid x i mu) : IsMessage vars valid x' i mu := by
  have key : ∀ c, costs vars valid x c = costs vars valid x' c := by
    intro c; ext q; constructor
    · rintro ⟨S, a, b, d, e⟩
      exact ⟨S, a, b, d, by rw [← e]; exact Finset.sum_congr rfl fun j hj => (hx j (a hj)).symm⟩
    · rintro ⟨S, a, b, d, e⟩
      exact ⟨S, a, b, d, by rw [← e]; exact Finset.sum_congr rfl fun j hj => hx j (a hj)⟩
  unfold IsMessage at h ⊢
  rw [← hx i hi, ← key, ← key]; exact h

theorem prev_smul (flag : Bool) (alpha a s0 : ℚ) (r : ℕ → ℚ) (j : ℕ) :
    prev flag alpha (a * s0) (fun i => a * r i) j = a * prev flag alpha s0 r j := by
  cases j with
  | zero => rfl
  | succ j => exact damped_smul flag alpha a r j

/-- All messages scale. -/
theorem tspTrace_smul {n : ℕ} {edges : List (ℕ × ℕ)} {deltas : List (List ℕ)} {w : ℕ → ℚ} {c : ℕ → ℕ → ℚ} {flag : Bool} {alpha : ℚ}
    {x0 s0 : ℕ → ℕ → ℚ} {x r y q : ℕ → ℕ → ℕ → ℚ} {s : ℚ} (hs : 0 < s)
    (h : IsTspTrace n edges deltas w c flag alpha x0 s0 x r y q) :
    IsTspTrace n edges deltas (fun e => s * w e) (fun e v => s * c e v) flag alpha (fun e v => s * x0 e v) (fun k e => s * s0 k e)
      (fun j e v => s * x j e v) (fun j e v => s * r j e v) (fun j k e => s * y j k e) (fun j k e => s * q j k e) where
  init_src e he := by rw [h.init_src e he]
  init_dst e he := by rw [h.init_dst e he]
  out j v hv e he := message_smul hs (h.out j v hv e he)
  inn j v hv e he := message_smul hs (h.inn j v hv e he)
  to_cut j k hk e he := by
    rw [h.to_cut j k hk e he, damped_smul flag alpha s (fun i => r i e (src edges e)), damped_smul flag alpha s (fun i => r i e (dst edges e)),
      mul_add, mul_add, mul_add, Finset.mul_sum]
    congr 1
    exact Finset.sum_congr rfl fun k' _ => (prev_smul flag alpha s (s0 k' e) (fun i => q i k' e) j).symm
  cut j k hk e he := message_smul hs (h.cut j k hk e he)
  var_src j e he := by
    rw [h.var_src j e he, damped_smul flag alpha s (fun i => r i e (dst edges e)), mul_add, mul_add, Finset.mul_sum]
    congr 1
    exact Finset.sum_congr rfl fun k' _ => (damped_smul flag alpha s (fun i => q i k' e) j).symm
  var_dst j e he := by
    rw [h.var_dst j e he, damped_smul flag alpha s (fun i => r i e (src edges e)), mul_add, mul_add, Finset.mul_sum]
    congr 1
    exact Finset.sum_congr rfl fun k' _ => (damped_smul flag alpha s (fun i => q i k' e) j).symm

/-- Traces that start with the same messages where it matters. -/
theorem tspTrace_start {n : ℕ} {edges : List (ℕ × ℕ)} {deltas : List (List ℕ)} {w w' : ℕ → ℚ} {c c' : ℕ → ℕ → ℚ} {flag : Bool} {alpha : ℚ}
    {x0 s0 x0' s0' : ℕ → ℕ → ℚ} {x r y q : ℕ → ℕ → ℕ → ℚ} (hd : ∀ l ∈ deltas, ∀ e ∈ l, e < edges.length)
    (hw : ∀ e < edges.length, w e = w' e) (hc : ∀ e < edges.length, ∀ v, v = src edges e ∨ v = dst edges e → c e v = c' e v)
    (hx : ∀ e < edges.length, ∀ v, v = src edges e ∨ v = dst edges e → x0 e v = x0' e v)
    (hs : ∀ k < deltas.length, ∀ e ∈ deltas.getD k [], s0 k e = s0' k e)
    (h : IsTspTrace n edges deltas w c flag alpha x0 s0 x r y q) : IsTspTrace n edges deltas w' c' flag alpha x0' s0' x r y q :=
  { h with
    init_src := fun e he => (h.init_src e he).trans (hx e he _ (Or.inl rfl))
    init_dst := fun e he => (h.init_dst e he).trans (hx e he _ (Or.inr rfl))
    to_cut := fun j k hk e he => by
      rw [h.to_cut j k hk e he]
      have hlt : e < edges.length := by
        have hgd : deltas.getD k [] = deltas[k] := by simp [hk]
        rw [hgd] at he; exact hd _ (List.getElem_mem hk) e he
      rw [hw e hlt]
      congr 1
      refine Finset.sum_congr rfl fun k' hk' => ?_
      have := (Finset.mem_filter.mp (Finset.mem_of_mem_erase hk'))
      rw [hs k' (Finset.mem_range.mp this.1) e this.2]
    var_src := fun j e he => by rw [h.var_src j e he, hc e he _ (Or.inl rfl)]
    var_dst := fun j e he => by rw [h.var_dst j e he, hc e he _ (Or.inr rfl)] }

/-! ## The whole solver -/

section
variable {inp inp' : TspInputs} {w w' : ℕ → ℚ} {cc cc' C C' : ℕ → ℕ → ℚ} {numIter maxCount : ℕ} {reset augmentation : Bool} {θ s : ℚ}
  {maxAugm : ℤ} {order : ℕ → List (ℕ × ℕ) → List ℕ}

/-- The second instance is the first one with all costs multiplied by `s`. -/
structure ScaledInputs (s : ℚ) (inp inp' : TspInputs) (w w' : ℕ → ℚ) (cc cc' C C' : ℕ → ℕ → ℚ) : Prop where
  n : inp'.numNodes = inp.numNodes
  E : inp'.numEdges = inp.numEdges
  edges : inp'.edges = inp.edges
  flag : inp'.flag = inp.flag
  alpha : inp'.alpha = inp.alpha
  w : ∀ e < inp.numEdges, w' e = s * w e
  cc : ∀ e < inp.numEdges, ∀ v < inp.numNodes, cc' e v = s * cc e v
  C : ∀ u < inp.numNodes, ∀ v < inp.numNodes, C' u v = s * C u v

/-- Message tables that are multiples of each other where it matters. -/
structure ScaledMsgs (s : ℚ) (edges : List (ℕ × ℕ)) (deltas : List (List ℕ)) (m m' : TspMsgs) : Prop where
  x : ∀ e < edges.length, ∀ v, v = src edges e ∨ v = dst edges e → m'.e2d.val e v = s * m.e2d.val e v
  d : ∀ e < edges.length, ∀ v, v = src edges e ∨ v = dst edges e → m'.deg.val e v = s * m.deg.val e v
  s : ∀ k < deltas.length, ∀ e ∈ deltas.getD k [], m'.s2e.val k e = s * m.s2e.val k e

/-- Everything but the numbers is the same, the numbers are multiples. -/
structure ScaledState (s : ℚ) (E : ℕ) (st st' : TspState) : Prop where
  an : st'.an = st.an
  selected : st'.selected = st.selected
  old : st'.old = st.old
  oldOld : st'.oldOld = st.oldOld
  numAugm : st'.numAugm = st.numAugm
  noImprovCount : st'.noImprovCount = st.noImprovCount
  noImprovFlag : st'.noImprovFlag = st.noImprovFlag
  solOscCount : st'.solOscCount = st.solOscCount
  solOscFlag : st'.solOscFlag = st.solOscFlag
  cost : ∃ q, st.cost = fin q ∧ st'.cost = fin (s * q)
  ext : ∃ b : ℕ → ℚ, st.ext.Is E b ∧ st'.ext.Is E (fun e => s * b e)
  intr : ∃ b : ℕ → ℚ, st.intr.Is E b ∧ st'.intr.Is E (fun e => s * b e)

theorem selects_smul (hs : 0 < s) {edges : List (ℕ × ℕ)} {w w' b b' : ℕ → ℚ} {sel sel' : List (ℕ × ℕ)} {c c' : ℚ}
    (hw : ∀ e < edges.length, w' e = s * w e) (hb : ∀ e < edges.length, b' e = s * b e)
    (h : Selects edges w b (fin θ) sel c) (h' : Selects edges w' b' (fin (s * θ)) sel' c') : sel' = sel ∧ c' = s * c := by
  obtain ⟨L, l1, l2, l3, rfl⟩ := h
  obtain ⟨L', m1, m2, m3, rfl⟩ := h'
  have hL : L' = L := by
    refine List.Perm.eq_of_pairwise (le := (· < ·)) (fun a b _ _ h1 h2 => absurd h1 (by omega)) m1 l1 ?_
    refine (List.perm_ext_iff_of_nodup (m1.imp fun h => Nat.ne_of_lt h) (l1.imp fun h => Nat.ne_of_lt h)).mpr fun e => ?_
    rw [l2, m2]
    refine and_congr_right fun he => ?_
    simp only [Above]
    rw [hb e he, mul_lt_mul_iff_right₀ hs]
  subst hL
  refine ⟨?_, ?_⟩
  · have : sel'.map some = sel.map some := by rw [l3, m3]
    exact List.map_injective_iff.mpr (Option.some_injective _) this
  · rw [← List.sum_map_mul_left]
    exact congrArg List.sum (List.map_congr_left fun e he => hw e ((m2 e).mp he).1)

/-- Outputs scale. -/
theorem tspOutput_smul {flag : Bool} {alpha : ℚ} {edges : List (ℕ × ℕ)} {deltas : List (List ℕ)} {d0 s0 d0' s0' : ℕ → ℕ → ℚ}
    {r q r' q' : ℕ → ℕ → ℕ → ℚ} {e : ℕ}
    (hd : ∀ v, v = src edges e ∨ v = dst edges e → d0' e v = s * d0 e v)
    (hs0 : ∀ k < deltas.length, e ∈ deltas.getD k [] → s0' k e = s * s0 k e)
    (hr : ∀ j v, v = src edges e ∨ v = dst edges e → r' j e v = s * r j e v)
    (hq : ∀ j, ∀ k < deltas.length, e ∈ deltas.getD k [] → q' j k e = s * q j k e) (K : ℕ) :
    tspOutput flag alpha edges deltas d0' s0' r' q' K e = s * tspOutput flag alpha edges deltas d0 s0 r q K e := by
  unfold tspOutput
  rw [hd _ (Or.inl rfl), hd _ (Or.inr rfl), mul_add, mul_add, Finset.mul_sum,
    show (fun i => r' i e (src edges e)) = fun i => s * r i e (src edges e) from funext fun i => hr i _ (Or.inl rfl),
    show (fun i => r' i e (dst edges e)) = fun i => s * r i e (dst edges e) from funext fun i => hr i _ (Or.inr rfl),
    prev_smul, prev_smul]
  congr 1
  refine Finset.sum_congr rfl fun k hk => ?_
  have := Finset.mem_filter.mp hk
  rw [hs0 k (Finset.mem_range.mp this.1) this.2,
    show (fun i => q' i k e) = fun i => s * q i k e from funext fun i => hq i k (Finset.mem_range.mp this.1) this.2, prev_smul]

/-- Two rounds with the same cuts on multiples. -/
theorem round_smul (hs : 0 < s) (hI : ScaledInputs s inp inp' w w' cc cc' C C') (h : TspOk inp w cc) {R R' : TspRound}
    (hok : R.Ok (tspProblem inp w cc C numIter reset (fin θ))) (hok' : R'.Ok (tspProblem inp' w' cc' C' numIter reset (fin (s * θ))))
    (hd : ∀ l ∈ R.cuts, ∀ e ∈ l, e < inp.edges.length) (hcuts : R'.cuts = R.cuts)
    (hx0 : ∀ e < inp.edges.length, ∀ v, v = src inp.edges e ∨ v = dst inp.edges e → R'.x0 e v = s * R.x0 e v)
    (hd0 : ∀ e < inp.edges.length, ∀ v, v = src inp.edges e ∨ v = dst inp.edges e → R'.d0 e v = s * R.d0 e v)
    (hs0 : ∀ k < R.cuts.length, ∀ e ∈ R.cuts.getD k [], R'.s0 k e = s * R.s0 k e) :
    (∀ j, ∀ e < inp.edges.length, ∀ v, v = src inp.edges e ∨ v = dst inp.edges e → R'.x j e v = s * R.x j e v ∧ R'.r j e v = s * R.r j e v) ∧
    (∀ j, ∀ k < R.cuts.length, ∀ e ∈ R.cuts.getD k [], R'.q j k e = s * R.q j k e) ∧
    ∀ e < inp.edges.length, R'.output (tspProblem inp' w' cc' C' numIter reset (fin (s * θ))) e =
      s * R.output (tspProblem inp w cc C numIter reset (fin θ)) e := by
  have hlen := h.len
  have hv : ∀ e < inp.edges.length, ∀ v, v = src inp.edges e ∨ v = dst inp.edges e → v < inp.numNodes := by
    rintro e he v (rfl | rfl)
    · exact src_lt h.edges he
    · exact dst_lt h.edges he
  have t1 := tspTrace_start hd (fun e he => (hI.w e (hlen ▸ he)).symm) (fun e he v hvv => (hI.cc e (hlen ▸ he) v (hv e he v hvv)).symm)
    (fun e he v hvv => (hx0 e he v hvv).symm) (fun k hk e he => (hs0 k hk e he).symm) (tspTrace_smul hs hok.trace)
  have t2 := hok'.trace
  simp only [tspProblem, hI.n, hI.edges, hI.flag, hI.alpha, hcuts] at t1 t2
  have key := fun j => tspTrace_unique h.edges hd t2 t1 j
  refine ⟨fun j e he v hvv => (key j).1 e he v hvv, fun j k hk e he => ((key j).2 k hk e he).2, fun e he => ?_⟩
  simp only [TspRound.output, tspProblem, hI.n, hI.edges, hI.flag, hI.alpha, hcuts]
  exact tspOutput_smul (hd0 e he) (fun k hk hek => hs0 k hk e hek) (fun j v hvv => ((key j).1 e he v hvv).2)
    (fun j k hk hek => ((key j).2 k hk e hek).2) numIter

/-- What a round leaves scales. -/
theorem leaves_smul (hs : 0 < s) (hI : ScaledInputs s inp inp' w w' cc cc' C C') (h : TspOk inp w cc) {R R' : TspRound} {st st' : TspState}
    (hok : R.Ok (tspProblem inp w cc C numIter reset (fin θ))) (hok' : R'.Ok (tspProblem inp' w' cc' C' numIter reset (fin (s * θ))))
    (hd : ∀ l ∈ R.cuts, ∀ e ∈ l, e < inp.edges.length) (hcuts : R'.cuts = R.cuts)
    (hx0 : ∀ e < inp.edges.length, ∀ v, v = src inp.edges e ∨ v = dst inp.edges e → R'.x0 e v = s * R.x0 e v)
    (hd0 : ∀ e < inp.edges.length, ∀ v, v = src inp.edges e ∨ v = dst inp.edges e → R'.d0 e v = s * R.d0 e v)
    (hs0 : ∀ k < R.cuts.length, ∀ e ∈ R.cuts.getD k [], R'.s0 k e = s * R.s0 k e)
    (ho : Outcome (tspProblem inp w cc C numIter reset (fin θ)) inp.numEdges R st)
    (ho' : Outcome (tspProblem inp' w' cc' C' numIter reset (fin (s * θ))) inp'.numEdges R' st')
    (hl : Leaves inp (tspProblem inp w cc C numIter reset (fin θ)) R st.msgs)
    (hl' : Leaves inp' (tspProblem inp' w' cc' C' numIter reset (fin (s * θ))) R' st'.msgs) :
    ScaledMsgs s inp.edges R.cuts st.msgs st'.msgs ∧ st'.selected = st.selected ∧ (∃ q, st.cost = fin q ∧ st'.cost = fin (s * q)) ∧
      (∃ b : ℕ → ℚ, st.ext.Is inp.numEdges b ∧ st'.ext.Is inp.numEdges (fun e => s * b e)) ∧
      ∃ b : ℕ → ℚ, st.intr.Is inp.numEdges b ∧ st'.intr.Is inp.numEdges (fun e => s * b e) := by
  obtain ⟨k1, k2, k3⟩ := round_smul hs hI h hok hok' hd hcuts hx0 hd0 hs0
  have hlen := h.len
  obtain ⟨q, hq, hqc⟩ := ho.cost
  obtain ⟨q', hq', hqc'⟩ := ho'.cost
  have hb : ∀ e < inp.edges.length, R'.output (tspProblem inp' w' cc' C' numIter reset (fin (s * θ))) e +
      (tspProblem inp' w' cc' C' numIter reset (fin (s * θ))).w e =
      s * (R.output (tspProblem inp w cc C numIter reset (fin θ)) e + (tspProblem inp w cc C numIter reset (fin θ)).w e) := fun e he => by
    rw [k3 e he, mul_add]; congr 1; exact hI.w e (hlen ▸ he)
  have hsel := selects_smul hs (w := w) (w' := w') (fun e he => hI.w e (hlen ▸ he)) hb hq (by
    have := hq'; simp only [tspProblem, hI.edges] at this ⊢; exact this)
  refine ⟨⟨fun e he v hvv => ?_, fun e he v hvv => ?_, fun k hk e he => ?_⟩, by rw [ho'.selected, ho.selected, hsel.1],
    ⟨q, hqc, by rw [hqc', hsel.2]⟩, ⟨_, ho.ext, ?_⟩, ⟨_, ho.intr, ?_⟩⟩
  · rw [hl.x e he v hvv, hl'.x e (by rw [hI.edges]; exact he) v (by rw [hI.edges]; exact hvv)]
    exact (k1 _ e he v hvv).1
  · rw [hl.d e he v hvv, hl'.d e (by rw [hI.edges]; exact he) v (by rw [hI.edges]; exact hvv), hd0 e he v hvv,
      show (fun i => R'.r i e v) = fun i => s * R.r i e v from funext fun i => (k1 i e he v hvv).2]
    simp only [tspProblem, hI.flag, hI.alpha]
    exact prev_smul _ _ _ _ _ _
  · rw [hl.s k hk e he, hl'.s k (by rw [hcuts]; exact hk) e (by rw [hcuts]; exact he), hs0 k hk e he,
      show (fun i => R'.q i k e) = fun i => s * R.q i k e from funext fun i => k2 i k hk e he]
    simp only [tspProblem, hI.flag, hI.alpha]
    exact prev_smul _ _ _ _ _ _
  · refine ⟨by rw [ho'.ext.1, hI.E], fun e he => ?_⟩
    rw [ho'.ext.2 e (by rw [hI.E]; exact he), k3 e (by rw [hlen]; exact he)]
  · refine ⟨by rw [ho'.intr.1, hI.E], fun e he => ?_⟩
    rw [ho'.intr.2 e (by rw [hI.E]; exact he)]
    beta_reduce
    rw [hb e (by rw [hlen]; exact he)]

/-- Rows for new cuts. -/
theorem addMissingRows_smul {edges : List (ℕ × ℕ)} {E : ℕ} {cuts : List (List ℕ)} {st st' u u' : TspState}
    (hS : ScaledState s E st st') (hM : ScaledMsgs s edges cuts st.msgs st'.msgs) (hr : st.msgs.s2e.rows = cuts.length)
    (hr' : st'.msgs.s2e.rows = cuts.length) (hp : cuts <+: st.an.deltas) (h : addMissingRows st = some u) (h' : addMissingRows st' = some u') :
    ScaledState s E u u' ∧ ScaledMsgs s edges u.an.deltas u.msgs u'.msgs := by
  unfold addMissingRows at h h'
  rw [hS.an, hr'] at h'
  rw [hr] at h
  obtain ⟨more, hmore⟩ := hp
  have hlen : st.an.deltas.length = cuts.length + more.length := by rw [← hmore]; simp
  by_cases hc : cuts.length = st.an.deltas.length
  · rw [if_pos hc] at h h'
    simp only [Option.some.injEq] at h h'
    subst h h'
    have : more = [] := List.eq_nil_of_length_eq_zero (by omega)
    rw [this, List.append_nil] at hmore
    rw [← hmore]
    exact ⟨hS, hM⟩
  · rw [if_neg hc, if_neg (by omega)] at h h'
    simp only [Option.some.injEq] at h h'
    subst h h'
    refine ⟨⟨rfl, hS.selected, hS.old, hS.oldOld, hS.numAugm, hS.noImprovCount, hS.noImprovFlag, hS.solOscCount, hS.solOscFlag,
      hS.cost, hS.ext, hS.intr⟩, ⟨hM.x, hM.d, fun k hk e he => ?_⟩⟩
    show (if k < st'.msgs.s2e.rows then st'.msgs.s2e.data k e else 0).val = s * (if k < st.msgs.s2e.rows then st.msgs.s2e.data k e else 0).val
    rw [hr, hr']
    by_cases hk' : k < cuts.length
    · rw [if_pos hk', if_pos hk']
      refine hM.s k hk' e ?_
      have he' : e ∈ st.an.deltas.getD k [] := he
      rw [← hmore, List.getD_eq_getElem?_getD, List.getElem?_append_left hk', ← List.getD_eq_getElem?_getD] at he'
      exact he'
    · rw [if_neg hk', if_neg hk']
      show (0 : ℚ) = s * 0
      rw [mul_zero]

/-- The relaxed round. -/
theorem relaxed_smul (hs : 0 < s) (hI : ScaledInputs s inp inp' w w' cc cc' C C') (h : TspOk inp w cc) (h' : TspOk inp' w' cc')
    {e2d e2d' : Mat Num} {x0 : ℕ → ℕ → ℚ} (he : e2d.Is inp.numEdges inp.numNodes x0)
    (he' : e2d'.Is inp'.numEdges inp'.numNodes (fun e v => s * x0 e v)) {st st' : TspState}
    (h1 : iterateRelaxed (tspSetup inp numIter reset augmentation (fin θ) maxCount maxAugm order) (tspStart inp e2d) = some st)
    (h1' : iterateRelaxed (tspSetup inp' numIter reset augmentation (fin (s * θ)) maxCount maxAugm order) (tspStart inp' e2d') = some st') :
    ScaledState s inp.numEdges st st' ∧ ScaledMsgs s inp.edges [] st.msgs st'.msgs := by
  obtain ⟨R, a1, a2, a3, a4, a5, a6⟩ := relaxed_round (C := C) h he h1
  obtain ⟨R', b1, b2, b3, b4, b5, b6⟩ := relaxed_round (C := C') h' he' h1'
  obtain ⟨k1, k2, k3, k4, k5⟩ := leaves_smul hs hI h a1 b1 (by rw [a2]; simp) (by rw [a2, b2]) (fun e he v _ => by rw [a3, b3])
    (fun e he v _ => by rw [a4, b4]; simp) (fun k hk => by rw [a2] at hk; simp at hk) a5 b5 a6 b6
  obtain ⟨m1, ext1, intr1, sel, total, an, -, f2, f3, rfl⟩ := iterateRelaxed_facts h1
  obtain ⟨m1', ext1', intr1', sel', total', an', -, f2', f3', rfl⟩ := iterateRelaxed_facts h1'
  simp only at k2
  subst k2
  simp only [tspSetup, tspStart, hI.n, hI.edges] at f3 f3'
  rw [f3, Option.some.injEq] at f3'
  rw [a2] at k1
  exact ⟨⟨f3'.symm, rfl, rfl, rfl, rfl, rfl, rfl, rfl, rfl, k3, k4, k5⟩, k1⟩

/-- An augmentation round. -/
theorem augmented_smul (hs : 0 < s) (hI : ScaledInputs s inp inp' w w' cc cc' C C') (h : TspOk inp w cc) (h' : TspOk inp' w' cc')
    (hC : inp.costMatrix.Is inp.numNodes inp.numNodes C) (hC' : inp'.costMatrix.Is inp'.numNodes inp'.numNodes C')
    {st st' u u' : TspState} (hi : SolverInv inp st) (hi' : SolverInv inp' st') (hS : ScaledState s inp.numEdges st st')
    (hM : ScaledMsgs s inp.edges st.an.deltas st.msgs st'.msgs)
    (h1 : iterateAugmented (tspSetup inp numIter reset augmentation (fin θ) maxCount maxAugm order) st = some u)
    (h1' : iterateAugmented (tspSetup inp' numIter reset augmentation (fin (s * θ)) maxCount maxAugm order) st' = some u') :
    ScaledState s inp.numEdges u u' ∧ ScaledMsgs s inp.edges st.an.deltas u.msgs u'.msgs ∧
      u.msgs.s2e.rows = st.an.deltas.length ∧ u'.msgs.s2e.rows = st.an.deltas.length := by
  obtain ⟨R, a1, a2, a3, a4, a5, a6, a7⟩ := augmented_round (C := C) h hC hi h1
  obtain ⟨R', b1, b2, b3, b4, b5, b6, b7⟩ := augmented_round (C := C') h' hC' hi' h1'
  have hx0 : ∀ e < inp.edges.length, ∀ v, v = src inp.edges e ∨ v = dst inp.edges e → R'.x0 e v = s * R.x0 e v := by
    intro e he v hv
    rw [a3, b3]
    unfold augStart
    rw [hI.edges]
    split
    · exact hI.C _ (src_lt h.edges he) _ (dst_lt h.edges he)
    · exact hM.x e he v hv
  obtain ⟨k1, k2, k3, k4, k5⟩ := leaves_smul hs hI h a1 b1
    (by rw [a2]; exact fun l hl e he => by rw [h.len]; exact (hi.cuts l hl).2.2 e he) (by rw [a2, b2, hS.an]) hx0
    (fun e he v hv => by rw [a4, b4]; exact hM.d e he v hv)
    (fun k hk e he => by rw [a5, b5]; rw [a2] at hk he; exact hM.s k hk e he) a6 b6 a7 b7
  obtain ⟨intr1, f1, f2, f3, f4, f5, f6, f7, f8, f9, f10, f11⟩ := iterateAugmented_facts h1
  obtain ⟨intr1', g1, g2, g3, g4, g5, g6, g7, g8, g9, g10, g11⟩ := iterateAugmented_facts h1'
  have han : u'.an = u.an := by
    simp only [tspSetup, hI.n, hI.edges, hS.an, hS.numAugm, k2] at f4 g4
    rw [f4, Option.some.injEq] at g4
    exact g4.symm
  rw [hS.old] at g7 g8 g9
  rw [hS.oldOld] at g7
  rw [hS.noImprovCount] at g8 g9
  rw [hS.noImprovFlag] at g9
  rw [hS.old, hS.oldOld] at g10 g11
  rw [hS.solOscCount] at g10 g11
  rw [hS.solOscFlag] at g11
  rw [k2] at g6 g8 g9 g10 g11
  rw [a2] at k1
  refine ⟨⟨han, k2, by rw [g6, f6], by rw [g7, f7], by rw [g5, f5, hS.numAugm], by rw [g8, f8], by rw [g9, f9]; rfl, by rw [g10, f10],
    by rw [g11, f11]; rfl, k3, k4, k5⟩, k1, ?_, ?_⟩
  · rw [← a2]; exact a7.ok.s2e.1
  · rw [← hS.an, ← b2]; exact b7.ok.s2e.1

/-- How two outcomes of the solver compare. -/
def ScaledOutcome (s : ℚ) (E : ℕ) : Option (Option TspState) → Option (Option TspState) → Prop
  | none, none => True
  | some none, some none => True
  | some (some st), some (some st') => ScaledState s E st st'
  | _, _ => False

theorem augmentLoop_smul (hs : 0 < s) (hI : ScaledInputs s inp inp' w w' cc cc' C C') (h : TspOk inp w cc) (h' : TspOk inp' w' cc')
    (hC : inp.costMatrix.Is inp.numNodes inp.numNodes C) (hC' : inp'.costMatrix.Is inp'.numNodes inp'.numNodes C')
    (hn : 3 ≤ inp.numNodes) (hcomp : Complete inp.numNodes inp.edges) (ho : ∀ k sel, StartOrder sel (order k sel)) (fuel : ℕ) :
    ∀ {st st' : TspState}, SolverInv inp st → SolverInv inp' st' → ScaledState s inp.numEdges st st' →
      ScaledMsgs s inp.edges st.an.deltas st.msgs st'.msgs →
      ScaledOutcome s inp.numEdges (augmentLoop (tspSetup inp numIter reset augmentation (fin θ) maxCount maxAugm order) fuel st)
        (augmentLoop (tspSetup inp' numIter reset augmentation (fin (s * θ)) maxCount maxAugm order) fuel st') := by
  induction fuel with
  | zero => intros; trivial
  | succ fuel ih =>
    intro st st' hi hi' hS hM
    obtain ⟨u, v, u1, u2, u3⟩ := round_total (numIter := numIter) (reset := reset) (augmentation := augmentation) (thr := fin θ)
      (maxCount := maxCount) (maxAugm := maxAugm) h hC hn hcomp ho hi
    obtain ⟨u', v', u1', u2', u3'⟩ := round_total (numIter := numIter) (reset := reset) (augmentation := augmentation) (thr := fin (s * θ))
      (maxCount := maxCount) (maxAugm := maxAugm) h' hC' (by rw [hI.n]; exact hn) (by rw [hI.n, hI.edges]; exact hcomp) ho hi'
    obtain ⟨k1, k2, k3, k4⟩ := augmented_smul hs hI h h' hC hC' hi hi' hS hM u1 u1'
    rw [augmentLoop, augmentLoop, hS.an, hS.noImprovFlag, hS.solOscFlag, u1, u1']
    show ScaledOutcome s inp.numEdges (if (!st.an.satisfied && augmentation && !st.an.tourFlag) = true then _ else _)
      (if (!st.an.satisfied && augmentation && !st.an.tourFlag) = true then _ else _)
    split
    · split
      · exact hS
      · have hz : st'.cost = 0 ↔ st.cost = 0 := by
          obtain ⟨q, q1, q2⟩ := hS.cost
          rw [q1, q2, zero_def, Num.fin.injEq, Num.fin.injEq]
          simp [hs.ne']
        by_cases hc : st.cost = 0
        · rw [if_pos hc, if_pos (hz.mpr hc)]; trivial
        · rw [if_neg hc, if_neg (fun hh => hc (hz.mp hh))]
          simp only [k1.numAugm]
          show ScaledOutcome s inp.numEdges (if (u.numAugm : ℤ) = maxAugm then _ else _) (if (u.numAugm : ℤ) = maxAugm then _ else _)
          split
          · exact k1
          · rw [u2, u2']
            obtain ⟨intr1, f1, f2, f3, f4, -⟩ := iterateAugmented_facts u1
            obtain ⟨c1, -⟩ := Properties.C19_round (ho _ _) f4
            obtain ⟨m1, m2⟩ := addMissingRows_smul k1 k2 k3 k4 c1 u2 u2'
            exact ih u3 u3' m1 m2
    · exact hS

theorem solve_smul (hs : 0 < s) (hI : ScaledInputs s inp inp' w w' cc cc' C C') (h : TspOk inp w cc) (h' : TspOk inp' w' cc')
    (hC : inp.costMatrix.Is inp.numNodes inp.numNodes C) (hC' : inp'.costMatrix.Is inp'.numNodes inp'.numNodes C')
    (hn : 3 ≤ inp.numNodes) (hcomp : Complete inp.numNodes inp.edges) (ho : ∀ k sel, StartOrder sel (order k sel))
    {e2d e2d' : Mat Num} {x0 : ℕ → ℕ → ℚ} (he : e2d.Is inp.numEdges inp.numNodes x0)
    (he' : e2d'.Is inp'.numEdges inp'.numNodes (fun e v => s * x0 e v)) (fuel : ℕ) :
    ScaledOutcome s inp.numEdges
      (tspSolve (tspSetup inp numIter reset augmentation (fin θ) maxCount maxAugm order) fuel (tspStart inp e2d))
      (tspSolve (tspSetup inp' numIter reset augmentation (fin (s * θ)) maxCount maxAugm order) fuel (tspStart inp' e2d')) := by
  obtain ⟨st, r1, r2, r3, r4, r5⟩ := relaxed_total (numIter := numIter) (reset := reset) (augmentation := augmentation)
    (thr := fin θ) (maxCount := maxCount) (maxAugm := maxAugm) h hn hcomp ho he
  obtain ⟨st', r1', r2', r3', r4', r5'⟩ := relaxed_total (numIter := numIter) (reset := reset) (augmentation := augmentation)
    (thr := fin (s * θ)) (maxCount := maxCount) (maxAugm := maxAugm) h' (by rw [hI.n]; exact hn) (by rw [hI.n, hI.edges]; exact hcomp) ho he'
  obtain ⟨hS, hM⟩ := relaxed_smul hs hI h h' he he' r1 r1'
  unfold tspSolve
  rw [r1, r1']
  simp only [hS.an]
  show ScaledOutcome s inp.numEdges (if (!st.an.satisfied && augmentation) = true then _ else _)
    (if (!st.an.satisfied && augmentation) = true then _ else _)
  split
  · unfold performAugmentation
    have first : ∀ {i : TspInputs} {t : TspState}, TspMsgsOk i [] t.msgs → CutsOk i.numEdges t.an.deltas → t.ext.size = i.numEdges →
        t.intr.size = i.numEdges → SolverInv i (addFirstRows t) ∧ addMissingRows t = some (addFirstRows t) := by
      intro i t q2 q3 q4 q5
      have hrow0 : t.msgs.s2e.rows = 0 := q2.s2e.1
      constructor
      · unfold addFirstRows
        split
        · exact ⟨by simpa using tspAddCuts_ok q2 t.an.deltas, q3, q4, q5⟩
        · have : t.an.deltas = [] := List.eq_nil_of_length_eq_zero (by omega)
          exact ⟨by rw [this]; exact q2, q3, q4, q5⟩
      · unfold addMissingRows addFirstRows
        rw [hrow0]
        by_cases hd : t.an.deltas.length = 0
        · rw [if_pos hd.symm, if_neg (by omega)]
        · rw [if_neg (by omega), if_neg (by omega), if_pos (by omega), Nat.sub_zero]
    obtain ⟨i1, i2⟩ := first r2 r3 r4 r5
    obtain ⟨i1', i2'⟩ := first r2' r3' r4' r5'
    obtain ⟨m1, m2⟩ := addMissingRows_smul hS hM r2.s2e.1 r2'.s2e.1 List.nil_prefix i2 i2'
    exact augmentLoop_smul hs hI h h' hC hC' hn hcomp ho fuel i1 i1' m1 m2
  · exact hS
end

end Verif.Proofs
