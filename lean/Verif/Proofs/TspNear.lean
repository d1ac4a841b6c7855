import Verif.Proofs.TspStable
import Verif.Properties.TspCall

/-! A simulation of the whole TSP solver on nearby costs. -/

namespace Verif.Proofs
open Verif Num Spec Model

section
variable {inp inp' : TspInputs} {w w' : ℕ → ℚ} {cc cc' C C' : ℕ → ℕ → ℚ} {numIter maxCount : ℕ} {reset augmentation : Bool} {θ ε η : ℚ}
  {maxAugm : ℤ} {order : ℕ → List (ℕ × ℕ) → List ℕ}

/-- The same graph and settings, costs within `ε`. -/
structure NearInputs (ε : ℚ) (inp inp' : TspInputs) (w w' : ℕ → ℚ) (cc cc' C C' : ℕ → ℕ → ℚ) : Prop where
  n : inp'.numNodes = inp.numNodes
  E : inp'.numEdges = inp.numEdges
  edges : inp'.edges = inp.edges
  flag : inp'.flag = inp.flag
  alpha : inp'.alpha = inp.alpha
  w : ∀ e < inp.numEdges, |w e - w' e| ≤ ε
  cc : ∀ e < inp.numEdges, ∀ v < inp.numNodes, |cc e v - cc' e v| ≤ ε
  C : ∀ u < inp.numNodes, ∀ v < inp.numNodes, |C u v - C' u v| ≤ ε

theorem NearInputs.mono (h : NearInputs ε inp inp' w w' cc cc' C C') (hle : ε ≤ η) : NearInputs η inp inp' w w' cc cc' C C' :=
  ⟨h.n, h.E, h.edges, h.flag, h.alpha, fun e he => (h.w e he).trans hle, fun e he v hv => (h.cc e he v hv).trans hle,
    fun u hu v hv => (h.C u hu v hv).trans hle⟩

/-- Message tables within `ε` where it matters. -/
structure NearMsgs (ε : ℚ) (edges : List (ℕ × ℕ)) (deltas : List (List ℕ)) (m m' : TspMsgs) : Prop where
  x : ∀ e < edges.length, ∀ v, v = src edges e ∨ v = dst edges e → |m.e2d.val e v - m'.e2d.val e v| ≤ ε
  d : ∀ e < edges.length, ∀ v, v = src edges e ∨ v = dst edges e → |m.deg.val e v - m'.deg.val e v| ≤ ε
  s : ∀ k < deltas.length, ∀ e ∈ deltas.getD k [], |m.s2e.val k e - m'.s2e.val k e| ≤ ε

theorem NearMsgs.mono {edges : List (ℕ × ℕ)} {deltas : List (List ℕ)} {m m' : TspMsgs} (h : NearMsgs ε edges deltas m m') (hle : ε ≤ η) :
    NearMsgs η edges deltas m m' :=
  ⟨fun e he v hv => (h.x e he v hv).trans hle, fun e he v hv => (h.d e he v hv).trans hle, fun k hk e he => (h.s k hk e he).trans hle⟩

/-- Everything but the numbers is the same, the numbers are within `ε`. -/
structure NearState (ε : ℚ) (E : ℕ) (st st' : TspState) : Prop where
  an : st'.an = st.an
  selected : st'.selected = st.selected
  old : st'.old = st.old
  oldOld : st'.oldOld = st.oldOld
  numAugm : st'.numAugm = st.numAugm
  noImprovCount : st'.noImprovCount = st.noImprovCount
  noImprovFlag : st'.noImprovFlag = st.noImprovFlag
  solOscCount : st'.solOscCount = st.solOscCount
  solOscFlag : st'.solOscFlag = st.solOscFlag
  cost : ∃ q q' : ℚ, st.cost = fin q ∧ st'.cost = fin q' ∧ |q - q'| ≤ ε
  ext : ∃ b b' : ℕ → ℚ, st.ext.Is E b ∧ st'.ext.Is E b' ∧ ∀ e < E, |b e - b' e| ≤ ε
  intr : ∃ b b' : ℕ → ℚ, st.intr.Is E b ∧ st'.intr.Is E b' ∧ ∀ e < E, |b e - b' e| ≤ ε

theorem NearState.mono {E : ℕ} {st st' : TspState} (h : NearState ε E st st') (hle : ε ≤ η) : NearState η E st st' := by
  obtain ⟨h1, h2, h3, h4, h5, h6, h7, h8, h9, ⟨q, q', a1, a2, a3⟩, ⟨b, b', b1, b2, b3⟩, ⟨c, c', c1, c2, c3⟩⟩ := h
  exact ⟨h1, h2, h3, h4, h5, h6, h7, h8, h9, ⟨q, q', a1, a2, a3.trans hle⟩, ⟨b, b', b1, b2, fun e he => (b3 e he).trans hle⟩,
    ⟨c, c', c1, c2, fun e he => (c3 e he).trans hle⟩⟩

theorem selects_near {edges : List (ℕ × ℕ)} {b b' : ℕ → ℚ} {sel sel' : List (ℕ × ℕ)} {c c' B : ℚ} (hε : 0 ≤ ε)
    (hw : ∀ e < edges.length, |w e - w' e| ≤ ε) (hb : ∀ e < edges.length, |b e - b' e| ≤ B) (hm : ∀ e < edges.length, B < |b e - θ|)
    (h : Selects edges w b (fin θ) sel c) (h' : Selects edges w' b' (fin θ) sel' c') : sel' = sel ∧ |c - c'| ≤ edges.length * ε := by
  obtain ⟨L, l1, l2, l3, rfl⟩ := h
  obtain ⟨L', m1, m2, m3, rfl⟩ := h'
  have hL : L' = L := by
    refine List.Perm.eq_of_pairwise (le := (· < ·)) (fun a b _ _ h1 h2 => absurd h1 (by omega)) m1 l1 ?_
    refine (List.perm_ext_iff_of_nodup (m1.imp fun h => Nat.ne_of_lt h) (l1.imp fun h => Nat.ne_of_lt h)).mpr fun e => ?_
    rw [l2, m2]
    refine and_congr_right fun he => ?_
    simp only [Above]
    have a1 := abs_le.mp (hb e he)
    have a2 := lt_abs.mp (hm e he)
    constructor
    · intro h1 h2; rcases a2 with a2 | a2 <;> [exact h1 (by linarith [a1.1, a1.2]); linarith [(abs_nonneg _).trans (hb e he)]]
    · intro h1 h2; rcases a2 with a2 | a2 <;> [exact h1 (by linarith [(abs_nonneg _).trans (hb e he)]); linarith [a1.1, a1.2]]
  subst hL
  refine ⟨?_, ?_⟩
  · have : sel'.map some = sel.map some := by rw [l3, m3]
    exact List.map_injective_iff.mpr (Option.some_injective _) this
  · have hnd : L'.Nodup := m1.imp fun h => Nat.ne_of_lt h
    rw [← List.sum_toFinset _ hnd, ← List.sum_toFinset _ hnd]
    refine sum_near hε ?_ fun e he => hw e ((m2 e).mp (by simpa using he)).1
    calc L'.toFinset.card ≤ (Finset.range edges.length).card := Finset.card_le_card fun e he => by
          rw [Finset.mem_range]; exact ((m2 e).mp (by simpa using he)).1
      _ = edges.length := by simp

/-- A bound on everything a round can do to differences. -/
def spread (D K E : ℕ) : ℚ := (D + 3) * ((D + 3) * growth D ^ K) + E + 1

theorem spread_ge (D K E : ℕ) : 1 ≤ spread D K E ∧ growth D ^ K ≤ spread D K E ∧ (D + 3) * growth D ^ K ≤ spread D K E ∧
    (D + 2) * ((D + 3) * growth D ^ K) + 1 ≤ spread D K E ∧ (E : ℚ) ≤ spread D K E := by
  have h1 := one_le_pow₀ (growth_ge D).1 (n := K)
  have h2 : (0 : ℚ) ≤ D := Nat.cast_nonneg D
  have h3 : (0 : ℚ) ≤ E := Nat.cast_nonneg E
  unfold spread
  set X := growth D ^ K
  have h4 : X ≤ (D + 3) * X := by nlinarith
  have h5 : (D + 3) * X ≤ (D + 3) * ((D + 3) * X) := mul_le_mul_of_nonneg_left h4 (by linarith)
  have h6 : (D + 2) * ((D + 3) * X) ≤ (D + 3) * ((D + 3) * X) := mul_le_mul_of_nonneg_right (by linarith) (by nlinarith)
  refine ⟨by linarith, by linarith, by linarith, by linarith, by linarith⟩

/-- What a round leaves on nearby costs. -/
theorem leaves_near (hε : 0 ≤ ε) (hI : NearInputs ε inp inp' w w' cc cc' C C') (h : TspOk inp w cc) (ha : inp.flag = true → 0 ≤ inp.alpha ∧ inp.alpha ≤ 1)
    {R R' : TspRound} {st st' : TspState}
    (hok : R.Ok (tspProblem inp w cc C numIter reset (fin θ))) (hok' : R'.Ok (tspProblem inp' w' cc' C' numIter reset (fin θ)))
    (hd : ∀ l ∈ R.cuts, ∀ e ∈ l, e < inp.edges.length) (hcuts : R'.cuts = R.cuts)
    (hx0 : ∀ e < inp.edges.length, ∀ v, v = src inp.edges e ∨ v = dst inp.edges e → |R.x0 e v - R'.x0 e v| ≤ ε)
    (hd0 : ∀ e < inp.edges.length, ∀ v, v = src inp.edges e ∨ v = dst inp.edges e → |R.d0 e v - R'.d0 e v| ≤ ε)
    (hs0 : ∀ k < R.cuts.length, ∀ e ∈ R.cuts.getD k [], |R.s0 k e - R'.s0 k e| ≤ ε)
    (ho : Outcome (tspProblem inp w cc C numIter reset (fin θ)) inp.numEdges R st)
    (ho' : Outcome (tspProblem inp' w' cc' C' numIter reset (fin θ)) inp'.numEdges R' st')
    (hl : Leaves inp (tspProblem inp w cc C numIter reset (fin θ)) R st.msgs)
    (hl' : Leaves inp' (tspProblem inp' w' cc' C' numIter reset (fin θ)) R' st'.msgs)
    (hm : ∀ e < inp.numEdges, spread R.cuts.length numIter inp.numEdges * ε < |(st.intr.data e).val - θ|) :
    NearMsgs (spread R.cuts.length numIter inp.numEdges * ε) inp.edges R.cuts st.msgs st'.msgs ∧ st'.selected = st.selected ∧
      (∃ q q' : ℚ, st.cost = fin q ∧ st'.cost = fin q' ∧ |q - q'| ≤ spread R.cuts.length numIter inp.numEdges * ε) ∧
      (∃ b b' : ℕ → ℚ, st.ext.Is inp.numEdges b ∧ st'.ext.Is inp.numEdges b' ∧
        ∀ e < inp.numEdges, |b e - b' e| ≤ spread R.cuts.length numIter inp.numEdges * ε) ∧
      ∃ b b' : ℕ → ℚ, st.intr.Is inp.numEdges b ∧ st'.intr.Is inp.numEdges b' ∧
        ∀ e < inp.numEdges, |b e - b' e| ≤ spread R.cuts.length numIter inp.numEdges * ε := by
  have hlen := h.len
  have hv : ∀ e < inp.edges.length, ∀ v, v = src inp.edges e ∨ v = dst inp.edges e → v < inp.numNodes := by
    rintro e he v (rfl | rfl)
    · exact src_lt h.edges he
    · exact dst_lt h.edges he
  have t1 := hok.trace
  have t2 := hok'.trace
  simp only [tspProblem, hI.n, hI.edges, hI.flag, hI.alpha, hcuts] at t1 t2
  have hw : ∀ e < inp.edges.length, |w e - w' e| ≤ ε := fun e he => hI.w e (hlen ▸ he)
  have hcc : ∀ e < inp.edges.length, ∀ v, v = src inp.edges e ∨ v = dst inp.edges e → |cc e v - cc' e v| ≤ ε := fun e he v hvv =>
    hI.cc e (hlen ▸ he) v (hv e he v hvv)
  obtain ⟨j1, -⟩ := trace_near h.edges hd ha hε hw hcc hx0 hs0 t1 t2 numIter
  obtain ⟨k1, k2, k3⟩ := output_near (d0 := R.d0) (d0' := R'.d0) h.edges hd ha hε hw hcc hx0 hs0 hd0 t1 t2 numIter
  obtain ⟨s1, s2, s3, s4, s5⟩ := spread_ge R.cuts.length numIter inp.numEdges
  set S := spread R.cuts.length numIter inp.numEdges with hS
  set X := growth R.cuts.length ^ numIter with hX
  have c1 : ε ≤ S * ε := by nlinarith
  have c2 : ε * X ≤ S * ε := by rw [mul_comm]; exact mul_le_mul_of_nonneg_right s2 hε
  have c3 : (R.cuts.length + 3) * (ε * X) ≤ S * ε := by
    have := mul_le_mul_of_nonneg_right s3 hε
    linarith
  have c4 : (R.cuts.length + 2) * ((R.cuts.length + 3) * (ε * X)) + ε ≤ S * ε := by
    have := mul_le_mul_of_nonneg_right s4 hε
    linarith
  have c5 : (inp.numEdges : ℚ) * ε ≤ S * ε := mul_le_mul_of_nonneg_right s5 hε
  have out : ∀ e < inp.edges.length, |R.output (tspProblem inp w cc C numIter reset (fin θ)) e - R'.output (tspProblem inp' w' cc' C' numIter reset (fin θ)) e| ≤
      (R.cuts.length + 2) * ((R.cuts.length + 3) * (ε * X)) := fun e he => by
    simp only [TspRound.output, tspProblem, hI.n, hI.edges, hI.flag, hI.alpha, hcuts]
    exact k3 e he
  have hb : ∀ e < inp.edges.length, |(R.output (tspProblem inp w cc C numIter reset (fin θ)) e + w e) -
      (R'.output (tspProblem inp' w' cc' C' numIter reset (fin θ)) e + w' e)| ≤ S * ε := fun e he => by
    have a1 := abs_le.mp (out e he)
    have a2 := abs_le.mp (hw e he)
    rw [abs_le]
    constructor <;> linarith [a1.1, a1.2, a2.1, a2.2]
  obtain ⟨q, hq, hqc⟩ := ho.cost
  obtain ⟨q', hq', hqc'⟩ := ho'.cost
  have hmm : ∀ e < inp.edges.length, S * ε < |(R.output (tspProblem inp w cc C numIter reset (fin θ)) e + w e) - θ| := fun e he => by
    have := hm e (hlen ▸ he)
    rw [ho.intr.2 e (hlen ▸ he)] at this
    exact this
  have hsel := selects_near hε hw hb hmm hq (by
    have := hq'; simp only [tspProblem, hI.edges] at this ⊢; exact this)
  refine ⟨⟨fun e he v hvv => ?_, fun e he v hvv => ?_, fun k hk e he => ?_⟩, by rw [ho'.selected, ho.selected, hsel.1],
    ⟨q, q', hqc, hqc', hsel.2.trans (by rw [hlen]; exact c5)⟩, ⟨_, _, ho.ext, by rw [← hI.E]; exact ho'.ext, fun e he => ?_⟩,
    ⟨_, _, ho.intr, by rw [← hI.E]; exact ho'.intr, fun e he => ?_⟩⟩
  · rw [hl.x e he v hvv, hl'.x e (by rw [hI.edges]; exact he) v (by rw [hI.edges]; exact hvv)]
    exact (j1 numIter le_rfl e he v hvv).1.trans c2
  · rw [hl.d e he v hvv, hl'.d e (by rw [hI.edges]; exact he) v (by rw [hI.edges]; exact hvv)]
    simp only [tspProblem, hI.flag, hI.alpha]
    exact (k1 e he v hvv).trans c3
  · rw [hl.s k hk e he, hl'.s k (by rw [hcuts]; exact hk) e (by rw [hcuts]; exact he)]
    simp only [tspProblem, hI.flag, hI.alpha]
    exact (k2 k hk e he).trans c3
  · exact (out e (hlen ▸ he)).trans (by linarith)
  · exact hb e (hlen ▸ he)

/-- Rows for new cuts. -/
theorem addMissingRows_near (hε : 0 ≤ ε) {edges : List (ℕ × ℕ)} {E : ℕ} {cuts : List (List ℕ)} {st st' u u' : TspState}
    (hS : NearState ε E st st') (hM : NearMsgs ε edges cuts st.msgs st'.msgs) (hr : st.msgs.s2e.rows = cuts.length)
    (hr' : st'.msgs.s2e.rows = cuts.length) (hp : cuts <+: st.an.deltas) (h : addMissingRows st = some u) (h' : addMissingRows st' = some u') :
    NearState ε E u u' ∧ NearMsgs ε edges u.an.deltas u.msgs u'.msgs := by
  unfold addMissingRows at h h'
  rw [hS.an, hr'] at h'
  rw [hr] at h
  obtain ⟨more, hmore⟩ := hp
  have hlen : st.an.deltas.length = cuts.length + more.length := by rw [← hmore]; simp
  by_cases hc : cuts.length = st.an.deltas.length
  · rw [if_pos hc] at h h'
    simp only [Option.some.injEq] at h h'
    subst h h'
    have : more = [] := List.eq_nil_of_length_eq_zero (by omega)
    rw [this, List.append_nil] at hmore
    rw [← hmore]
    exact ⟨hS, hM⟩
  · rw [if_neg hc, if_neg (by omega)] at h h'
    simp only [Option.some.injEq] at h h'
    subst h h'
    refine ⟨⟨rfl, hS.selected, hS.old, hS.oldOld, hS.numAugm, hS.noImprovCount, hS.noImprovFlag, hS.solOscCount, hS.solOscFlag,
      hS.cost, hS.ext, hS.intr⟩, ⟨hM.x, hM.d, fun k hk e he => ?_⟩⟩
    show |(if k < st.msgs.s2e.rows then st.msgs.s2e.data k e else 0).val - (if k < st'.msgs.s2e.rows then st'.msgs.s2e.data k e else 0).val| ≤ ε
    rw [hr, hr']
    by_cases hk' : k < cuts.length
    · rw [if_pos hk', if_pos hk']
      refine hM.s k hk' e ?_
      have he' : e ∈ st.an.deltas.getD k [] := he
      rw [← hmore, List.getD_eq_getElem?_getD, List.getElem?_append_left hk', ← List.getD_eq_getElem?_getD] at he'
      exact he'
    · rw [if_neg hk', if_neg hk', sub_self, abs_zero]
      exact hε

/-- The relaxed round. -/
theorem relaxed_near (hε : 0 ≤ ε) (hI : NearInputs ε inp inp' w w' cc cc' C C') (h : TspOk inp w cc) (h' : TspOk inp' w' cc')
    (ha : inp.flag = true → 0 ≤ inp.alpha ∧ inp.alpha ≤ 1)
    {e2d e2d' : Mat Num} {x0 x0' : ℕ → ℕ → ℚ} (he : e2d.Is inp.numEdges inp.numNodes x0)
    (he' : e2d'.Is inp'.numEdges inp'.numNodes x0') (hx : ∀ e < inp.numEdges, ∀ v < inp.numNodes, |x0 e v - x0' e v| ≤ ε) {st st' : TspState}
    (h1 : iterateRelaxed (tspSetup inp numIter reset augmentation (fin θ) maxCount maxAugm order) (tspStart inp e2d) = some st)
    (h1' : iterateRelaxed (tspSetup inp' numIter reset augmentation (fin θ) maxCount maxAugm order) (tspStart inp' e2d') = some st')
    (hm : ∀ e < inp.numEdges, spread 0 numIter inp.numEdges * ε < |(st.intr.data e).val - θ|) :
    NearState (spread 0 numIter inp.numEdges * ε) inp.numEdges st st' ∧ NearMsgs (spread 0 numIter inp.numEdges * ε) inp.edges [] st.msgs st'.msgs := by
  obtain ⟨R, a1, a2, a3, a4, a5, a6⟩ := relaxed_round (C := C) h he h1
  obtain ⟨R', b1, b2, b3, b4, b5, b6⟩ := relaxed_round (C := C') h' he' h1'
  have hv : ∀ e < inp.edges.length, ∀ v, v = src inp.edges e ∨ v = dst inp.edges e → v < inp.numNodes := by
    rintro e he v (rfl | rfl)
    · exact src_lt h.edges he
    · exact dst_lt h.edges he
  obtain ⟨k1, k2, k3, k4, k5⟩ := leaves_near hε hI h ha a1 b1 (by rw [a2]; simp) (by rw [a2, b2]) (fun e he v hvv => by
      rw [a3, b3]; exact hx e (h.len ▸ he) v (hv e he v hvv))
    (fun e he v _ => by rw [a4, b4]; simpa using hε) (fun k hk => by rw [a2] at hk; simp at hk) a5 b5 a6 b6 (by rw [a2]; exact hm)
  obtain ⟨m1, ext1, intr1, sel, total, an, -, f2, f3, rfl⟩ := iterateRelaxed_facts h1
  obtain ⟨m1', ext1', intr1', sel', total', an', -, f2', f3', rfl⟩ := iterateRelaxed_facts h1'
  simp only at k2
  subst k2
  simp only [tspSetup, tspStart, hI.n, hI.edges] at f3 f3'
  rw [f3, Option.some.injEq] at f3'
  rw [a2] at k1 k3 k4 k5
  exact ⟨⟨f3'.symm, rfl, rfl, rfl, rfl, rfl, rfl, rfl, rfl, k3, k4, k5⟩, k1⟩

/-- An augmentation round. -/
theorem augmented_near (hε : 0 ≤ ε) (hI : NearInputs ε inp inp' w w' cc cc' C C') (h : TspOk inp w cc) (h' : TspOk inp' w' cc')
    (ha : inp.flag = true → 0 ≤ inp.alpha ∧ inp.alpha ≤ 1)
    (hC : inp.costMatrix.Is inp.numNodes inp.numNodes C) (hC' : inp'.costMatrix.Is inp'.numNodes inp'.numNodes C')
    {st st' u u' : TspState} (hi : SolverInv inp st) (hi' : SolverInv inp' st') (hS : NearState ε inp.numEdges st st')
    (hM : NearMsgs ε inp.edges st.an.deltas st.msgs st'.msgs)
    (h1 : iterateAugmented (tspSetup inp numIter reset augmentation (fin θ) maxCount maxAugm order) st = some u)
    (h1' : iterateAugmented (tspSetup inp' numIter reset augmentation (fin θ) maxCount maxAugm order) st' = some u')
    (hm : ∀ e < inp.numEdges, spread st.an.deltas.length numIter inp.numEdges * ε < |(u.intr.data e).val - θ|) :
    NearState (spread st.an.deltas.length numIter inp.numEdges * ε) inp.numEdges u u' ∧
      NearMsgs (spread st.an.deltas.length numIter inp.numEdges * ε) inp.edges st.an.deltas u.msgs u'.msgs ∧
      u.msgs.s2e.rows = st.an.deltas.length ∧ u'.msgs.s2e.rows = st.an.deltas.length := by
  obtain ⟨R, a1, a2, a3, a4, a5, a6, a7⟩ := augmented_round (C := C) h hC hi h1
  obtain ⟨R', b1, b2, b3, b4, b5, b6, b7⟩ := augmented_round (C := C') h' hC' hi' h1'
  have hx0 : ∀ e < inp.edges.length, ∀ v, v = src inp.edges e ∨ v = dst inp.edges e → |R.x0 e v - R'.x0 e v| ≤ ε := by
    intro e he v hv
    rw [a3, b3]
    unfold augStart
    rw [hI.edges]
    split
    · exact hI.C _ (src_lt h.edges he) _ (dst_lt h.edges he)
    · exact hM.x e he v hv
  obtain ⟨k1, k2, k3, k4, k5⟩ := leaves_near hε hI h ha a1 b1
    (by rw [a2]; exact fun l hl e he => by rw [h.len]; exact (hi.cuts l hl).2.2 e he) (by rw [a2, b2, hS.an]) hx0
    (fun e he v hv => by rw [a4, b4]; exact hM.d e he v hv)
    (fun k hk e he => by rw [a5, b5]; rw [a2] at hk he; exact hM.s k hk e he) a6 b6 a7 b7 (by rw [a2]; exact hm)
  obtain ⟨intr1, f1, f2, f3, f4, f5, f6, f7, f8, f9, f10, f11⟩ := iterateAugmented_facts h1
  obtain ⟨intr1', g1, g2, g3, g4, g5, g6, g7, g8, g9, g10, g11⟩ := iterateAugmented_facts h1'
  have han : u'.an = u.an := by
    simp only [tspSetup, hI.n, hI.edges, hS.an, hS.numAugm, k2] at f4 g4
    rw [f4, Option.some.injEq] at g4
    exact g4.symm
  rw [hS.old] at g7 g8 g9
  rw [hS.oldOld] at g7
  rw [hS.noImprovCount] at g8 g9
  rw [hS.noImprovFlag] at g9
  rw [hS.old, hS.oldOld] at g10 g11
  rw [hS.solOscCount] at g10 g11
  rw [hS.solOscFlag] at g11
  rw [k2] at g6 g8 g9 g10 g11
  rw [a2] at k1 k3 k4 k5
  refine ⟨⟨han, k2, by rw [g6, f6], by rw [g7, f7], by rw [g5, f5, hS.numAugm], by rw [g8, f8], by rw [g9, f9]; rfl, by rw [g10, f10],
    by rw [g11, f11]; rfl, k3, k4, k5⟩, k1, ?_, ?_⟩
  · rw [← a2]; exact a7.ok.s2e.1
  · rw [← hS.an, ← b2]; exact b7.ok.s2e.1

/-- Finitely many nonzero distances have a positive lower bound. -/
theorem exists_margin {b : ℕ → ℚ} (E : ℕ) (h : ∀ e < E, b e ≠ θ) : ∃ μ > 0, ∀ e < E, μ < |b e - θ| := by
  induction E with
  | zero => exact ⟨1, one_pos, fun e he => by omega⟩
  | succ E ih =>
    obtain ⟨μ, hμ, h1⟩ := ih fun e he => h e (by omega)
    have h2 : 0 < |b E - θ| := abs_pos.mpr (sub_ne_zero.mpr (h E (by omega)))
    refine ⟨min μ (|b E - θ| / 2), lt_min hμ (by linarith), fun e he => ?_⟩
    rcases Nat.lt_or_ge e E with hlt | hge
    · exact (min_le_left _ _).trans_lt (h1 e hlt)
    · obtain rfl : e = E := by omega
      exact (min_le_right _ _).trans_lt (by linarith)

/-- The loop on nearby costs. -/
theorem augmentLoop_near (h : TspOk inp w cc) (ha : inp.flag = true → 0 ≤ inp.alpha ∧ inp.alpha ≤ 1)
    (hC : inp.costMatrix.Is inp.numNodes inp.numNodes C)
    (hn : 3 ≤ inp.numNodes) (hcomp : Complete inp.numNodes inp.edges) (ho : ∀ k sel, StartOrder sel (order k sel)) (fuel : ℕ) :
    ∀ {st st1 : TspState}, SolverInv inp st →
      augmentLoop (tspSetup inp numIter reset augmentation (fin θ) maxCount maxAugm order) fuel st = some (some st1) →
      ∃ k f, f 0 = st ∧ f k = st1 ∧ AugRun (tspSetup inp numIter reset augmentation (fin θ) maxCount maxAugm order) f k ∧
        st1.numAugm = st.numAugm + k ∧
        ((∀ i, 0 < i → i ≤ k → ∀ e < inp.numEdges, ((f i).intr.data e).val ≠ θ) → ∀ η > 0, ∃ ε > 0, ∀ inp' w' cc' C',
          NearInputs ε inp inp' w w' cc cc' C C' → TspOk inp' w' cc' → inp'.costMatrix.Is inp'.numNodes inp'.numNodes C' →
          ∀ st', SolverInv inp' st' → NearState ε inp.numEdges st st' → NearMsgs ε inp.edges st.an.deltas st.msgs st'.msgs →
          ∃ st1', augmentLoop (tspSetup inp' numIter reset augmentation (fin θ) maxCount maxAugm order) fuel st' = some (some st1') ∧
            NearState η inp.numEdges st1 st1') := by
  induction fuel with
  | zero => intro _ _ _ hr; simp [augmentLoop] at hr
  | succ fuel ih =>
    intro st st1 hi hr
    rw [augmentLoop] at hr
    by_cases h1 : (!st.an.satisfied && augmentation && !st.an.tourFlag) = true
    swap
    · rw [if_neg (by exact h1)] at hr
      simp only [Option.some.injEq] at hr
      subst hr
      refine ⟨0, fun _ => st, rfl, rfl, ⟨by simp, by simp⟩, rfl, fun _ η hη => ⟨η, hη, fun inp' w' cc' C' hI h' hC' st' hi' hS hM => ⟨st', ?_, hS⟩⟩⟩
      rw [augmentLoop, hS.an, if_neg (by exact h1)]
    by_cases h2 : (st.an.noConsFlag || st.noImprovFlag || st.solOscFlag) = true
    · rw [if_pos (by exact h1), if_pos h2] at hr
      simp only [Option.some.injEq] at hr
      subst hr
      refine ⟨0, fun _ => st, rfl, rfl, ⟨by simp, by simp⟩, rfl, fun _ η hη => ⟨η, hη, fun inp' w' cc' C' hI h' hC' st' hi' hS hM => ⟨st', ?_, hS⟩⟩⟩
      rw [augmentLoop, hS.an, if_pos (by exact h1), hS.noImprovFlag, hS.solOscFlag, if_pos h2]
    rw [if_pos (by exact h1), if_neg h2] at hr
    by_cases h3 : st.cost = 0
    · rw [if_pos h3] at hr; simp at hr
    rw [if_neg h3] at hr
    have hgo : st.an.tourFlag = false ∧ st.an.satisfied = false ∧ st.an.noConsFlag = false ∧ st.noImprovFlag = false ∧
        st.solOscFlag = false ∧ st.cost ≠ 0 := by
      simp only [Bool.and_eq_true, Bool.not_eq_true', Bool.or_eq_true, not_or, Bool.not_eq_true] at h1 h2
      exact ⟨h1.2, h1.1.1, h2.1.1, h2.1.2, h2.2, h3⟩
    obtain ⟨u, v, u1, u2, u3⟩ := round_total (numIter := numIter) (reset := reset) (augmentation := augmentation) (thr := fin θ)
      (maxCount := maxCount) (maxAugm := maxAugm) h hC hn hcomp ho hi
    rw [u1] at hr
    simp only at hr
    have hnum : u.numAugm = st.numAugm + 1 := by
      obtain ⟨intr1, f1, f2, f3, f4, f5, -⟩ := iterateAugmented_facts u1
      exact f5
    set S := spread st.an.deltas.length numIter inp.numEdges with hSdef
    have hS1 : 1 ≤ S := (spread_ge _ _ _).1
    -- one round of the other run
    have step : (∀ e < inp.numEdges, ((u.intr.data e).val) ≠ θ) → ∀ η > 0, ∃ ε > 0, ε ≤ η ∧ ∀ inp' w' cc' C',
        NearInputs ε inp inp' w w' cc cc' C C' → TspOk inp' w' cc' → inp'.costMatrix.Is inp'.numNodes inp'.numNodes C' →
        ∀ st', SolverInv inp' st' → NearState ε inp.numEdges st st' → NearMsgs ε inp.edges st.an.deltas st.msgs st'.msgs →
        st'.cost ≠ 0 ∧ ∃ u' v', iterateAugmented (tspSetup inp' numIter reset augmentation (fin θ) maxCount maxAugm order) st' = some u' ∧
          addMissingRows u' = some v' ∧ SolverInv inp' v' ∧ NearState η inp.numEdges u u' ∧ NearState η inp.numEdges v v' ∧
          NearMsgs η inp.edges v.an.deltas v.msgs v'.msgs := by
      intro hne η hη
      obtain ⟨μ, hμ, hmu⟩ := exists_margin inp.numEdges hne
      have hq : ∃ ζ > 0, ∀ q : ℚ, st.cost = fin q → ζ < |q| := by
        by_cases hex : ∃ q : ℚ, st.cost = fin q
        · obtain ⟨q, hq⟩ := hex
          have hq0 : q ≠ 0 := fun h0 => h3 (by rw [hq, h0]; rfl)
          have := abs_pos.mpr hq0
          refine ⟨|q| / 2, by linarith, fun p hp => ?_⟩
          rw [hq, Num.fin.injEq] at hp
          subst hp
          linarith
        · exact ⟨1, one_pos, fun q hq => absurd ⟨q, hq⟩ hex⟩
      obtain ⟨ζ, hζ, hzeta⟩ := hq
      have hS0 : 0 < S := by linarith
      have hε0 : 0 < min (min η μ / S) ζ := lt_min (div_pos (lt_min hη hμ) hS0) hζ
      have hSε : S * min (min η μ / S) ζ ≤ min η μ := by
        calc S * min (min η μ / S) ζ ≤ S * (min η μ / S) := mul_le_mul_of_nonneg_left (min_le_left _ _) hS0.le
          _ = min η μ := by field_simp
      refine ⟨min (min η μ / S) ζ, hε0, ?_, fun inp' w' cc' C' hI h' hC' st' hi' hS hM => ?_⟩
      · have : min (min η μ / S) ζ ≤ S * min (min η μ / S) ζ := by nlinarith
        exact this.trans (hSε.trans (min_le_left _ _))
      obtain ⟨u', v', u1', u2', u3'⟩ := round_total (numIter := numIter) (reset := reset) (augmentation := augmentation) (thr := fin θ)
        (maxCount := maxCount) (maxAugm := maxAugm) h' hC' (by rw [hI.n]; exact hn) (by rw [hI.n, hI.edges]; exact hcomp) ho hi'
      obtain ⟨k1, k2, k3, k4⟩ := augmented_near hε0.le hI h h' ha hC hC' hi hi' hS hM u1 u1'
        fun e he => (hSε.trans (min_le_right _ _)).trans_lt (hmu e he)
      have k1 := k1.mono (hSε.trans (min_le_left _ _))
      have k2 := k2.mono (hSε.trans (min_le_left _ _))
      refine ⟨?_, u', v', u1', u2', u3', k1, ?_⟩
      · obtain ⟨q, q', q1, q2, q3⟩ := hS.cost
        intro h0
        rw [q2, zero_def, Num.fin.injEq] at h0
        rw [h0, sub_zero] at q3
        exact absurd (q3.trans (min_le_right _ _)) (not_le.mpr (hzeta q q1))
      · obtain ⟨intr1, f1, f2, f3, f4, -⟩ := iterateAugmented_facts u1
        obtain ⟨c1, -⟩ := Properties.C19_round (ho _ _) f4
        exact addMissingRows_near hη.le k1 k2 k3 k4 c1 u2 u2'
    have unfold' : ∀ {inp' : TspInputs} {st' u' v' : TspState} {r : Option (Option TspState)}, st'.an = st.an → st'.noImprovFlag = st.noImprovFlag → st'.solOscFlag = st.solOscFlag →
        st'.cost ≠ 0 → iterateAugmented (tspSetup inp' numIter reset augmentation (fin θ) maxCount maxAugm order) st' = some u' →
        ((u'.numAugm : ℤ) = maxAugm → some (some u') = r) →
        ((u'.numAugm : ℤ) ≠ maxAugm → addMissingRows u' = some v' ∧
          augmentLoop (tspSetup inp' numIter reset augmentation (fin θ) maxCount maxAugm order) fuel v' = r) →
        augmentLoop (tspSetup inp' numIter reset augmentation (fin θ) maxCount maxAugm order) (fuel + 1) st' = r := by
      intro inp' st' u' v' r e1 e2 e3 e4 e5 e6 e7
      rw [augmentLoop, e1, e2, e3, if_pos (by exact h1), if_neg h2, if_neg e4, e5]
      simp only
      show (if (u'.numAugm : ℤ) = maxAugm then _ else _) = r
      split
      · rename_i hh; exact e6 hh
      · rename_i hh
        rw [(e7 hh).1]
        exact (e7 hh).2
    by_cases h4 : (u.numAugm : ℤ) = maxAugm
    · rw [if_pos (by exact h4)] at hr
      simp only [Option.some.injEq] at hr
      subst hr
      refine ⟨1, fun i => if i = 0 then st else u, rfl, rfl, ⟨?_, ?_⟩, hnum, fun hne η hη => ?_⟩
      · intro i hi; obtain rfl : i = 0 := by omega
        exact hgo
      · intro i hi'; obtain rfl : i = 0 := by omega
        exact ⟨u, u1, Or.inl ⟨rfl, h4, rfl⟩⟩
      · obtain ⟨ε, hε, -, hstep⟩ := step (hne 1 one_pos le_rfl) η hη
        refine ⟨ε, hε, fun inp' w' cc' C' hI h' hC' st' hi' hS hM => ?_⟩
        obtain ⟨s1, u', v', s2, s3, s4, s5, -⟩ := hstep inp' w' cc' C' hI h' hC' st' hi' hS hM
        exact ⟨u', unfold' hS.an hS.noImprovFlag hS.solOscFlag s1 s2 (v' := v') (fun _ => rfl) (fun hh => absurd (by rw [s5.numAugm]; exact h4) hh), s5⟩
    · rw [if_neg (by exact h4), u2] at hr
      have hvi : v.intr = u.intr ∧ v.numAugm = u.numAugm := by
        unfold addMissingRows at u2
        split at u2
        · simp only [Option.some.injEq] at u2; subst u2; exact ⟨rfl, rfl⟩
        · split at u2
          · simp at u2
          · simp only [Option.some.injEq] at u2; subst u2; exact ⟨rfl, rfl⟩
      obtain ⟨k, f, f0, fk, hrun, hk, hcont⟩ := ih u3 hr
      refine ⟨k + 1, fun i => if i = 0 then st else f (i - 1), rfl, by simpa using fk, ⟨?_, ?_⟩, by rw [hk, hvi.2, hnum]; omega, fun hne η hη => ?_⟩
      · intro i hi'
        by_cases h0 : i = 0
        · subst h0; exact hgo
        · simp only [h0, if_false]
          exact hrun.going (i - 1) (by omega)
      · intro i hi'
        by_cases h0 : i = 0
        · subst h0
          exact ⟨u, u1, Or.inr ⟨h4, by simp [f0, u2]⟩⟩
        · obtain ⟨s, s1, s2⟩ := hrun.round (i - 1) (by omega)
          refine ⟨s, by simpa [h0] using s1, ?_⟩
          rcases s2 with ⟨t1, t2, t3⟩ | ⟨t1, t2⟩
          · exact Or.inl ⟨by omega, t2, by simpa using t3⟩
          · refine Or.inr ⟨t1, ?_⟩
            simp only [Nat.add_eq_zero_iff, one_ne_zero, and_false, if_false, Nat.add_sub_cancel]
            rw [show i - 1 + 1 = i by omega] at t2
            exact t2
      · obtain ⟨ε1, hε1, hc1⟩ := hcont (fun i h0 hik => by
          have := hne (i + 1) (by omega) (by omega)
          simpa using this) η hη
        obtain ⟨ε, hε, hle, hstep⟩ := step (fun e he => by
          have := hne 1 (by omega) (by omega) e he
          simp only [one_ne_zero, if_false, Nat.sub_self, f0, hvi.1] at this
          exact this) ε1 hε1
        refine ⟨ε, hε, fun inp' w' cc' C' hI h' hC' st' hi' hS hM => ?_⟩
        obtain ⟨s1, u', v', s2, s3, s4, s5, s6, s7⟩ := hstep inp' w' cc' C' hI h' hC' st' hi' hS hM
        obtain ⟨st1', q1, q2⟩ := hc1 inp' w' cc' C' (hI.mono hle) h' hC' v' s4 s6 s7
        exact ⟨st1', unfold' hS.an hS.noImprovFlag hS.solOscFlag s1 s2 (v' := v') (fun hh => absurd (by rw [← s5.numAugm]; exact hh) h4)
          (fun _ => ⟨s3, q1⟩), q2⟩
end

section
variable {inp inp' : TspInputs} {w w' : ℕ → ℚ} {cc cc' C C' : ℕ → ℕ → ℚ} {numIter maxCount : ℕ} {reset augmentation : Bool} {θ ε η : ℚ}
  {maxAugm : ℤ} {order : ℕ → List (ℕ × ℕ) → List ℕ}

/-- The whole solver on nearby costs. -/
theorem solve_near (h : TspOk inp w cc) (ha : inp.flag = true → 0 ≤ inp.alpha ∧ inp.alpha ≤ 1)
    (hC : inp.costMatrix.Is inp.numNodes inp.numNodes C)
    (hn : 3 ≤ inp.numNodes) (hcomp : Complete inp.numNodes inp.edges) (ho : ∀ k sel, StartOrder sel (order k sel))
    {e2d : Mat Num} {x0 : ℕ → ℕ → ℚ} (he : e2d.Is inp.numEdges inp.numNodes x0) {fuel : ℕ} {st1 : TspState}
    (hs : tspSolve (tspSetup inp numIter reset augmentation (fin θ) maxCount maxAugm order) fuel (tspStart inp e2d) = some (some st1)) :
    ∃ k R, TspRounds (tspProblem inp w cc C numIter reset (fin θ)) x0 R k ∧ st1.numAugm = k ∧
      Outcome (tspProblem inp w cc C numIter reset (fin θ)) inp.numEdges (R k) st1 ∧
      ((∀ i ≤ k, ∀ e < inp.numEdges, belief (tspProblem inp w cc C numIter reset (fin θ)) (R i) e ≠ θ) → ∀ η > 0, ∃ ε > 0,
        ∀ inp' w' cc' C' e2d' x0', NearInputs ε inp inp' w w' cc cc' C C' → TspOk inp' w' cc' →
        inp'.costMatrix.Is inp'.numNodes inp'.numNodes C' → e2d'.Is inp'.numEdges inp'.numNodes x0' →
        (∀ e < inp.numEdges, ∀ v < inp.numNodes, |x0 e v - x0' e v| ≤ ε) →
        ∃ st1', tspSolve (tspSetup inp' numIter reset augmentation (fin θ) maxCount maxAugm order) fuel (tspStart inp' e2d') = some (some st1') ∧
          NearState η inp.numEdges st1 st1') := by
  obtain ⟨st, r1, r2, r3, r4, r5⟩ := relaxed_total (numIter := numIter) (reset := reset) (augmentation := augmentation)
    (thr := fin θ) (maxCount := maxCount) (maxAugm := maxAugm) h hn hcomp ho he
  have hnum : st.numAugm = 0 := by
    obtain ⟨m1, ext1, intr1, sel, total, an, -, f2, f3, rfl⟩ := iterateRelaxed_facts r1
    rfl
  set S := spread 0 numIter inp.numEdges with hSdef
  have hS1 : 1 ≤ S := (spread_ge _ _ _).1
  have hS0 : 0 < S := by linarith
  -- the relaxed round of the other run
  have step : (∀ e < inp.numEdges, ((st.intr.data e).val) ≠ θ) → ∀ η > 0, ∃ ε > 0, ε ≤ η ∧
      ∀ inp' w' cc' C' e2d' x0', NearInputs ε inp inp' w w' cc cc' C C' → TspOk inp' w' cc' → e2d'.Is inp'.numEdges inp'.numNodes x0' →
      (∀ e < inp.numEdges, ∀ v < inp.numNodes, |x0 e v - x0' e v| ≤ ε) →
      ∃ st', iterateRelaxed (tspSetup inp' numIter reset augmentation (fin θ) maxCount maxAugm order) (tspStart inp' e2d') = some st' ∧
        TspMsgsOk inp' [] st'.msgs ∧ CutsOk inp'.numEdges st'.an.deltas ∧ st'.ext.size = inp'.numEdges ∧ st'.intr.size = inp'.numEdges ∧
        NearState η inp.numEdges st st' ∧ NearMsgs η inp.edges [] st.msgs st'.msgs := by
    intro hne η hη
    obtain ⟨μ, hμ, hmu⟩ := exists_margin inp.numEdges hne
    have hε0 : 0 < min η μ / S := div_pos (lt_min hη hμ) hS0
    have hSε : S * (min η μ / S) = min η μ := by field_simp
    refine ⟨min η μ / S, hε0, ?_, fun inp' w' cc' C' e2d' x0' hI h' he' hx => ?_⟩
    · have : min η μ / S ≤ S * (min η μ / S) := by nlinarith
      exact this.trans (hSε.le.trans (min_le_left _ _))
    obtain ⟨st', r1', r2', r3', r4', r5'⟩ := relaxed_total (numIter := numIter) (reset := reset) (augmentation := augmentation)
      (thr := fin θ) (maxCount := maxCount) (maxAugm := maxAugm) h' (by rw [hI.n]; exact hn) (by rw [hI.n, hI.edges]; exact hcomp) ho he'
    obtain ⟨k1, k2⟩ := relaxed_near hε0.le hI h h' ha he he' hx r1 r1'
      fun e he => (hSε.le.trans (min_le_right _ _)).trans_lt (hmu e he)
    exact ⟨st', r1', r2', r3', r4', r5', k1.mono (hSε.le.trans (min_le_left _ _)), k2.mono (hSε.le.trans (min_le_left _ _))⟩
  have hval : ∀ {R : TspRound} {s : TspState}, Outcome (tspProblem inp w cc C numIter reset (fin θ)) inp.numEdges R s →
      (∀ e < inp.numEdges, belief (tspProblem inp w cc C numIter reset (fin θ)) R e ≠ θ) → ∀ e < inp.numEdges, (s.intr.data e).val ≠ θ := by
    intro R s hout hne e he
    rw [hout.intr.2 e he]
    exact hne e he
  unfold tspSolve at hs
  rw [r1] at hs
  simp only at hs
  by_cases h1 : (!st.an.satisfied && augmentation) = true
  · rw [if_pos (by exact h1)] at hs
    unfold performAugmentation at hs
    have first : ∀ {i : TspInputs} {t : TspState}, TspMsgsOk i [] t.msgs → CutsOk i.numEdges t.an.deltas → t.ext.size = i.numEdges →
        t.intr.size = i.numEdges → SolverInv i (addFirstRows t) ∧ addMissingRows t = some (addFirstRows t) := by
      intro i t q2 q3 q4 q5
      have hrow0 : t.msgs.s2e.rows = 0 := q2.s2e.1
      constructor
      · unfold addFirstRows
        split
        · exact ⟨by simpa using tspAddCuts_ok q2 t.an.deltas, q3, q4, q5⟩
        · have : t.an.deltas = [] := List.eq_nil_of_length_eq_zero (by omega)
          exact ⟨by rw [this]; exact q2, q3, q4, q5⟩
      · unfold addMissingRows addFirstRows
        rw [hrow0]
        by_cases hd : t.an.deltas.length = 0
        · rw [if_pos hd.symm, if_neg (by omega)]
        · rw [if_neg (by omega), if_neg (by omega), if_pos (by omega), Nat.sub_zero]
    have shape : ∀ t : TspState, ∃ m, addFirstRows t = { t with msgs := m } := by
      intro t
      unfold addFirstRows
      split
      · exact ⟨_, rfl⟩
      · exact ⟨t.msgs, rfl⟩
    obtain ⟨i1, i2⟩ := first r2 r3 r4 r5
    obtain ⟨k, f, f0, fk, hrun, hk, hcont⟩ := augmentLoop_near h ha hC hn hcomp ho fuel i1 hs
    obtain ⟨R, hR, hout⟩ := run_rounds h hC hn hcomp ho he r1 (by rw [f0]; exact shape st) (fun _ => f0) hrun
    refine ⟨k, R, hR, ?_, fk ▸ hout k le_rfl, fun hne η hη => ?_⟩
    · obtain ⟨m, hm⟩ := shape st
      rw [hk, hm]
      show st.numAugm + k = k
      omega
    · obtain ⟨ε1, hε1, hc1⟩ := hcont (fun i _ hik => hval (hout i hik) (hne i hik)) η hη
      have h0 : ∀ e < inp.numEdges, (st.intr.data e).val ≠ θ := by
        have := hval (hout 0 (Nat.zero_le _)) (hne 0 (Nat.zero_le _))
        obtain ⟨m, hm⟩ := shape st
        rw [f0, hm] at this
        exact this
      obtain ⟨ε, hε, hle, hstep⟩ := step h0 ε1 hε1
      refine ⟨ε, hε, fun inp' w' cc' C' e2d' x0' hI h' hC' he' hx => ?_⟩
      obtain ⟨st', q1, q2, q3, q4, q5, q6, q7⟩ := hstep inp' w' cc' C' e2d' x0' hI h' he' hx
      obtain ⟨i1', i2'⟩ := first q2 q3 q4 q5
      obtain ⟨m1, m2⟩ := addMissingRows_near hε1.le q6 q7 r2.s2e.1 q2.s2e.1 List.nil_prefix i2 i2'
      obtain ⟨st1', p1, p2⟩ := hc1 inp' w' cc' C' (hI.mono hle) h' hC' _ i1' m1 m2
      refine ⟨st1', ?_, p2⟩
      unfold tspSolve
      rw [q1]
      simp only [q6.an]
      rw [if_pos (by exact h1)]
      exact p1
  · rw [if_neg (by exact h1)] at hs
    simp only [Option.some.injEq] at hs
    subst hs
    obtain ⟨R, hR, hout⟩ := run_rounds (f := fun _ => st) (k := 0) h hC hn hcomp ho he r1 ⟨st.msgs, rfl⟩ (fun h => by omega) ⟨by simp, by simp⟩
    refine ⟨0, R, hR, hnum, hout 0 le_rfl, fun hne η hη => ?_⟩
    obtain ⟨ε, hε, hle, hstep⟩ := step (hval (hout 0 le_rfl) (hne 0 le_rfl)) η hη
    refine ⟨ε, hε, fun inp' w' cc' C' e2d' x0' hI h' hC' he' hx => ?_⟩
    obtain ⟨st', q1, q2, q3, q4, q5, q6, q7⟩ := hstep inp' w' cc' C' e2d' x0' hI h' he' hx
    refine ⟨st', ?_, q6⟩
    unfold tspSolve
    rw [q1]
    simp only [q6.an]
    rw [if_neg (by exact h1)]

/-- Reading the results of nearby states. -/
theorem read_near {E : ℕ} {st st' : TspState} {b0 b : TspBuffers} {aug : Bool} {costs costs' : List Num} {q : TspResult} (hS : NearState η E st st')
    (hc : costs'.length = costs.length) (hb : processOutputs E st b0 = some b) (hq : processOutputsPy aug costs b = some q) :
    ∃ b' q', processOutputs E st' b0 = some b' ∧ processOutputsPy aug costs' b' = some q' ∧ q'.selected = q.selected ∧ q'.tour = q.tour ∧
      q'.subtours = q.subtours ∧ q'.numAugm = q.numAugm ∧ q'.noImprov = q.noImprov ∧ q'.noCons = q.noCons ∧ q'.solOsc = q.solOsc ∧
      q.cost = st.cost ∧ q'.cost = st'.cost := by
  obtain ⟨a, a', a1, a2, a3⟩ := hS.ext
  unfold processOutputs at hb ⊢
  rw [a1.1] at hb
  rw [a2.1, hS.an, hS.selected, hS.numAugm, hS.noImprovFlag, hS.solOscFlag]
  rw [if_pos le_rfl] at hb ⊢
  simp only [Option.bind_eq_bind, Option.bind_eq_some_iff, Option.some.injEq] at hb
  obtain ⟨ext, e1, tour, e2, sel, e3, sub, e4, sizes, e5, rfl⟩ := hb
  have hput : ∃ ext', putList b0.ext ((List.range E).map st'.ext.data) = some ext' ∧ ext'.length = ext.length := by
    unfold putList at e1 ⊢
    split at e1
    · rename_i hle
      simp only [List.length_map, List.length_range] at hle ⊢
      rw [if_pos hle]
      refine ⟨_, rfl, ?_⟩
      simp only [Option.some.injEq] at e1
      rw [← e1]
      simp
    · simp at e1
  obtain ⟨ext', x1, x2⟩ := hput
  simp only [x1, e2, e3, e4, e5, Option.bind_eq_bind, Option.bind_some]
  unfold processOutputsPy at hq ⊢
  simp only [Option.bind_eq_bind, Option.bind_eq_some_iff, Option.some.injEq] at hq
  obtain ⟨p, p1, i, p2, rfl⟩ := hq
  have hlen : ext.length = costs.length := by
    by_contra hh
    rw [if_neg hh] at p2
    simp at p2
  refine ⟨_, ⟨p, _, _, st.noImprovFlag, st.an.noConsFlag, st.solOscFlag, st.numAugm, if aug then st'.msgs.s2e.rows else 0, st'.cost,
    List.zipWith (· + ·) ext' costs'⟩, rfl, ?_, rfl, rfl, rfl, rfl, rfl, rfl, rfl, rfl, rfl⟩
  simp only [p1, Option.bind_eq_bind, Option.bind_some]
  rw [if_pos (by rw [x2, hc, hlen])]
  rfl
end

end Verif.Proofs
