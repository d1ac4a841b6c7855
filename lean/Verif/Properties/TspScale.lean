import Verif.Proofs.TspNames
import Verif.Properties.TspCall

/-! # C58: units, names and the order of the edge list do not matter to the TSP solver -/

namespace Verif.Properties
open Verif Num Spec Model

section
variable {inp inp' : TspInputs} {w : ℕ → ℚ} {cc C x0 : ℕ → ℕ → ℚ} {e2d e2d' : Mat Num} {numIter maxCount : ℕ} {reset augmentation : Bool} {θ s : ℚ}
  {maxAugm : ℤ} {order : ℕ → List (ℕ × ℕ) → List ℕ}

/-- C58, units.  If all costs and the threshold are multiplied by the same positive number `s`, the whole solver (all rounds) ends in the same
way: with the same selected edges, tour, subtours, cuts, flags and number of augmentations, and with the cost and all beliefs multiplied by `s`. -/
theorem C58_units (hs : 0 < s) (h : TspOk inp w cc) (h' : TspOk inp' (fun e => s * w e) (fun e v => s * cc e v))
    (hsame : inp'.numNodes = inp.numNodes ∧ inp'.numEdges = inp.numEdges ∧ inp'.edges = inp.edges ∧ inp'.flag = inp.flag ∧ inp'.alpha = inp.alpha)
    (hC : inp.costMatrix.Is inp.numNodes inp.numNodes C) (hC' : inp'.costMatrix.Is inp.numNodes inp.numNodes (fun u v => s * C u v))
    (hn : 3 ≤ inp.numNodes) (hcomp : Complete inp.numNodes inp.edges) (ho : ∀ k sel, StartOrder sel (order k sel))
    (he : e2d.Is inp.numEdges inp.numNodes x0) (he' : e2d'.Is inp.numEdges inp.numNodes (fun e v => s * x0 e v)) (fuel : ℕ)
    {o o' : Option (Option TspState)}
    (hr : tspSolve (tspSetup inp numIter reset augmentation (fin θ) maxCount maxAugm order) fuel (tspStart inp e2d) = o)
    (hr' : tspSolve (tspSetup inp' numIter reset augmentation (fin (s * θ)) maxCount maxAugm order) fuel (tspStart inp' e2d') = o') :
    (o' = none ↔ o = none) ∧ (o' = some none ↔ o = some none) ∧
    ∀ st, o = some (some st) → ∃ st', o' = some (some st') ∧ st'.selected = st.selected ∧ st'.an = st.an ∧ st'.numAugm = st.numAugm ∧
      st'.noImprovFlag = st.noImprovFlag ∧ st'.solOscFlag = st.solOscFlag ∧ (∃ q, st.cost = fin q ∧ st'.cost = fin (s * q)) ∧
      (∃ b : ℕ → ℚ, st.ext.Is inp.numEdges b ∧ st'.ext.Is inp.numEdges (fun e => s * b e)) ∧
      ∃ b : ℕ → ℚ, st.intr.Is inp.numEdges b ∧ st'.intr.Is inp.numEdges (fun e => s * b e) := by
  obtain ⟨e1, e2, e3, e4, e5⟩ := hsame
  have key := Proofs.solve_smul (numIter := numIter) (reset := reset) (augmentation := augmentation) (maxCount := maxCount) (maxAugm := maxAugm)
    (θ := θ) hs (w' := fun e => s * w e) (cc' := fun e v => s * cc e v) (C' := fun u v => s * C u v)
    ⟨e1, e2, e3, e4, e5, fun _ _ => rfl, fun _ _ _ _ => rfl, fun _ _ _ _ => rfl⟩ h h' hC (by rw [e1]; exact hC') hn hcomp ho he
    (by rw [e1, e2]; exact he') fuel
  rw [hr, hr'] at key
  match o, o', key with
  | none, none, _ => simp
  | some none, some none, _ => simp
  | some (some st), some (some st'), key =>
    refine ⟨by simp, by simp, fun u hu => ?_⟩
    simp only [Option.some.injEq] at hu
    subst hu
    exact ⟨st', rfl, key.selected, key.an, key.numAugm, key.noImprovFlag, key.solOscFlag, key.cost, key.ext, key.intr⟩
end

section
variable {s t : TspSettings} {order order' : ℕ → List (ℕ × ℕ) → List ℕ} {fuel limit n : ℕ} {m m' : Mat Num} {C C' : ℕ → ℕ → ℚ}
  {edges edges' : List (ℕ × ℕ)} {r r' : TspResult} {done done' : Bool} {π : ℕ → ℕ} {a θ : ℚ}

/-- C58, names.  Rename the nodes by a permutation `π`, list the edges in another order and multiply all costs by `a > 0`: the beliefs of the
relaxed round are those of the renamed edges, multiplied by `a`. -/
theorem C58_names (h : AllEdges n edges) (h' : AllEdges n edges') (hπ : ∀ v < n, π v < n) (hinj : ∀ u < n, ∀ v < n, π u = π v → u = v)
    (ha : 0 < a) (hC : ∀ u < n, ∀ v < n, C' (π u) (π v) = a * C u v) (hst : t.flag = s.flag ∧ t.alpha = s.alpha ∧ t.numIter = s.numIter)
    {R R' : ℕ → TspRound} {k k' : ℕ} (hR : TspRounds (callProblem s n C edges) (endCosts C edges) R k)
    (hR' : TspRounds (callProblem t n C' edges') (endCosts C' edges') R' k') {e d : ℕ} (he : e < edges.length) (hd : d < edges'.length)
    (hs : src edges' d = π (src edges e)) (hds : dst edges' d = π (dst edges e)) :
    belief (callProblem t n C' edges') (R' 0) d = a * belief (callProblem s n C edges) (R 0) e := by
  obtain ⟨ρ, hρ⟩ := Proofs.exists_same h h' hπ hinj
  have hok : EdgesOk n edges := h.2.1
  obtain rfl : d = ρ e := Proofs.edge_inj h'.1 hd (by rw [hρ.length]; exact hρ.place e he) (by rw [hs, hρ.src e he]) (by rw [hds, hρ.dst e he])
  have ht := (hR.ok 0 (Nat.zero_le _)).trace
  have ht' := (hR'.ok 0 (Nat.zero_le _)).trace
  rw [hR.first_cuts] at ht
  rw [hR'.first_cuts] at ht'
  simp only [callProblem, hst.1, hst.2.1] at ht ht'
  have hend : ∀ e < edges.length, ∀ v, v = src edges e ∨ v = dst edges e → endCosts C' edges' (ρ e) (π v) = a * endCosts C edges e v := by
    intro e he v hv
    have c1 := hC _ (Proofs.src_lt hok he) _ (Proofs.dst_lt hok he)
    unfold endCosts
    rw [if_pos hv, hρ.src e he, hρ.dst e he, c1, if_pos]
    rcases hv with rfl | rfl
    · exact Or.inl rfl
    · exact Or.inr rfl
  have hE : ∀ e < edges.length, ρ e < edges'.length := fun e he => by rw [hρ.length]; exact hρ.place e he
  have hend' : ∀ e < edges.length, ∀ v, v = src edges e ∨ v = dst edges e → π v = src edges' (ρ e) ∨ π v = dst edges' (ρ e) := by
    rintro e he v (rfl | rfl)
    · exact Or.inl (hρ.src e he).symm
    · exact Or.inr (hρ.dst e he).symm
  have key := Proofs.output_named ha hok hρ hend (fun e he v hv => by
      rw [hR'.first_start (ρ e) (hE e he) (π v) (hend' e he v hv), hR.first_start e he v hv]; exact hend e he v hv) ht ht'
    (d0 := (R 0).d0) (d0' := (R' 0).d0) (fun e he v hv => by
      rw [hR'.first_degree (ρ e) (hE e he) (π v) (hend' e he v hv), hR.first_degree e he v hv, mul_zero]) s.numIter he
  unfold belief TspRound.output
  rw [hR.first_cuts, hR'.first_cuts]
  simp only [callProblem, hst.1, hst.2.1, hst.2.2]
  rw [key, hρ.src e he, hρ.dst e he, hC _ (Proofs.src_lt hok he) _ (Proofs.dst_lt hok he), mul_add]

/-- C58, a whole call without augmentation.  If the threshold is multiplied too, the renamed instance gets exactly the renamed edges, and (without
post-processing) the cost multiplied by `a`. -/
theorem C58_call (hm : m.Is n n C) (hm' : m'.Is n n C') (h : AllEdges n edges) (h' : AllEdges n edges') (hn : 3 ≤ n)
    (hπ : ∀ v < n, π v < n) (hinj : ∀ u < n, ∀ v < n, π u = π v → u = v) (ha : 0 < a) (hC : ∀ u < n, ∀ v < n, C' (π u) (π v) = a * C u v)
    (hst : t.flag = s.flag ∧ t.alpha = s.alpha ∧ t.numIter = s.numIter) (hth : s.thr = fin θ ∧ t.thr = fin (a * θ))
    (haug : s.augmentation = false ∧ t.augmentation = false) (hmax : 1 ≤ s.maxAugm ∧ 1 ≤ t.maxAugm) (hlim : n ≤ limit)
    (ho : ∀ k sel, StartOrder sel (order k sel)) (ho' : ∀ k sel, StartOrder sel (order' k sel))
    (hr : runImpa s order fuel limit n m edges = some (some (r, done))) (hr' : runImpa t order' fuel limit n m' edges' = some (some (r', done'))) :
    (∀ u < n, ∀ v < n, ((π u, π v) ∈ r'.selected ↔ (u, v) ∈ r.selected)) ∧
    (done = false → done' = false → ∃ q, r.cost = fin q ∧ r'.cost = fin (a * q)) := by
  obtain ⟨k, R, g1, -, -, g4, g5, -, -, g8, -⟩ := C49_result hm h hn ho hmax.1 hlim hr
  obtain ⟨k', R', g1', -, -, g4', g5', -, -, g8', -⟩ := C49_result hm' h' hn ho' hmax.2 hlim hr'
  obtain rfl := g4 haug.1
  obtain rfl := g4' haug.2
  obtain ⟨ρ, hρ⟩ := Proofs.exists_same h h' hπ hinj
  have hE : ∀ e < edges.length, ρ e < edges'.length := fun e he => by rw [hρ.length]; exact hρ.place e he
  have hb : ∀ e < edges.length, belief (callProblem t n C' edges') (R' 0) (ρ e) = a * belief (callProblem s n C edges) (R 0) e := fun e he =>
    C58_names h h' hπ hinj ha hC hst g1 g1' he (hE e he) (hρ.src e he) (hρ.dst e he)
  have habove : ∀ e < edges.length, (Above (fin (belief (callProblem t n C' edges') (R' 0) (ρ e))) t.thr ↔
      Above (fin (belief (callProblem s n C edges) (R 0) e)) s.thr) := fun e he => by
    rw [hb e he, hth.1, hth.2]
    simp only [Above]
    rw [mul_lt_mul_iff_right₀ ha]
  obtain ⟨c, hsel⟩ := (g1.ok 0 le_rfl).selects
  obtain ⟨c', hsel'⟩ := (g1'.ok 0 le_rfl).selects
  have hmem : ∀ {E : List (ℕ × ℕ)} {ww b : ℕ → ℚ} {thr : Num} {sel : List (ℕ × ℕ)} {cost : ℚ}, E.Nodup → Selects E ww b thr sel cost → ∀ e < E.length,
      ((src E e, dst E e) ∈ sel ↔ ¬ Above (fin (b e)) thr) := by
    rintro E ww b thr sel cost hnd ⟨L, l1, l2, l3, l4⟩ e he
    have hp : (src E e, dst E e) ∈ sel ↔ some (src E e, dst E e) ∈ sel.map some := by simp
    rw [hp, l3, List.mem_map]
    constructor
    · rintro ⟨d, hd, hde⟩
      have hdlt := ((l2 d).mp hd).1
      rw [List.getElem?_eq_getElem hdlt, Option.some.injEq, Proofs.src_dst hdlt, Prod.mk.injEq] at hde
      obtain rfl := Proofs.edge_inj hnd hdlt he hde.1 hde.2
      exact ((l2 d).mp hd).2
    · intro hab
      exact ⟨e, (l2 e).mpr ⟨he, hab⟩, by rw [List.getElem?_eq_getElem he, Proofs.src_dst he]⟩
  have hpair : ∀ {E : List (ℕ × ℕ)} {ww b : ℕ → ℚ} {thr : Num} {sel : List (ℕ × ℕ)} {cost : ℚ}, Selects E ww b thr sel cost → ∀ p ∈ sel, p ∈ E := by
    rintro E ww b thr sel cost ⟨L, l1, l2, l3, l4⟩ p hp
    have : some p ∈ sel.map some := by simpa using hp
    rw [l3, List.mem_map] at this
    obtain ⟨d, hd, hde⟩ := this
    exact List.mem_of_getElem? hde
  refine ⟨fun u hu v hv => ?_, fun hd hd' => ?_⟩
  · rw [g5, g5']
    by_cases huv : u = v
    · subst huv
      have n1 : (u, u) ∉ (R 0).sel := fun hh => (h.2.1 _ (hpair hsel _ hh)).2.2 rfl
      have n2 : (π u, π u) ∉ (R' 0).sel := fun hh => (h'.2.1 _ (hpair hsel' _ hh)).2.2 rfl
      simp [n1, n2]
    · obtain ⟨e, he, e1, e2⟩ := Proofs.edge_of_mem (h.2.2 u hu v hv huv)
      have m1 := hmem h.1 hsel e he
      have m2 := hmem h'.1 hsel' (ρ e) (hE e he)
      rw [hρ.src e he, hρ.dst e he, e1, e2] at m2
      rw [e1, e2] at m1
      rw [m1, m2]
      exact not_congr (habove e he)
  · obtain ⟨q, ⟨L, l1, l2, l3, l4⟩, hq⟩ := (g8 hd).2
    obtain ⟨q', ⟨L', m1, m2, m3, m4⟩, hq'⟩ := (g8' hd').2
    refine ⟨q, hq, ?_⟩
    rw [hq', m4, l4]
    have hperm : L'.Perm (L.map ρ) := by
      have hnd : (L.map ρ).Nodup := (List.nodup_map_iff_inj_on (l1.imp fun h => Nat.ne_of_lt h)).mpr fun x hx y hy =>
        hρ.place_inj x ((l2 x).mp hx).1 y ((l2 y).mp hy).1
      refine (List.perm_ext_iff_of_nodup (m1.imp fun h => Nat.ne_of_lt h) hnd).mpr fun d => ?_
      rw [m2, List.mem_map]
      constructor
      · rintro ⟨d1, d2⟩
        rw [hρ.length] at d1
        obtain ⟨e, he, rfl⟩ := Proofs.place_surj hρ d d1
        exact ⟨e, (l2 e).mpr ⟨he, fun hh => d2 ((habove e he).mpr hh)⟩, rfl⟩
      · rintro ⟨e, he, rfl⟩
        obtain ⟨e1, e2⟩ := (l2 e).mp he
        exact ⟨hE e e1, fun hh => e2 ((habove e e1).mp hh)⟩
    rw [(hperm.map _).sum_eq, List.map_map, ← List.sum_map_mul_left]
    congr 2
    refine List.map_congr_left fun e he => ?_
    have e1 := ((l2 e).mp he).1
    simp only [Function.comp]
    rw [hρ.src e e1, hρ.dst e e1, hC _ (Proofs.src_lt h.2.1 e1) _ (Proofs.dst_lt h.2.1 e1)]
end

/-- The instance of C46 in units of a third. -/
def thirdInputs : TspInputs := { c46Inputs with
  cost := ⟨12, fun e => fin (3 * c46Cost (src k4 e) (dst k4 e))⟩
  costMatrix := ⟨4, 4, fun u v => fin (3 * c46Cost u v)⟩
  degCost := ⟨12, 4, fun e v => fin (3 * (if v = src k4 e ∨ v = dst k4 e then c46Cost (src k4 e) (dst k4 e) else 0))⟩ }
/-- Its hypotheses hold. -/
example : TspOk thirdInputs (fun e => 3 * c46Cost (src k4 e) (dst k4 e))
    (fun e v => 3 * (if v = src k4 e ∨ v = dst k4 e then c46Cost (src k4 e) (dst k4 e) else 0)) ∧
    thirdInputs.costMatrix.Is 4 4 (fun u v => 3 * c46Cost u v) :=
  ⟨⟨by unfold EdgesOk; decide, rfl, by unfold TwoWays; decide, ⟨rfl, fun _ _ => rfl⟩, ⟨rfl, rfl, fun _ _ _ _ => rfl⟩⟩,
    ⟨rfl, rfl, fun _ _ _ _ => rfl⟩⟩
/-- Several rounds, and the same tour at three times the cost. -/
example : ((tspSolve (tspSetup c46Inputs 2 true true (fin (-1 / 10)) 3 10 someOrder) 20 (tspStart c46Inputs c46Inputs.degCost)).map
    (Option.map fun st => (st.numAugm, st.an.tour, st.selected)) =
    (tspSolve (tspSetup thirdInputs 2 true true (fin (-3 / 10)) 3 10 someOrder) 20 (tspStart thirdInputs thirdInputs.degCost)).map
    (Option.map fun st => (st.numAugm, st.an.tour, st.selected))) := by decide +kernel
set_option synthInstance.maxSize 1000 in
example : (tspSolve (tspSetup thirdInputs 2 true true (fin (-3 / 10)) 3 10 someOrder) 20 (tspStart thirdInputs thirdInputs.degCost)).map
    (Option.map fun st => (st.numAugm, st.cost, st.intr.toList.take 2)) = some (some (5, fin 18, [fin (-45 / 4), fin (15 / 4)])) := by decide +kernel

/-- The costs of C49 (two cycles), with nodes renamed and multiplied by 2. -/
def renamedCosts (u v : ℕ) : ℚ := (([[0, 16, 2, 14, 18], [14, 0, 18, 2, 16], [2, 14, 0, 18, 16], [16, 18, 14, 0, 2], [18, 4, 16, 18, 0]] :
  List (List ℚ)).getD u []).getD v 0
/-- The new names. -/
def newName (v : ℕ) : ℕ := [2, 0, 3, 4, 1].getD v 0
example : ∀ u < 5, ∀ v < 5, renamedCosts (newName u) (newName v) = 2 * cycleCosts u v := by decide +kernel
/-- Settings without augmentation, with threshold `θ`. -/
def plainSettings (θ : ℚ) : TspSettings := { callSettings false with augmentation := false, thr := fin θ }
example : (runImpa (plainSettings (-1 / 10)) someOrder 8 10 5 (Mat.ofRat 5 5 cycleCosts) (nonzeroEdges (Mat.ofRat 5 5 cycleCosts))).map
    (Option.map fun p => (p.1.selected, p.1.cost, p.2)) = some (some ([(0, 1), (1, 0), (2, 3), (3, 4), (4, 2)], fin 6, false)) := by
  decide +kernel
example : (runImpa (plainSettings (-2 / 10)) someOrder 8 10 5 (Mat.ofRat 5 5 renamedCosts) (nonzeroEdges (Mat.ofRat 5 5 renamedCosts)).reverse).map
    (Option.map fun p => (p.1.selected, p.1.cost, p.2)) = some (some ([(4, 1), (3, 4), (2, 0), (1, 3), (0, 2)], fin 12, false)) := by
  decide +kernel

end Verif.Properties
