import Verif.Proofs.Param
import Mathlib.Data.Finset.Range
import Mathlib.Order.Filter.Finite

/-! The functions of the rounded TSP model are related to those of the exact model. -/

namespace Verif.Proofs
open Verif Num Filter Model

variable {ι : Type} {l : Filter ι} {r : ι → ℚ → Num} {R : Num → (ι → Num) → Prop}

section scan
variable (hR : Calc l r R) {f : ℕ → Option Num} {g : ι → ℕ → Option Num}
include hR

theorem rel_scanFwd (hf : ∀ e, RelO l R (f e) (fun i => g i e)) (L : List ℕ) {a : Arr Num} {b : ι → Arr Num} (h : RelArr l R a b) :
    RelO l (RelArr l R) (scanFwd f L a) (fun i => scanFwd (g i) L (b i)) := by
  refine RelO.bind_same fun _ _ => ?_
  refine (h.wr _ hR.pinf).bind fun a b _ hab => ?_
  refine RelO.loopUp hab fun k _ a b hab => ?_
  refine RelO.bind_same fun _ _ => RelO.bind_same fun _ _ => ?_
  refine (hab.rd _).bind fun x y _ hxy => ?_
  exact (hf _).bind fun x' y' _ hxy' => hab.wr _ (hR.cmin hxy hxy')

theorem rel_scanBwd (hf : ∀ e, RelO l R (f e) (fun i => g i e)) (L : List ℕ) {a : Arr Num} {b : ι → Arr Num} (h : RelArr l R a b) :
    RelO l (RelArr l R) (scanBwd f L a) (fun i => scanBwd (g i) L (b i)) := by
  refine RelO.bind_same fun _ _ => ?_
  refine (h.wr _ hR.pinf).bind fun a b _ hab => ?_
  refine RelO.loopDown hab fun k _ a b hab => ?_
  refine RelO.bind_same fun _ _ => RelO.bind_same fun _ _ => ?_
  refine (hab.rd _).bind fun x y _ hxy => ?_
  exact (hf _).bind fun x' y' _ hxy' => hab.wr _ (hR.cmin hxy hxy')

end scan

section shared
variable {m m' : Mat Num} {u u' : ι → Mat Num}

theorem rel_flipMatrix (edges : List (ℕ × ℕ)) (h : RelMat l R m u) (h' : RelMat l R m' u') :
    RelO l (RelMat l R) (flipMatrix m edges m') (fun i => flipMatrix (u i) edges (u' i)) := by
  refine RelO.loopUp h' fun k _ a b hab => ?_
  refine RelO.bind_same fun e _ => ?_
  refine (h.rd _ _).bind fun x y _ hxy => ?_
  refine (hab.wr _ _ hxy).bind fun a b _ hab => ?_
  exact (h.rd _ _).bind fun x y _ hxy => hab.wr _ _ hxy

theorem rel_tspReset (inp : TspInputs) {c : ι → Arr Num} {cm dc : ι → Mat Num} (hcm : RelMat l R inp.costMatrix cm) (h : RelMat l R m u) :
    RelO l (RelMat l R) (tspReset inp m) (fun i => tspReset { inp with cost := c i, costMatrix := cm i, degCost := dc i } (u i)) := by
  refine RelO.loopUp h fun k _ s t hst => ?_
  refine RelO.bind_same fun e _ => (hcm.rd _ _).bind fun x y _ hxy => ?_
  exact (hst.wr _ _ hxy).bind fun s t _ hst => hst.wr _ _ hxy

variable (hR : Calc l r R)
include hR

theorem rel_degreeGroup (h : RelMat l R m u) (node : ℕ) (L : List ℕ) {s : Arr Num × Arr Num × Mat Num} {t : ι → Arr Num × Arr Num × Mat Num}
    (hst : RelP (RelArr l R) (RelP (RelArr l R) (RelMat l R)) s t) :
    RelO l (RelP (RelArr l R) (RelP (RelArr l R) (RelMat l R))) (degreeGroup m node L s) (fun i => degreeGroup (u i) node L (t i)) := by
  refine (rel_scanFwd hR (fun e => h.rd e node) L hst.1).bind fun a b _ hab => ?_
  refine (rel_scanBwd hR (fun e => h.rd e node) L hst.2.1).bind fun a' b' _ hab' => ?_
  refine RelO.bind (R := RelMat l R) (RelO.loopList hst.2.2 fun c _ x y hxy => ?_) fun x y _ hxy => RelO.some ⟨hab, hab', hxy⟩
  refine (hab.rd _).bind fun p q _ hpq => ?_
  exact (hab'.rd _).bind fun p' q' _ hpq' => hxy.wr _ _ (hR.neg (hR.cmin hpq hpq'))

theorem rel_degreeUpdate (n k : ℕ) (edges : List (ℕ × ℕ)) (h : RelMat l R m u) (h' : RelMat l R m' u') :
    RelO l (RelMat l R) (degreeUpdate n k m edges m') (fun i => degreeUpdate n k (u i) edges (u' i)) := by
  refine RelO.bind (R := RelP (RelArr l R) (RelP (RelArr l R) (RelMat l R)))
    (RelO.loopUp ⟨RelArr.fill hR.zero _, RelArr.fill hR.zero _, h'⟩ fun c _ s t hst => ?_) fun s t _ hst => RelO.some hst.2.2
  refine (rel_degreeGroup hR h c _ hst).bind fun s t _ hst => ?_
  refine rel_degreeGroup hR h c _ ⟨⟨hst.1.size, fun _ _ => hR.zero⟩, ⟨hst.2.1.size, fun _ _ => hR.zero⟩, hst.2.2⟩

theorem rel_subtourUpdate (k : ℕ) (deltas : List (List ℕ)) (h : RelMat l R m u) (h' : RelMat l R m' u') :
    RelO l (RelMat l R) (subtourUpdate k m deltas m') (fun i => subtourUpdate k (u i) deltas (u' i)) := by
  refine RelO.bind (R := RelP (RelArr l R) (RelP (RelArr l R) (RelMat l R)))
    (RelO.loopUp ⟨RelArr.fill hR.zero _, RelArr.fill hR.zero _, h'⟩ fun c _ s t hst => ?_) fun s t _ hst => RelO.some hst.2.2
  refine RelO.bind_same fun L _ => ?_
  refine (rel_scanFwd hR (fun e => h.rd c e) L hst.1).bind fun a b _ hab => ?_
  refine (rel_scanBwd hR (fun e => h.rd c e) L hst.2.1).bind fun a' b' _ hab' => ?_
  refine RelO.bind (R := RelMat l R) (RelO.loopList hst.2.2 fun c _ x y hxy => ?_) fun x y _ hxy => RelO.some ⟨hab, hab', hxy⟩
  refine (hab.rd _).bind fun p q _ hpq => ?_
  exact (hab'.rd _).bind fun p' q' _ hpq' => hxy.wr _ _ (hR.cmin (hR.neg (hR.cmin hpq hpq')) hR.zero)

theorem RelMat.pushZeros (h : RelMat l R m u) (k : ℕ) : RelMat l R (Mat.pushZeros k m) (fun i => Mat.pushZeros k (u i)) := by
  refine ⟨?_, h.cols, fun x _ y hy => ?_⟩
  · filter_upwards [h.rows] with i e; simp only [Mat.pushZeros, e]
  · simp only [Mat.pushZeros] at hy ⊢
    by_cases hx : x < m.rows
    · simp only [if_pos hx]
      refine hR.congr (h.data x hx y hy) ?_
      filter_upwards [h.rows] with i e; rw [if_pos (by rw [e]; exact hx)]
    · simp only [if_neg hx]
      refine hR.congr hR.zero ?_
      filter_upwards [h.rows] with i e; rw [if_neg (by rw [e]; exact hx)]

theorem RelMat.anyNan (h : RelMat l R m u) (hm : Model.anyNan m = false) : ∀ᶠ i in l, Model.anyNan (u i) = false := by
  have hcells : ∀ x < m.rows, ∀ y < m.cols, ∀ᶠ i in l, (u i).data x y ≠ nan := by
    intro x hx y hy
    refine hR.ne (h.data x hx y hy) ?_
    simp only [Model.anyNan, List.any_eq_false, List.mem_range] at hm
    have := hm x hx
    simp only [List.any_eq_true, List.mem_range, not_exists, not_and] at this
    simpa using this y hy
  have hall : ∀ᶠ i in l, ∀ x < m.rows, ∀ y < m.cols, (u i).data x y ≠ nan := by
    have h1 : ∀ᶠ i in l, ∀ x ∈ Finset.range m.rows, ∀ y ∈ Finset.range m.cols, (u i).data x y ≠ nan := by
      rw [Filter.eventually_all_finset]
      intro x hx
      rw [Filter.eventually_all_finset]
      intro y hy
      exact hcells x (Finset.mem_range.mp hx) y (Finset.mem_range.mp hy)
    filter_upwards [h1] with i hi x hx y hy using hi x (Finset.mem_range.mpr hx) y (Finset.mem_range.mpr hy)
  filter_upwards [hall, h.rows, h.cols] with i h1 h2 h3
  simp only [Model.anyNan, List.any_eq_false, List.mem_range, h2, h3]
  intro x hx
  simp only [List.any_eq_true, List.mem_range, not_exists, not_and]
  intro y hy
  simpa using h1 x hx y hy

end shared

section rounded
variable (hR : Calc l r R) {a a' a'' : Arr Num} {b b' b'' : ι → Arr Num} {m m' m'' : Mat Num} {u u' u'' : ι → Mat Num}
  {c : Arr Num} {d : ι → Arr Num} {cc : Mat Num} {dd : ι → Mat Num}
include hR

theorem rel_filterRow {flag : Bool} {alpha : ℚ} (hd : Damps r R flag alpha) (iter : ℕ) (h : RelArr l R a b) (h' : RelArr l R a' b')
    (h'' : RelArr l R a'' b'') :
    RelO l (RelP (RelArr l R) (RelArr l R)) (filterRow flag alpha iter a a' a'') (fun i => Rounded.filterRow (r i) flag alpha iter (b i) (b' i) (b'' i)) := by
  unfold filterRow Rounded.filterRow
  by_cases hf : flag ∧ alpha ≠ 0
  · simp only [if_pos hf]
    have hw : RelArr l R (Arr.scale (fin (1 - alpha)) a) (fun i => Rounded.scale (r i) (r i (1 - alpha)) (b i)) :=
      ⟨h.size, fun k hk => (hd hf.1 hf.2 _ _ (h.data k hk)).1⟩
    have ho : RelArr l R (Arr.scale (fin alpha) a'') (fun i => Rounded.scale (r i) (fin alpha) (b'' i)) :=
      ⟨h''.size, fun k hk => (hd hf.1 hf.2 _ _ (h''.data k hk)).2⟩
    by_cases hi : iter = 0
    · simp only [if_pos hi]
      exact (hw.copyTo hR h').bind fun x y _ hxy => (hxy.copyTo hR h'').bind fun x' y' _ hxy' => RelO.some ⟨hxy, hxy'⟩
    · simp only [if_neg hi]
      refine (hw.addTo hR ho (a'' := Arr.fill a.size 0) (b'' := fun i => Arr.fill (b i).size 0) ⟨hw.size, fun _ _ => hR.zero⟩).bind fun x y _ hxy => ?_
      exact (hxy.copyTo hR h').bind fun x y _ hxy => (hxy.copyTo hR h'').bind fun x' y' _ hxy' => RelO.some ⟨hxy, hxy'⟩
  · simp only [if_neg hf]
    exact (h.copyTo hR h').bind fun x y _ hxy => RelO.some ⟨hxy, h''⟩

theorem rel_filterAt {flag : Bool} {alpha : ℚ} (hd : Damps r R flag alpha) (iter : ℕ) (h : RelMat l R m u) (e : ℕ) {s : Mat Num × Mat Num}
    {t : ι → Mat Num × Mat Num} (hst : RelP (RelMat l R) (RelMat l R) s t) :
    RelO l (RelP (RelMat l R) (RelMat l R)) (filterAt flag alpha iter m e s) (fun i => Rounded.filterAt (r i) flag alpha iter (u i) e (t i)) := by
  refine (h.rdRow e).bind fun a b _ hab => ?_
  refine (hst.1.rdRow e).bind fun a' b' _ hab' => ?_
  refine (hst.2.rdRow e).bind fun a'' b'' _ hab'' => ?_
  refine (rel_filterRow hR hd iter hab hab' hab'').bind fun p q _ hpq => ?_
  refine (hst.1.wrRow e hpq.1).bind fun x y _ hxy => ?_
  exact (hst.2.wrRow e hpq.2).bind fun x' y' _ hxy' => RelO.some ⟨hxy, hxy'⟩

theorem rel_processFiltering {flag : Bool} {alpha : ℚ} (hd : Damps r R flag alpha) (rows iter : ℕ) (h : RelMat l R m u) {s : Mat Num × Mat Num}
    {t : ι → Mat Num × Mat Num} (hst : RelP (RelMat l R) (RelMat l R) s t) :
    RelO l (RelP (RelMat l R) (RelMat l R)) (processFiltering rows flag alpha iter m s)
      (fun i => Rounded.processFiltering (r i) rows flag alpha iter (u i) (t i)) :=
  RelO.loopUp hst fun e _ _ _ hst => rel_filterAt hR hd iter h e hst

theorem rel_addRows (h : RelMat l R m u) (h' : RelArr l R a b) : RelO l (RelArr l R) (addRows m a) (fun i => Rounded.addRows (r i) (u i) (b i)) := by
  refine RelO.loopUp' h.rows h' fun c _ x y hxy => ?_
  exact (h.rdRow c).bind fun x' y' _ hxy' => hxy.addTo hR hxy' hxy

theorem rel_addRowsL (h : RelMat l R m u) (h' : RelArr l R a b) : RelO l (RelArr l R) (addRowsL m a) (fun i => Rounded.addRowsL (r i) (u i) (b i)) := by
  refine RelO.loopUp' h.rows h' fun c _ x y hxy => ?_
  exact (h.rdRow c).bind fun x' y' _ hxy' => hxy'.addTo hR hxy hxy

theorem rel_edgeToDegreeRelaxed (n : ℕ) (edges : List (ℕ × ℕ)) (hc : RelMat l R cc dd) (h : RelMat l R m u) (h' : RelMat l R m' u') :
    RelO l (RelMat l R) (edgeToDegreeRelaxed n edges cc m m') (fun i => Rounded.edgeToDegreeRelaxed (r i) n edges (dd i) (u i) (u' i)) := by
  refine (rel_flipMatrix edges h h).bind fun x y _ hxy => ?_
  refine RelO.loopUp h' fun e _ s t hst => ?_
  refine (hxy.rdRow e).bind fun a b _ hab => (hc.rdRow e).bind fun c d _ hcd => ?_
  refine (hst.rdRow e).bind fun a' b' _ hab' => ?_
  exact (hab.addTo hR hcd hab').bind fun _ _ _ hrow => hst.wrRow e hrow

theorem rel_combineDegree (n : ℕ) (edges : List (ℕ × ℕ)) (h : RelMat l R m u) :
    RelO l (RelArr l R) (combineDegree n edges m) (fun i => Rounded.combineDegree (r i) n edges (u i)) := by
  refine RelO.loopUp (RelArr.fill hR.zero _) fun e _ s t hst => RelO.bind_same fun c _ => ?_
  refine (h.rd _ _).bind fun x y _ hxy => ?_
  exact (h.rd _ _).bind fun x' y' _ hxy' => hst.wr _ (hR.add hxy hxy')

theorem rel_edgeToSubtour (n : ℕ) (deltas : List (List ℕ)) (hc : RelArr l R c d) (edges : List (ℕ × ℕ)) (h : RelMat l R m u) (h' : RelMat l R m' u') :
    RelO l (RelMat l R) (edgeToSubtour n deltas c m m' edges) (fun i => Rounded.edgeToSubtour (r i) n deltas (d i) (u i) (u' i) edges) := by
  have hempty : RelMat l R (⟨0, n, fun _ _ => 0⟩ : Mat Num) (fun _ => ⟨0, n, fun _ _ => 0⟩) :=
    ⟨Eventually.of_forall fun _ => rfl, Eventually.of_forall fun _ => rfl, fun _ _ _ _ => hR.zero⟩
  unfold edgeToSubtour Rounded.edgeToSubtour
  by_cases hd : deltas.length = 1
  · simp only [if_pos hd]
    refine (rel_combineDegree hR n edges h).bind fun a b _ hab => RelO.bind_same fun L _ => ?_
    refine RelO.bind (R := RelArr l R) (RelO.loopList (RelArr.fill hR.zero _) fun e _ s t hst => ?_) fun s t _ hst => hempty.pushRow hR hst
    refine (hab.rd _).bind fun x y _ hxy => (hc.rd _).bind fun x' y' _ hxy' => ?_
    exact hst.wr _ (hR.add hxy hxy')
  · simp only [if_neg hd]
    refine (rel_addRows hR h' (RelArr.fill hR.zero _)).bind fun a' b' _ hab' => ?_
    refine (rel_combineDegree hR n edges h).bind fun a b _ hab => ?_
    refine RelO.loopUp hempty fun k _ s t hst => RelO.bind_same fun L _ => ?_
    refine RelO.bind (R := RelArr l R) (RelO.loopList (RelArr.fill hR.zero _) fun e _ s t hst => ?_) fun s' t' _ hst' => hst.pushRow hR hst'
    refine (hab'.rd _).bind fun x y _ hxy => ?_
    refine (hab.rd _).bind fun x' y' _ hxy' => (hc.rd _).bind fun p q _ hpq => ?_
    refine (h'.rd _ _).bind fun x'' y'' _ hxy'' => ?_
    exact hst.wr _ (hR.sub (hR.add (hR.add hxy hxy') hpq) hxy'')

theorem rel_edgeToDegreeAugmented (n : ℕ) (edges : List (ℕ × ℕ)) (hc : RelMat l R cc dd) (h : RelMat l R m u) (h' : RelMat l R m' u')
    (h'' : RelMat l R m'' u'') :
    RelO l (RelMat l R) (edgeToDegreeAugmented n m m' edges cc m'')
      (fun i => Rounded.edgeToDegreeAugmented (r i) n (u i) (u' i) edges (dd i) (u'' i)) := by
  refine (rel_addRows hR h' (RelArr.fill hR.zero _)).bind fun a' b' _ hab' => ?_
  refine RelO.loopUp h'' fun k _ s t hst => RelO.bind_same fun e _ => ?_
  refine (hab'.rd _).bind fun x y _ hxy => ?_
  refine (h.rd _ _).bind fun x' y' _ hxy' => (hc.rd _ _).bind fun p q _ hpq => ?_
  refine (hst.wr _ _ (hR.add (hR.add hxy hxy') hpq)).bind fun s t _ hst => ?_
  refine (h.rd _ _).bind fun x' y' _ hxy' => (hc.rd _ _).bind fun p q _ hpq => ?_
  exact hst.wr _ _ (hR.add (hR.add hxy hxy') hpq)

end rounded

/-- Related message tables. -/
structure RelMsgs (l : Filter ι) (R : Num → (ι → Num) → Prop) (m : TspMsgs) (u : ι → TspMsgs) : Prop where
  e2d : RelMat l R m.e2d (fun i => (u i).e2d)
  degDummy : RelMat l R m.degDummy (fun i => (u i).degDummy)
  deg : RelMat l R m.deg (fun i => (u i).deg)
  degOld : RelMat l R m.degOld (fun i => (u i).degOld)
  e2s : RelMat l R m.e2s (fun i => (u i).e2s)
  s2e : RelMat l R m.s2e (fun i => (u i).s2e)
  subDummy : RelMat l R m.subDummy (fun i => (u i).subDummy)
  subOld : RelMat l R m.subOld (fun i => (u i).subOld)

/-- Related inputs: the same graph, related costs. -/
structure RelInputs (l : Filter ι) (R : Num → (ι → Num) → Prop) (inp : TspInputs) (J : ι → TspInputs) : Prop where
  shape : ∀ i, J i = { inp with cost := (J i).cost, costMatrix := (J i).costMatrix, degCost := (J i).degCost }
  cost : RelArr l R inp.cost (fun i => (J i).cost)
  costMatrix : RelMat l R inp.costMatrix (fun i => (J i).costMatrix)
  degCost : RelMat l R inp.degCost (fun i => (J i).degCost)

section rounds
variable (hR : Calc l r R) {a a' : Arr Num} {b b' : ι → Arr Num} {m m' : Mat Num} {u u' : ι → Mat Num} {inp : TspInputs}
  {J : ι → TspInputs} {M : TspMsgs} {U : ι → TspMsgs}
include hR

theorem rel_tspRelaxedIter (hJ : RelInputs l R inp J) (hd : Damps r R inp.flag inp.alpha) (iter : ℕ) (h : RelMsgs l R M U) :
    RelO l (RelMsgs l R) (tspRelaxedIter inp iter M) (fun i => Rounded.tspRelaxedIter (r i) (J i) iter (U i)) := by
  rw [show (fun i => Rounded.tspRelaxedIter (r i) (J i) iter (U i)) = fun i => Rounded.tspRelaxedIter (r i)
    { inp with cost := (J i).cost, costMatrix := (J i).costMatrix, degCost := (J i).degCost } iter (U i) from funext fun i => by rw [← hJ.shape i]]
  refine (rel_degreeUpdate hR _ _ _ h.e2d h.degDummy).bind fun x y _ hdd => ?_
  refine (rel_processFiltering hR hd _ _ hdd (s := (M.deg, M.degOld)) (t := fun i => ((U i).deg, (U i).degOld)) ⟨h.deg, h.degOld⟩).bind fun p q _ hpq => ?_
  exact (rel_edgeToDegreeRelaxed hR _ _ hJ.degCost hpq.1 h.e2d).bind fun x y _ he =>
    RelO.some ⟨he, hdd, hpq.1, hpq.2, h.e2s, h.s2e, h.subDummy, h.subOld⟩

theorem rel_tspAugmentedIter (hJ : RelInputs l R inp J) (hd : Damps r R inp.flag inp.alpha) (deltas : List (List ℕ)) (iter : ℕ) (h : RelMsgs l R M U) :
    RelO l (RelMsgs l R) (tspAugmentedIter inp deltas iter M) (fun i => Rounded.tspAugmentedIter (r i) (J i) deltas iter (U i)) := by
  rw [show (fun i => Rounded.tspAugmentedIter (r i) (J i) deltas iter (U i)) = fun i => Rounded.tspAugmentedIter (r i)
    { inp with cost := (J i).cost, costMatrix := (J i).costMatrix, degCost := (J i).degCost } deltas iter (U i) from funext fun i => by rw [← hJ.shape i]]
  refine (rel_degreeUpdate hR _ _ _ h.e2d h.degDummy).bind fun x y _ hdd => ?_
  refine (rel_processFiltering hR hd _ _ hdd (s := (M.deg, M.degOld)) (t := fun i => ((U i).deg, (U i).degOld)) ⟨h.deg, h.degOld⟩).bind fun p q _ hpq => ?_
  refine (rel_edgeToSubtour hR _ _ hJ.cost _ hpq.1 h.s2e).bind fun x y _ he => ?_
  refine (rel_subtourUpdate hR _ _ he h.subDummy).bind fun x y _ hs => ?_
  refine (rel_processFiltering hR hd _ _ hs (s := (M.s2e, M.subOld)) (t := fun i => ((U i).s2e, (U i).subOld)) ⟨h.s2e, h.subOld⟩).bind fun p' q' _ hpq' => ?_
  exact (rel_edgeToDegreeAugmented hR _ _ hJ.degCost hpq.1 hpq'.1 h.e2d).bind fun x y _ he' =>
    RelO.some ⟨he', hdd, hpq.1, hpq.2, he, hpq'.1, hs, hpq'.2⟩

theorem rel_rowSum (h : RelMat l R m u) (e : ℕ) : RelO l R (rowSum m e) (fun i => Rounded.rowSum (r i) (u i) e) :=
  RelO.loopUp' h.cols hR.zero fun _ _ _ _ hst => (h.rd _ _).bind fun _ _ _ hxy => RelO.some (hR.add hst hxy)

theorem rel_tspExtrinsicRelaxed (h : RelMat l R m u) (h' : RelArr l R a b) :
    RelO l (RelArr l R) (tspExtrinsicRelaxed m a) (fun i => Rounded.tspExtrinsicRelaxed (r i) (u i) (b i)) :=
  RelO.loopUp' h.rows h' fun e _ _ _ hst => (rel_rowSum hR h e).bind fun _ _ _ hxy => hst.wr _ hxy

theorem rel_tspExtrinsicAugmented (h : RelMat l R m u) (h' : RelMat l R m' u') (ha : RelArr l R a b) :
    RelO l (RelArr l R) (tspExtrinsicAugmented m m' a) (fun i => Rounded.tspExtrinsicAugmented (r i) (u i) (u' i) (b i)) :=
  (rel_tspExtrinsicRelaxed hR h ha).bind fun _ _ _ hxy => rel_addRowsL hR h' hxy

theorem rel_tspRelaxed (hJ : RelInputs l R inp J) (hd : Damps r R inp.flag inp.alpha) (numIter : ℕ) (h : RelMsgs l R M U) {o : Arr Num × Arr Num}
    {o' : ι → Arr Num × Arr Num} (ho : RelP (RelArr l R) (RelArr l R) o o') :
    RelO l (RelP (RelMsgs l R) (RelP (RelArr l R) (RelArr l R))) (tspRelaxed inp numIter M o) (fun i => Rounded.tspRelaxed (r i) (J i) numIter (U i) (o' i)) := by
  refine RelO.bind (R := RelMsgs l R) (RelO.loopUp h fun k _ s t hst => rel_tspRelaxedIter hR hJ hd k hst) fun s t _ hst => ?_
  refine (rel_tspExtrinsicRelaxed hR hst.deg ho.1).bind fun x y _ hxy => ?_
  exact RelO.bind (R := RelArr l R) (hxy.addTo hR hJ.cost ho.2) fun x' y' _ hxy' => RelO.some ⟨hst, hxy, hxy'⟩

theorem rel_tspAugmented (hJ : RelInputs l R inp J) (hd : Damps r R inp.flag inp.alpha) (reset : Bool) (deltas : List (List ℕ)) (numIter : ℕ)
    (h : RelMsgs l R M U) {o : Arr Num × Arr Num} {o' : ι → Arr Num × Arr Num} (ho : RelP (RelArr l R) (RelArr l R) o o') :
    RelO l (RelP (RelMsgs l R) (RelP (RelArr l R) (RelArr l R))) (tspAugmented inp reset deltas numIter M o)
      (fun i => Rounded.tspAugmented (r i) (J i) reset deltas numIter (U i) (o' i)) := by
  have key : ∀ (x : Mat Num) (y : ι → Mat Num), RelMat l R x y → RelO l (RelP (RelMsgs l R) (RelP (RelArr l R) (RelArr l R)))
      ((loopUp numIter (tspAugmentedIter inp deltas) { M with e2d := x, subOld := Mat.pushZeros deltas.length M.subOld }).bind fun m =>
        if anyNan m.e2d = true then none else (tspExtrinsicAugmented m.deg m.s2e o.1).bind fun ext =>
          (tspIntrinsic ext inp.cost o.2).bind fun intr => some (m, ext, intr))
      (fun i => (loopUp numIter (Rounded.tspAugmentedIter (r i) (J i) deltas)
        { U i with e2d := y i, subOld := Mat.pushZeros deltas.length (U i).subOld }).bind fun m =>
        if anyNan m.e2d = true then none else (Rounded.tspExtrinsicAugmented (r i) m.deg m.s2e (o' i).1).bind fun ext =>
          (Rounded.tspIntrinsic (r i) ext (J i).cost (o' i).2).bind fun intr => some (m, ext, intr)) := by
    intro x y hxy
    refine RelO.bind (R := RelMsgs l R) (RelO.loopUp (s := { M with e2d := x, subOld := Mat.pushZeros deltas.length M.subOld })
      (t := fun i => { U i with e2d := y i, subOld := Mat.pushZeros deltas.length (U i).subOld })
      ⟨hxy, h.degDummy, h.deg, h.degOld, h.e2s, h.s2e, h.subDummy, h.subOld.pushZeros hR _⟩
      fun k _ s t hst => rel_tspAugmentedIter hR hJ hd deltas k hst)
      fun s t _ hst => ?_
    cases hn : anyNan s.e2d
    · simp only [Bool.false_eq_true, if_false]
      refine RelO.congr (y := fun i => (Rounded.tspExtrinsicAugmented (r i) (t i).deg (t i).s2e (o' i).1).bind fun ext =>
        (Rounded.tspIntrinsic (r i) ext (J i).cost (o' i).2).bind fun intr => some (t i, ext, intr)) ?_ ?_
      · refine (rel_tspExtrinsicAugmented hR hst.deg hst.s2e ho.1).bind fun x y _ hxy => ?_
        exact RelO.bind (R := RelArr l R) (hxy.addTo hR hJ.cost ho.2) fun x' y' _ hxy' => RelO.some ⟨hst, hxy, hxy'⟩
      · filter_upwards [hst.e2d.anyNan hR hn] with i hi
        rw [hi]; rfl
    · simp only [if_true]; exact RelO.none
  cases reset
  · exact key M.e2d (fun i => (U i).e2d) h.e2d
  · refine RelO.bind (R := RelMat l R) (y := fun i => tspReset (J i) (U i).e2d) ?_ fun x y _ hxy => key x y hxy
    rw [show (fun i => tspReset (J i) (U i).e2d) = fun i => tspReset
      { inp with cost := (J i).cost, costMatrix := (J i).costMatrix, degCost := (J i).degCost } (U i).e2d from funext fun i => by rw [← hJ.shape i]]
    exact rel_tspReset inp (c := fun i => (J i).cost) (dc := fun i => (J i).degCost) hJ.costMatrix h.e2d

end rounds

end Verif.Proofs
