import Verif.Model.RoundedKc
import Verif.Proofs.ParamKsat

/-! The functions of the rounded assignment model are related to those of the exact model. -/

namespace Verif.Proofs
open Verif Num Filter Model

variable {ι : Type} {l : Filter ι} {r : ι → ℚ → Num} {R : Num → (ι → Num) → Prop}

/-- Lists built in the same way from related numbers. -/
inductive RelS (l : Filter ι) (R : Num → (ι → Num) → Prop) : List Num → (ι → List Num) → Prop
  | nil {L' : ι → List Num} : (∀ᶠ i in l, L' i = []) → RelS l R [] L'
  | snoc {L : List Num} {M L' : ι → List Num} {x : Num} {y : ι → Num} : RelS l R L M → R x y → (∀ᶠ i in l, L' i = M i ++ [y i]) → RelS l R (L ++ [x]) L'

theorem minElement_snoc (L : List Num) (x : Num) :
    minElement (L ++ [x]) = some (match minElement L with | none => x | some a => cmin a x) := by
  cases L with
  | nil => rfl
  | cons y L => simp [minElement, List.foldl_append]

theorem minElement_ne {L : List Num} (h : L ≠ []) : ∃ a, minElement L = some a := by
  cases L with
  | nil => exact absurd rfl h
  | cons y L => exact ⟨_, rfl⟩

theorem RelS.empty {L : List Num} {L' : ι → List Num} (h : RelS l R L L') : L = [] → ∀ᶠ i in l, L' i = [] := by
  intro e
  cases h with
  | nil h => exact h
  | snoc => simp at e

theorem rel_minElement (hR : Calc l r R) {L : List Num} {L' : ι → List Num} (h : RelS l R L L') :
    RelO l R (minElement L) (fun i => minElement (L' i)) := by
  induction h with
  | nil => exact RelO.none
  | @snoc L M L' x y hL hxy he ih =>
    by_cases hn : L = []
    · subst hn
      refine RelO.congr (RelO.some hxy) ?_
      filter_upwards [he, hL.empty rfl] with i e1 e2
      rw [e1, e2]; rfl
    · obtain ⟨a, ha⟩ := minElement_ne hn
      obtain ⟨b, h1, h2⟩ := ih a ha
      rw [minElement_snoc, ha]
      refine RelO.congr (RelO.some (hR.cmin h2 hxy)) ?_
      filter_upwards [he, h1] with i e1 e2
      rw [e1, minElement_snoc, e2]

/-- Weights that read the same on both sides. -/
def RelW (w : Arr ℕ) (w' : ι → Arr ℕ) : Prop := ∀ i, (w' i).size = w.size ∧ ∀ k, (w' i).rd k = w.rd k

section knap
variable (hR : Calc l r R) {w : Arr ℕ} {w' : ι → Arr ℕ} (hw : RelW w w') {m : Arr Num} {m' : ι → Arr Num} (hm : RelArr l R m m')
include hR

omit hR in
theorem rel_fillUp (lo hi : ℕ) {a : Arr Num} {b : ι → Arr Num} (h : RelArr l R a b) {s : Mat Num} {t : ι → Mat Num} (hs : RelMat l R s t) :
    RelO l (RelMat l R) (fillUp lo hi a s) (fun i => fillUp lo hi (b i) (t i)) :=
  RelO.loopUp hs fun _ _ _ _ hab => hab.wrRow _ h

omit hR in
theorem rel_fillDown (hi lo : ℕ) {a : Arr Num} {b : ι → Arr Num} (h : RelArr l R a b) {s : Mat Num} {t : ι → Mat Num} (hs : RelMat l R s t) :
    RelO l (RelMat l R) (fillDown hi lo a s) (fun i => fillDown hi lo (b i) (t i)) :=
  RelO.loopDown hs fun _ _ _ _ hab => hab.wrRow _ h

theorem rel_knapInitF (cap : ℕ) : RelArr l R (knapInitF cap) (fun _ => knapInitF cap) :=
  ⟨Eventually.of_forall fun _ => rfl, fun k _ => by
    show R (if k = 0 then 0 else pinf) (fun _ => if k = 0 then 0 else pinf)
    by_cases hk : k = 0
    · simp only [if_pos hk]; exact hR.zero
    · simp only [if_neg hk]; exact hR.pinf⟩

omit hR in
theorem rel_knapFwdGap (T : ℕ) (nz : List ℕ) (t : ℕ) {a : Arr Num} {b : ι → Arr Num} (h : RelArr l R a b) {s : Mat Num} {s' : ι → Mat Num}
    (hs : RelMat l R s s') : RelO l (RelMat l R) (knapFwdGap T nz t a s) (fun i => knapFwdGap T nz t (b i) (s' i)) := by
  unfold knapFwdGap
  by_cases h1 : nz.length ≠ T
  · simp only [if_pos h1]
    by_cases h2 : t + 1 ∉ nz
    · simp only [if_pos h2]
      refine RelO.bind_same fun back _ => ?_
      by_cases h3 : t + 1 ≥ back ∧ t + 1 < T
      · simp only [if_pos h3]; exact rel_fillUp _ _ h hs
      · simp only [if_neg h3]
        by_cases h4 : t + 1 < back
        · simp only [if_pos h4]
          exact RelO.bind_same fun next _ => rel_fillUp _ _ h hs
        · simp only [if_neg h4]; exact RelO.some hs
    · simp only [if_neg h2]; exact RelO.some hs
  · simp only [if_neg h1]; exact RelO.some hs

omit hR in
theorem rel_knapBwdGap (T sz : ℕ) (nz : List ℕ) (t : ℕ) {a : Arr Num} {b : ι → Arr Num} (h : RelArr l R a b) {s : Mat Num} {s' : ι → Mat Num}
    (hs : RelMat l R s s') : RelO l (RelMat l R) (knapBwdGap T sz nz t a s) (fun i => knapBwdGap T sz nz t (b i) (s' i)) := by
  unfold knapBwdGap
  by_cases h1 : (sz : ℤ) - 1 ≠ T
  · simp only [if_pos h1]
    by_cases h0 : t = 0
    · simp only [if_pos h0]; exact RelO.some hs
    · simp only [if_neg h0]
      by_cases h2 : t - 1 ∉ nz
      · simp only [if_pos h2]
        refine RelO.bind_same fun first _ => ?_
        by_cases h3 : t - 1 ≤ first
        · simp only [if_pos h3]
          exact (rel_fillDown _ _ h hs).bind fun _ _ _ hs => hs.wrRow _ h
        · simp only [if_neg h3]
          by_cases h4 : upperBound nz (t - 1) = 0
          · simp only [if_pos h4]; exact RelO.none
          · simp only [if_neg h4]
            exact RelO.bind_same fun prev _ => rel_fillDown _ _ h hs
      · simp only [if_neg h2]; exact RelO.some hs
  · simp only [if_neg h1]; exact RelO.some hs

include hw hm

theorem rel_knapFwdCell (t a : ℕ) {x : Arr Num} {y : ι → Arr Num} (h : RelArr l R x y) {s : Mat Num} {s' : ι → Mat Num} (hs : RelMat l R s s') :
    RelO l (RelMat l R) (knapFwdCell w m t x a s) (fun i => Rounded.knapFwdCell (r i) (w' i) (m' i) t (y i) a (s' i)) := by
  simp only [Rounded.knapFwdCell, (hw _).2]
  refine RelO.bind_same fun wt _ => ?_
  by_cases h1 : wt ≤ a ∧ ¬ (t = 0 ∧ a ≠ wt)
  · simp only [if_pos h1]
    refine (h.rd _).bind fun _ _ _ g1 => (h.rd _).bind fun _ _ _ g2 => (hm.rd _).bind fun _ _ _ g3 => ?_
    exact hs.wr _ _ (hR.cmin g1 (hR.add g2 g3))
  · simp only [if_neg h1]
    exact (h.rd _).bind fun _ _ _ g1 => hs.wr _ _ g1

theorem rel_knapBwdCell (cap t a : ℕ) {x : Arr Num} {y : ι → Arr Num} (h : RelArr l R x y) {s : Mat Num} {s' : ι → Mat Num} (hs : RelMat l R s s') :
    RelO l (RelMat l R) (knapBwdCell cap w m t x a s) (fun i => Rounded.knapBwdCell (r i) cap (w' i) (m' i) t (y i) a (s' i)) := by
  simp only [Rounded.knapBwdCell, (hw _).2]
  refine RelO.bind_same fun wt _ => ?_
  by_cases h1 : (t > 0 ∧ a + wt ≤ cap) ∨ (a = 0 ∧ t = 0)
  · simp only [if_pos h1]
    refine (h.rd _).bind fun _ _ _ g1 => (h.rd _).bind fun _ _ _ g2 => (hm.rd _).bind fun _ _ _ g3 => ?_
    exact hs.wr _ _ (hR.cmin g1 (hR.add g2 g3))
  · simp only [if_neg h1]
    exact (h.rd _).bind fun _ _ _ g1 => hs.wr _ _ g1

theorem rel_knapForward (T cap : ℕ) (nz : List ℕ) (sz : ℕ) {s : Mat Num} {s' : ι → Mat Num} (hs : RelMat l R s s') :
    RelO l (RelMat l R) (knapForward T cap nz sz w m s) (fun i => Rounded.knapForward (r i) T cap nz sz (w' i) (m' i) (s' i)) := by
  have hinit := rel_knapInitF hR cap
  have tail : ∀ {s : Mat Num} {s' : ι → Mat Num}, RelMat l R s s' → RelO l (RelMat l R)
      ((loopUp sz (knapFwdBody T cap nz w m) (s, knapInitF cap)).bind fun x => some x.1)
      (fun i => (loopUp sz (Rounded.knapFwdBody (r i) T cap nz (w' i) (m' i)) (s' i, knapInitF cap)).bind fun x => some x.1) := by
    intro s s' hs
    refine RelO.bind (R := RelP (RelMat l R) (RelArr l R)) (RelO.loopUp ⟨hs, hinit⟩ fun j _ a b hab => ?_) fun a b _ hab => RelO.some hab.1
    refine RelO.bind_same fun t _ => ?_
    refine RelO.bind (R := RelMat l R) (RelO.loopUp hab.1 fun c _ a' b' h' => rel_knapFwdCell hR hw hm t c hab.2 h') fun a' b' _ h' => ?_
    refine (h'.rdRow _).bind fun x y _ hxy => ?_
    exact (rel_knapFwdGap T nz t hxy h').bind fun _ _ _ h'' => RelO.some ⟨h'', hxy⟩
  unfold knapForward Rounded.knapForward
  refine (hs.wrRow 0 hinit).bind fun s s' _ hs => RelO.bind_same fun first _ => ?_
  by_cases hf : first ≠ 0
  · simp only [if_pos hf]
    exact (rel_fillUp _ _ hinit hs).bind fun _ _ _ hs => tail hs
  · simp only [if_neg hf]
    exact tail hs

theorem rel_knapBackward (T cap : ℕ) (nz : List ℕ) (sz : ℕ) {s : Mat Num} {s' : ι → Mat Num} (hs : RelMat l R s s') :
    RelO l (RelMat l R) (knapBackward T cap nz sz w m s) (fun i => Rounded.knapBackward (r i) T cap nz sz (w' i) (m' i) (s' i)) := by
  have hinit : RelArr l R (Arr.fill (cap + 1) 0) (fun _ => Arr.fill (cap + 1) 0) := RelArr.fill hR.zero _
  have tail : ∀ {s : Mat Num} {s' : ι → Mat Num}, RelMat l R s s' → RelO l (RelMat l R)
      ((loopDown sz (knapBwdBody T cap sz nz w m) (s, Arr.fill (cap + 1) 0)).bind fun x => some x.1)
      (fun i => (loopDown sz (Rounded.knapBwdBody (r i) T cap sz nz (w' i) (m' i)) (s' i, Arr.fill (cap + 1) 0)).bind fun x => some x.1) := by
    intro s s' hs
    refine RelO.bind (R := RelP (RelMat l R) (RelArr l R)) (RelO.loopDown ⟨hs, hinit⟩ fun j _ a b hab => ?_) fun a b _ hab => RelO.some hab.1
    refine RelO.bind_same fun t _ => ?_
    refine RelO.bind (R := RelMat l R) (RelO.loopUp hab.1 fun c _ a' b' h' => rel_knapBwdCell hR hw hm cap t c hab.2 h') fun a' b' _ h' => ?_
    refine (h'.rdRow _).bind fun x y _ hxy => ?_
    exact (rel_knapBwdGap T sz nz t hxy h').bind fun _ _ _ h'' => RelO.some ⟨h'', hxy⟩
  unfold knapBackward Rounded.knapBackward
  refine (hs.wrRow T hinit).bind fun s s' _ hs => ?_
  by_cases hz : sz = 0
  · simp only [if_pos hz]; exact RelO.none
  simp only [if_neg hz]
  refine RelO.bind_same fun last _ => RelO.bind_same fun first _ => ?_
  by_cases hf : (last : ℤ) ≠ (T : ℤ) - 1
  · simp only [if_pos hf]
    exact (rel_fillDown _ _ hinit hs).bind fun _ _ _ hs => tail hs
  · simp only [if_neg hf]
    exact tail hs

omit hw hm in
theorem rel_knapPaths (cap wt t i : ℕ) {mt : Num} {mt' : ι → Num} (hmt : R mt mt') {F B : Mat Num} {F' B' : ι → Mat Num} (hF : RelMat l R F F')
    (hB : RelMat l R B B') {p : List Num × List Num} {q : ι → List Num × List Num} (hpq : RelP (RelS l R) (RelS l R) p q) :
    RelO l (RelP (RelS l R) (RelS l R)) (knapPaths cap wt mt t F B i p) (fun j => Rounded.knapPaths (r j) cap wt (mt' j) t (F' j) (B' j) i (q j)) := by
  have tail : ∀ {S D : List Num} {S' D' : ι → List Num}, RelS l R S S' → RelS l R D D' → RelO l (RelP (RelS l R) (RelS l R))
      ((F.rd t i).bind fun f => (B.rd (t + 1) i).bind fun b => some (S, D ++ [f + b]))
      (fun j => ((F' j).rd t i).bind fun f => ((B' j).rd (t + 1) i).bind fun b => some (S' j, D' j ++ [Rounded.rn (r j) (f + b)])) := by
    intro S D S' D' hS hD
    refine (hF.rd _ _).bind fun _ _ _ g1 => (hB.rd _ _).bind fun _ _ _ g2 => RelO.some ⟨hS, ?_⟩
    exact RelS.snoc hD (hR.add g1 g2) (Eventually.of_forall fun _ => rfl)
  unfold knapPaths Rounded.knapPaths
  by_cases h1 : i + wt ≤ cap
  · simp only [if_pos h1, Option.bind_eq_bind, Option.bind_assoc, Option.bind_some]
    refine (hF.rd _ _).bind fun _ _ _ g1 => (hB.rd _ _).bind fun _ _ _ g2 => ?_
    exact tail (RelS.snoc hpq.1 (hR.add (hR.add g1 g2) hmt) (Eventually.of_forall fun _ => rfl)) hpq.2
  · simp only [if_neg h1]
    exact tail hpq.1 hpq.2

theorem rel_knapOut (cap t : ℕ) {F B : Mat Num} {F' B' : ι → Mat Num} (hF : RelMat l R F F') (hB : RelMat l R B B') {o : Arr Num} {o' : ι → Arr Num}
    (ho : RelArr l R o o') :
    RelO l (RelArr l R) (knapOut cap w m F B t o) (fun i => Rounded.knapOut (r i) cap (w' i) (m' i) (F' i) (B' i) t (o' i)) := by
  unfold knapOut Rounded.knapOut
  simp only [(hw _).2]
  refine RelO.bind_same fun wt _ => ?_
  by_cases h0 : wt ≠ 0
  · simp only [if_pos h0]
    refine (hm.rd _).bind fun mt mt' _ hmt => ?_
    have tail : ∀ {S D : List Num} {S' D' : ι → List Num}, RelS l R S S' → RelS l R D D' → RelO l (RelArr l R)
        ((minElement S).bind fun s => (minElement D).bind fun d => o.wr t (s - d - mt))
        (fun j => (minElement (S' j)).bind fun s => (minElement (D' j)).bind fun d =>
          (o' j).wr t (Rounded.rn (r j) (Rounded.rn (r j) (s - d) - mt' j))) := by
      intro S D S' D' hS hD
      refine (rel_minElement hR hS).bind fun _ _ _ g1 => (rel_minElement hR hD).bind fun _ _ _ g2 => ?_
      exact ho.wr _ (hR.sub (hR.sub g1 g2) hmt)
    have single : ∀ {x : Num} {y : ι → Num}, R x y → RelS l R [x] (fun i => [y i]) := fun hxy =>
      RelS.snoc (L := []) (M := fun _ => []) (RelS.nil (Eventually.of_forall fun _ => rfl)) hxy (Eventually.of_forall fun _ => rfl)
    by_cases ht : t = 0
    · simp only [if_pos ht, Option.bind_eq_bind, Option.bind_assoc, Option.bind_some]
      refine (hF.rd _ _).bind fun _ _ _ g1 => (hB.rd _ _).bind fun _ _ _ g2 => (hB.rd _ _).bind fun _ _ _ g3 => ?_
      exact tail (single (hR.add (hR.add g1 g2) hmt)) (single (hR.add g1 g3))
    · simp only [if_neg ht]
      refine RelO.bind (R := RelP (RelS l R) (RelS l R)) (RelO.loopUp ⟨RelS.nil (Eventually.of_forall fun _ => rfl),
        RelS.nil (Eventually.of_forall fun _ => rfl)⟩ fun j _ a b hab => rel_knapPaths hR cap wt t j hmt hF hB hab) fun a b _ hab => ?_
      exact tail hab.1 hab.2
  · simp only [if_neg h0]
    exact ho.wr _ hR.zero

theorem rel_knapMessages (T cap : ℕ) (nz : List ℕ) (sz : ℕ) {o : Arr Num} {o' : ι → Arr Num} (ho : RelArr l R o o') :
    RelO l (RelArr l R) (knapMessages T cap nz sz w m o) (fun i => Rounded.knapMessages (r i) T cap nz sz (w' i) (m' i) (o' i)) := by
  refine (rel_knapForward hR hw hm T cap nz sz (rel_matFill hR _ _)).bind fun F F' _ hF => ?_
  refine (rel_knapBackward hR hw hm T cap nz sz (rel_matFill hR _ _)).bind fun B B' _ hB => ?_
  exact RelO.loopUp' (Eventually.of_forall fun i => (hw i).1) ho fun t _ a b hab => rel_knapOut hR hw hm cap t hF hB hab

end knap

section factors
variable (hR : Calc l r R) {a c o : Arr Num} {a' c' o' : ι → Arr Num} {m x y z : Mat Num} {m' x' y' z' : ι → Mat Num}
include hR

theorem rel_teamToKnapsack (D T : ℕ) (nzs : List (List ℕ)) (hm : RelMat l R m m') (hc : RelArr l R c c') (hx : RelMat l R x x') (ho : RelArr l R o o') :
    RelO l (RelMat l R) (teamToKnapsack D T nzs m c x o) (fun i => Rounded.teamToKnapsack (r i) D T nzs (m' i) (c' i) (x' i) (o' i)) := by
  refine RelO.loopUp' hx.rows hm fun d _ m m' hm => ?_
  refine RelO.bind_same fun u _ => ?_
  by_cases hd : d < D
  swap
  · simp only [if_neg hd]; exact RelO.none
  simp only [if_pos hd, Option.bind_eq_bind, Option.bind_some]
  refine RelO.bind (R := RelP (RelMat l R) (fun u u' => ∀ i, u' i = u)) (RelO.loopList ⟨hm, fun _ => rfl⟩ fun t _ s s' hs => ?_) fun s s' _ hs => ?_
  · refine RelO.bind_same fun A _ => RelO.bind_same fun B _ => RelO.bind_same fun I _ => ?_
    refine RelO.loopList hs fun e _ s s' hs => ?_
    refine (hc.rd _).bind fun _ _ _ g1 => (hx.rd _ _).bind fun _ _ _ g2 => (ho.rd _).bind fun _ _ _ g3 => ?_
    refine (hs.1.wr _ _ (hR.add (hR.add g1 g2) g3)).bind fun n n' _ hn => ?_
    have e2 := hs.2
    beta_reduce at e2
    simp only [e2]
    exact RelO.bind_same fun u _ => RelO.some ⟨hn, fun _ => rfl⟩
  · have e2 := hs.2
    beta_reduce at e2
    simp only [e2]
    refine RelO.loopList hs.1 fun u _ n n' hn => ?_
    exact (hc.rd _).bind fun _ _ _ g1 => (ho.rd _).bind fun _ _ _ g2 => hn.wr _ _ (hR.add g1 g2)

theorem rel_teamToOric (T : ℕ) (hx : RelMat l R x x') (ha : RelArr l R a a') (hc : RelArr l R c c') :
    RelO l (RelArr l R) (teamToOric T x a c) (fun i => Rounded.teamToOric (r i) T (x' i) (a' i) (c' i)) :=
  (rel_addRowsL hR hx (RelArr.fill hR.zero _)).bind fun _ _ _ h => h.addTo hR hc ha

theorem rel_projectToOric (hx : RelMat l R x x') (hy : RelMat l R y y') (hz : RelMat l R z z') :
    RelO l (RelMat l R) (projectToOric x y z) (fun i => Rounded.projectToOric (r i) (x' i) (y' i) (z' i)) := by
  refine RelO.loopUp' hx.rows hy fun p _ n n' hn => ?_
  refine (hx.rdRow p).bind fun _ _ _ g1 => (hz.rdRow p).bind fun _ _ _ g2 => (hn.rdRow p).bind fun _ _ _ g3 => ?_
  exact (g1.addTo hR g2 g3).bind fun _ _ _ g4 => hn.wrRow p g4

theorem rel_oricToProjectUpdate (P T : ℕ) (hm : RelMat l R m m') (ha : RelArr l R a a') (hx : RelMat l R x x') (hy : RelMat l R y y')
    (hz : RelMat l R z z') :
    RelO l (RelP (RelMat l R) (RelMat l R)) (oricToProjectUpdate P T m a x y z)
      (fun i => Rounded.oricToProjectUpdate (r i) P T (m' i) (a' i) (x' i) (y' i) (z' i)) := by
  refine RelO.bind (R := RelP (RelMat l R) (RelP (RelMat l R) (RelP (RelMat l R) (RelMat l R))))
    (RelO.loopUp ⟨rel_matFill hR _ _, rel_matFill hR _ _, hx, hy⟩ fun t _ s s' hs => ?_) fun s s' _ hs => RelO.some hs.2.2
  refine (hs.1.wrRow 0 (rel_initFwd2 hR)).bind fun fw fw' _ hf => ?_
  refine RelO.bind (R := RelMat l R) (RelO.loopUp hf fun k _ fw fw' hf => ?_) fun fw fw' _ hf => ?_
  · refine (hf.rd _ _).bind fun _ _ _ g0 => (hf.wr _ _ g0).bind fun fw fw' _ hf => ?_
    refine (hf.rd _ _).bind fun _ _ _ g1 => (hf.rd _ _).bind fun _ _ _ g2 => (hm.rd _ _).bind fun _ _ _ g3 => (ha.rd _).bind fun _ _ _ g4 => ?_
    exact hf.wr _ _ (hR.cmin g1 (hR.add (hR.add g2 g3) g4))
  refine (hs.2.1.wrRow P (rel_initBwd2 hR)).bind fun bw bw' _ hb => ?_
  refine RelO.bind (R := RelMat l R) (RelO.loopDown hb fun k _ bw bw' hb => ?_) fun bw bw' _ hb => ?_
  · refine (hb.rd _ _).bind fun _ _ _ g0 => (hb.rd _ _).bind fun _ _ _ g1 => (hm.rd _ _).bind fun _ _ _ g3 => (ha.rd _).bind fun _ _ _ g4 => ?_
    refine (hb.wr _ _ (hR.cmin g0 (hR.add (hR.add g1 g3) g4))).bind fun bw bw' _ hb => ?_
    exact (hb.rd _ _).bind fun _ _ _ g => hb.wr _ _ g
  refine RelO.bind (R := RelP (RelMat l R) (RelMat l R)) (RelO.loopUp (t := fun i => ((s' i).2.2.1, (s' i).2.2.2)) hs.2.2 fun p _ u u' hu => ?_)
    fun u u' _ hu => RelO.some ⟨hf, hb, hu⟩
  refine (hf.rd _ _).bind fun _ _ _ g0 => (hb.rd _ _).bind fun _ _ _ g1 => (ha.rd _).bind fun _ _ _ g2 => ?_
  refine (hu.1.wr _ _ (hR.sub g2 (hR.cmin (hR.cmin g0 g1) hR.zero))).bind fun v v' _ hv => ?_
  refine (hv.rd _ _).bind fun _ _ _ g3 => (hz.rd _ _).bind fun _ _ _ g4 => ?_
  exact (hu.2.wr _ _ (hR.add g3 g4)).bind fun _ _ _ h' => RelO.some ⟨hv, h'⟩

theorem rel_projectInequalityUpdate (T : ℕ) (hm : RelMat l R m m') (hx : RelMat l R x x') :
    RelO l (RelMat l R) (projectInequalityUpdate T m x) (fun i => Rounded.projectInequalityUpdate (r i) T (m' i) (x' i)) := by
  refine RelO.bind (R := RelP (RelMat l R) (RelP (RelMat l R) (RelMat l R)))
    (RelO.loopUp' hx.rows ⟨rel_matFill hR _ _, rel_matFill hR _ _, hx⟩ fun p _ s s' hs => ?_) fun s s' _ hs => RelO.some hs.2.2
  refine (hs.1.wrRow 0 (rel_initFwd2 hR)).bind fun fw fw' _ hf => ?_
  refine RelO.bind (R := RelMat l R) (RelO.loopUp hf fun k _ fw fw' hf => ?_) fun fw fw' _ hf => ?_
  · refine (hf.rd _ _).bind fun _ _ _ g0 => (hf.wr _ _ g0).bind fun fw fw' _ hf => ?_
    refine (hf.rd _ _).bind fun _ _ _ g1 => (hf.rd _ _).bind fun _ _ _ g2 => (hm.rd _ _).bind fun _ _ _ g3 => ?_
    exact hf.wr _ _ (hR.cmin g1 (hR.add g2 g3))
  refine (hs.2.1.wrRow T (rel_initBwd2 hR)).bind fun bw bw' _ hb => ?_
  refine RelO.bind (R := RelMat l R) (RelO.loopDown hb fun k _ bw bw' hb => ?_) fun bw bw' _ hb => ?_
  · refine (hb.rd _ _).bind fun _ _ _ g0 => (hb.rd _ _).bind fun _ _ _ g1 => (hm.rd _ _).bind fun _ _ _ g3 => ?_
    refine (hb.wr _ _ (hR.cmin g0 (hR.add g1 g3))).bind fun bw bw' _ hb => ?_
    exact (hb.rd _ _).bind fun _ _ _ g => hb.wr _ _ g
  refine RelO.bind (R := RelMat l R) (RelO.loopUp hs.2.2 fun t _ u u' hu => ?_) fun u u' _ hu => RelO.some ⟨hf, hb, hu⟩
  refine (hf.rd _ _).bind fun _ _ _ g0 => (hb.rd _ _).bind fun _ _ _ g1 => ?_
  exact hu.wr _ _ (hR.neg (hR.cmin (hR.cmin g0 g1) hR.zero))

theorem rel_oricToTeamUpdate (hbig : R (fin 1000000) (fun _ => fin 1000000)) (hm : RelMat l R m m') (ha : RelArr l R a a') :
    RelO l (RelArr l R) (oricToTeamUpdate m a) (fun i => oricToTeamUpdate (m' i) (a' i)) := by
  refine RelO.loopUp' ha.size ha fun t _ u u' hu => ?_
  refine RelO.bind (R := R) (RelO.loopUp' hm.rows hbig fun p _ v v' hv => ?_) fun v v' _ hv => hu.wr _ hv
  exact (hm.rd _ _).bind fun _ _ _ g => RelO.some (hR.cmin hv g)

theorem rel_kcIntrinsic (T : ℕ) (hx : RelMat l R x x') (hy : RelMat l R y y') (hz : RelMat l R z z') (ha : RelArr l R a a') :
    RelO l (RelArr l R) (kcIntrinsic T x y z a) (fun i => Rounded.kcIntrinsic (r i) T (x' i) (y' i) (z' i) (a' i)) := by
  refine RelO.loopUp' hz.rows ha fun p _ u u' hu => RelO.loopUp' hz.cols hu fun t _ u u' hu => ?_
  refine (hx.rd _ _).bind fun _ _ _ g1 => (hy.rd _ _).bind fun _ _ _ g2 => (hz.rd _ _).bind fun _ _ _ g3 => ?_
  exact hu.wr _ (hR.add (hR.add g1 g2) g3)

end factors

/-- Related inputs. -/
structure RelKc (l : Filter ι) (R : Num → (ι → Num) → Prop) (inp : KcInputs) (J : ι → KcInputs) : Prop where
  numDepartments : ∀ i, (J i).numDepartments = inp.numDepartments
  numTeams : ∀ i, (J i).numTeams = inp.numTeams
  numProjects : ∀ i, (J i).numProjects = inp.numProjects
  flag : ∀ i, (J i).flag = inp.flag
  alpha : ∀ i, (J i).alpha = inp.alpha
  nzs : ∀ i, (J i).nzs = inp.nzs
  maxState : ∀ i d, (J i).maxState.rd d = inp.maxState.rd d
  sizes : ∀ i d, (J i).sizes.rd d = inp.sizes.rd d
  weights : ∀ d, RelO l RelW (inp.weights.rdRow d) (fun i => (J i).weights.rdRow d)
  reward : RelArr l R inp.reward (fun i => (J i).reward)
  rewardProject : RelMat l R inp.rewardProject (fun i => (J i).rewardProject)

structure RelKcState (l : Filter ι) (R : Num → (ι → Num) → Prop) (s : KcState) (t : ι → KcState) : Prop where
  a : RelMat l R s.a (fun i => (t i).a)
  dummy : RelMat l R s.dummy (fun i => (t i).dummy)
  ext : RelMat l R s.ext (fun i => (t i).ext)
  extOld : RelMat l R s.extOld (fun i => (t i).extOld)
  t2o : RelArr l R s.t2o (fun i => (t i).t2o)
  e2o : RelMat l R s.e2o (fun i => (t i).e2o)
  o2e : RelMat l R s.o2e (fun i => (t i).o2e)
  e2p : RelMat l R s.e2p (fun i => (t i).e2p)
  p2e : RelMat l R s.p2e (fun i => (t i).p2e)
  o2t : RelArr l R s.o2t (fun i => (t i).o2t)
  outTeam : RelArr l R s.outTeam (fun i => (t i).outTeam)
  outMwm : RelArr l R s.outMwm (fun i => (t i).outMwm)

section run
variable (hR : Calc l r R) (hbig : R (fin 1000000) (fun _ => fin 1000000)) {inp : KcInputs} {J : ι → KcInputs} (hJ : RelKc l R inp J)
  (hd : Damps r R inp.flag inp.alpha)
include hR hJ hd

theorem rel_kcDept (iter : ℕ) {a : Mat Num} {b : ι → Mat Num} (ha : RelMat l R a b) (d : ℕ) {s : Mat Num × Mat Num × Mat Num}
    {t : ι → Mat Num × Mat Num × Mat Num} (hs : RelT l R s t) :
    RelO l (RelT l R) (kcDept inp iter a d s) (fun i => Rounded.kcDept (r i) (J i) iter (b i) d (t i)) := by
  simp only [Rounded.kcDept, hJ.numTeams, hJ.flag, hJ.alpha, hJ.nzs, hJ.maxState, hJ.sizes]
  refine RelO.bind_same fun cap _ => RelO.bind_same fun nz _ => RelO.bind_same fun sz _ => ?_
  refine (hJ.weights d).bind fun w w' _ hw => (ha.rdRow d).bind fun m m' _ hm => (hs.1.rdRow d).bind fun o o' _ ho => ?_
  refine (rel_knapMessages hR hw hm _ cap nz sz ho).bind fun x y _ hxy => (hs.1.wrRow d hxy).bind fun dm dm' _ hdm => ?_
  exact (rel_filterAt hR hd iter hdm d (t := fun i => ((t i).2.1, (t i).2.2)) hs.2).bind fun p q _ hpq => RelO.some ⟨hdm, hpq⟩

include hbig

theorem rel_kcIter (iter : ℕ) {s : KcState} {t : ι → KcState} (h : RelKcState l R s t) :
    RelO l (RelKcState l R) (kcIter inp iter s) (fun i => Rounded.kcIter (r i) (J i) iter (t i)) := by
  unfold kcIter Rounded.kcIter
  simp only [hJ.numDepartments, hJ.numTeams, hJ.numProjects, hJ.nzs]
  refine RelO.bind (R := RelT l R) (RelO.loopUp (t := fun i => ((t i).dummy, (t i).ext, (t i).extOld)) ⟨h.dummy, h.ext, h.extOld⟩
    fun d _ a b hab => rel_kcDept hR hJ hd iter h.a d hab) fun x y _ hx => ?_
  refine (rel_teamToOric hR _ hx.2.1 h.t2o hJ.reward).bind fun t2o t2o' _ ht2o => ?_
  refine (rel_oricToProjectUpdate hR _ _ h.e2o ht2o h.o2e h.e2p hJ.rewardProject).bind fun p q _ hpq => ?_
  refine (rel_projectInequalityUpdate hR _ hpq.2 h.p2e).bind fun p2e p2e' _ hp2e => ?_
  refine (rel_projectToOric hR hp2e h.e2o hJ.rewardProject).bind fun e2o e2o' _ he2o => ?_
  refine (rel_oricToTeamUpdate hR hbig he2o h.o2t).bind fun o2t o2t' _ ho2t => ?_
  refine (rel_kcIntrinsic hR _ hpq.1 hp2e hJ.rewardProject h.outMwm).bind fun om om' _ hom => ?_
  refine (rel_teamToKnapsack hR _ _ _ h.a hJ.reward hx.2.1 ho2t).bind fun a a' _ ha => ?_
  exact RelO.some ⟨ha, hx.1, hx.2.1, hx.2.2, ht2o, he2o, hpq.1, hpq.2, hp2e, ho2t, h.outTeam, hom⟩

theorem rel_kcSolve (numIter : ℕ) {a : Mat Num} {A : ι → Mat Num} (ha : RelMat l R a A) :
    RelO l (RelP (RelArr l R) (RelArr l R)) (kcSolve inp a numIter) (fun i => Rounded.kcSolve (r i) (J i) (A i) numIter) := by
  have e : kcSolve inp a numIter = (loopUp numIter (kcIter inp) (kcInit inp a)).bind fun s =>
      (kcExtrinsic s.ext s.o2t s.outTeam).bind fun out => some (out, s.outMwm) := by
    simp only [kcSolve, kcIterate, Option.bind_eq_bind, Option.bind_assoc, Option.bind_some]
  rw [e]
  have h0 : RelKcState l R (kcInit inp a) (fun i => kcInit (J i) (A i)) := by
    simp only [kcInit, hJ.numDepartments, hJ.numTeams, hJ.numProjects]
    exact ⟨ha, rel_matFill hR _ _, rel_matFill hR _ _, rel_matFill hR _ _, RelArr.fill hR.zero _, rel_matFill hR _ _, rel_matFill hR _ _,
      rel_matFill hR _ _, rel_matFill hR _ _, RelArr.fill hR.zero _, RelArr.fill hR.zero _, RelArr.fill hR.zero _⟩
  refine RelO.bind (RelO.loopUp h0 fun j _ a b hab => rel_kcIter hR hbig hJ hd j hab) fun s t _ hs => ?_
  refine RelO.bind (R := RelArr l R) (y := fun i => Rounded.kcExtrinsic (r i) (t i).ext (t i).o2t (t i).outTeam) ?_
    fun _ _ _ h => RelO.some ⟨h, hs.outMwm⟩
  exact (hs.o2t.copyTo hR hs.outTeam).bind fun _ _ _ h => rel_addRowsL hR hs.ext h

end run

end Verif.Proofs
