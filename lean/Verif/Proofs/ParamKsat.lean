import Verif.Model.RoundedKsat
import Verif.Proofs.ParamTsp

/-! The functions of the rounded k-SAT model are related to those of the exact model. -/

namespace Verif.Proofs
open Verif Num Filter Model

variable {ι : Type} {l : Filter ι} {r : ι → ℚ → Num} {R : Num → (ι → Num) → Prop}

/-- The number of larger magnitude, the first one if both have the same. -/
def pick (a x : Num) : Num := if Num.lt (Num.abs a) (Num.abs x) then x else a

/-- Choosing the number of larger magnitude keeps the relation, if the first number is zero or both are equal. -/
def Picks (R : Num → (ι → Num) → Prop) : Prop :=
  ∀ {a b x y}, R a b → R x y → (a = 0 ∨ a = x) → R (pick a x) (fun i => pick (b i) (y i))

/-- Loops with an invariant of the exact computation. -/
theorem RelO.loopUp_inv {α β : Type} {R : α → (ι → β) → Prop} (P : ℕ → α → Prop) {n : ℕ} {f : ℕ → α → Option α} {g : ι → ℕ → β → Option β} {s : α}
    {t : ι → β} (h0 : R s t) (hP : P 0 s)
    (hf : ∀ k < n, ∀ a b, R a b → P k a → RelO l (fun a b => R a b ∧ P (k + 1) a) (f k a) (fun i => g i k (b i))) :
    RelO l (fun a b => R a b ∧ P n a) (Verif.loopUp n f s) (fun i => Verif.loopUp n (g i) (t i)) := by
  induction n with
  | zero => exact RelO.some ⟨h0, hP⟩
  | succ n ih => exact (ih fun k hk => hf k (by omega)).bind fun a b _ hab => hf n (by omega) a b hab.1 hab.2

theorem mul_one_num (a : Num) : a * fin 1 = a + 0 := by
  cases a with
  | fin q => show fin (q * 1) = fin (q + 0); rw [mul_one, add_zero]
  | _ => rfl

theorem mul_neg_one_num (a : Num) : a * fin (-1) = -a + 0 := by
  cases a with
  | fin q => show fin (q * -1) = fin (-q + 0); congr 1; ring
  | _ => rfl

theorem Calc.sign (hR : Calc l r R) {a : Num} {b : ι → Num} (h : R a b) {z : ℤ} (hz : z = 1 ∨ z = -1) :
    R (a * fin (z : ℚ)) (fun i => Rounded.rn (r i) (b i * fin (z : ℚ))) := by
  rcases hz with rfl | rfl
  · have := hR.add h hR.zero
    simp only [Int.cast_one, mul_one_num]; exact this
  · have := hR.add (hR.neg h) hR.zero
    simp only [Int.cast_neg, Int.cast_one, mul_neg_one_num]; exact this

/-- Conditional writes. -/
theorem rel_pickAt (hR : Calc l r R) (hp : Picks R) {m : Mat Num} {u : ι → Mat Num} (h : RelMat l R m u) (c v : ℕ) {x : Num} {y : ι → Num} (hxy : R x y)
    (hz : m.data c v = 0 ∨ m.data c v = x) :
    RelO l (fun a b => RelMat l R a b ∧ ∀ c' v', a.data c' v' = if c' = c ∧ v' = v then pick (m.data c v) x else m.data c' v')
      ((m.rd c v).bind fun o => if Num.lt (Num.abs o) (Num.abs x) then m.wr c v x else some m)
      (fun i => ((u i).rd c v).bind fun o => if Num.lt (Num.abs o) (Num.abs (y i)) then (u i).wr c v (y i) else some (u i)) := by
  intro a ha
  obtain ⟨o, ho, ha⟩ := Option.bind_eq_some_iff.mp ha
  unfold Mat.rd at ho
  split at ho
  · next hk =>
    obtain rfl := Option.some.inj ho
    have hdata : ∀ c' v', a.data c' v' = if c' = c ∧ v' = v then pick (m.data c v) x else m.data c' v' := by
      intro c' v'
      unfold pick
      split at ha
      · next hl =>
        rw [Mat.wr_of_lt hk.1 hk.2] at ha
        rw [← Option.some.inj ha]
        by_cases hcv : c' = c ∧ v' = v
        · simp only [if_pos hcv, if_pos hl]
        · simp only [if_neg hcv]
      · next hl =>
        rw [← Option.some.inj ha]
        by_cases hcv : c' = c ∧ v' = v
        · obtain ⟨rfl, rfl⟩ := hcv
          simp only [and_self, if_true, if_neg hl]
        · simp only [if_neg hcv]
    have hshape : a.rows = m.rows ∧ a.cols = m.cols := by
      split at ha
      · rw [Mat.wr_of_lt hk.1 hk.2] at ha; rw [← Option.some.inj ha]; exact ⟨rfl, rfl⟩
      · rw [← Option.some.inj ha]; exact ⟨rfl, rfl⟩
    refine ⟨fun i => ⟨(u i).rows, (u i).cols, fun c' v' => if c' = c ∧ v' = v then pick ((u i).data c v) (y i) else (u i).data c' v'⟩, ?_,
      ⟨?_, ?_, ?_⟩, hdata⟩
    · filter_upwards [h.rows, h.cols] with i e1 e2
      rw [Mat.rd_of_lt (by rw [e1]; exact hk.1) (by rw [e2]; exact hk.2)]
      simp only [Option.bind_some]
      unfold pick
      by_cases hl : Num.lt (Num.abs ((u i).data c v)) (Num.abs (y i)) = true
      · simp only [if_pos hl]
        exact Mat.wr_of_lt (by rw [e1]; exact hk.1) (by rw [e2]; exact hk.2)
      · simp only [if_neg hl]
        congr 1
        have : ∀ c' v', (u i).data c' v' = if c' = c ∧ v' = v then (u i).data c v else (u i).data c' v' := by
          intro c' v'
          by_cases hcv : c' = c ∧ v' = v
          · obtain ⟨rfl, rfl⟩ := hcv
            simp only [and_self, if_true]
          · simp only [if_neg hcv]
        rw [← funext fun c' => funext fun v' => this c' v']
    · filter_upwards [h.rows] with i e; simp only [e, hshape.1]
    · filter_upwards [h.cols] with i e; simp only [e, hshape.2]
    · intro c' hc' v' hv'
      rw [hdata]
      by_cases hcv : c' = c ∧ v' = v
      · simp only [if_pos hcv]
        exact hp (h.data c hk.1 v hk.2) hxy hz
      · simp only [if_neg hcv]
        exact h.data c' (by rw [← hshape.1]; exact hc') v' (by rw [← hshape.2]; exact hv')
  · cases ho

/-- Clause tables read the same on both sides, have signs 1 or -1 and no repeated variables. -/
structure RelClauses (cx : Mat ℕ) (tp : Mat ℤ) (cx' : ι → Mat ℕ) (tp' : ι → Mat ℤ) : Prop where
  conx : ∀ i c s, (cx' i).rd c s = cx.rd c s
  ty : ∀ i c s, (tp' i).rd c s = tp.rd c s
  sign : ∀ c s z, tp.rd c s = some z → z = 1 ∨ z = -1
  inj : ∀ c s s' v, cx.rd c s = some v → cx.rd c s' = some v → s = s'

section clause
variable (hR : Calc l r R) {conx : Mat ℕ} {ty : Mat ℤ} {conx' : ι → Mat ℕ} {ty' : ι → Mat ℤ} (hc : RelClauses conx ty conx' ty')
  {m fw bw : Mat Num} {u fw' bw' : ι → Mat Num}
include hR hc

theorem rel_ksatLit (h : RelMat l R m u) (c s : ℕ) :
    RelO l R (ksatLit m conx ty c s) (fun i => Rounded.ksatLit (r i) (u i) (conx' i) (ty' i) c s) := by
  simp only [Rounded.ksatLit, hc.conx, hc.ty]
  refine RelO.bind_same fun v _ => (h.rd c v).bind fun x y _ hxy => RelO.bind_same fun z hz => ?_
  exact RelO.some (hR.sign hxy (hc.sign c s z hz))

theorem rel_ksatFwdStage (h : RelMat l R m u) (c s : ℕ) (hf : RelMat l R fw fw') :
    RelO l (RelMat l R) (ksatFwdStage m conx ty c s fw) (fun i => Rounded.ksatFwdStage (r i) (u i) (conx' i) (ty' i) c s (fw' i)) := by
  refine (hf.rd _ _).bind fun f0 f0' _ h0 => (hf.wr _ _ h0).bind fun fw fw' _ hf => ?_
  refine (hf.rd _ _).bind fun g1 g1' _ h1 => (hf.rd _ _).bind fun g0 g0' _ h0 => (rel_ksatLit hR hc h c s).bind fun x y _ hxy => ?_
  exact hf.wr _ _ (hR.cmin (hR.add h1 (hR.cmin hR.zero hxy)) (hR.add h0 hxy))

theorem rel_ksatBwdStage (k : ℕ) (h : RelMat l R m u) (c s : ℕ) (hf : RelMat l R bw bw') :
    RelO l (RelMat l R) (ksatBwdStage k m conx ty c s bw) (fun i => Rounded.ksatBwdStage (r i) k (u i) (conx' i) (ty' i) c s (bw' i)) := by
  unfold ksatBwdStage Rounded.ksatBwdStage
  have tail : ∀ {x : Num} {y : ι → Num} {bw : Mat Num} {bw' : ι → Mat Num}, R x y → RelMat l R bw bw' →
      RelO l (RelMat l R) ((bw.rd (s + 1) 1).bind fun c1 => bw.wr s 1 (cmin c1 (c1 + x)))
        (fun i => ((bw' i).rd (s + 1) 1).bind fun c1 => (bw' i).wr s 1 (cmin c1 (Rounded.rn (r i) (c1 + y i)))) := by
    intro x y bw bw' hxy hf
    exact (hf.rd _ _).bind fun c1 c1' _ h1 => hf.wr _ _ (hR.cmin h1 (hR.add h1 hxy))
  by_cases hk : s + 1 = k
  · simp only [if_pos hk]
    exact (rel_ksatLit hR hc h c s).bind fun x y _ hxy => (hf.wr _ _ hxy).bind fun _ _ _ hf => tail hxy hf
  · simp only [if_neg hk]
    refine (rel_ksatLit hR hc h c s).bind fun x y _ hxy => (hf.rd _ _).bind fun b0 b0' _ h0 => (hf.rd _ _).bind fun b1 b1' _ h1 => ?_
    exact (hf.wr _ _ (hR.cmin h0 (hR.add h1 hxy))).bind fun _ _ _ hf => tail hxy hf

/-- The output entries of the literals from `s` on and of later clauses are zero. -/
def Fresh (conx : Mat ℕ) (c s : ℕ) (out : Mat Num) : Prop :=
  (∀ s', s ≤ s' → ∀ v, conx.rd c s' = some v → out.data c v = 0) ∧ ∀ c', c < c' → ∀ v, out.data c' v = 0

theorem rel_ksatOut (hp : Picks R) (k : ℕ) (h : RelMat l R m u) (hf : RelMat l R fw fw') (hb : RelMat l R bw bw') (c s : ℕ) {out : Mat Num}
    {out' : ι → Mat Num} (ho : RelMat l R out out') (hfresh : Fresh conx c s out) :
    RelO l (fun a b => RelMat l R a b ∧ Fresh conx c (s + 1) a) (ksatOut k m conx ty fw bw c s out)
      (fun i => Rounded.ksatOut (r i) k (u i) (conx' i) (ty' i) (fw' i) (bw' i) c s (out' i)) := by
  unfold ksatOut Rounded.ksatOut
  have tail : ∀ {sd dd : Num} {sd' dd' : ι → Num} {x : Num} {y : ι → Num}, R x y → R sd sd' → R dd dd' →
      RelO l (fun a b => RelMat l R a b ∧ Fresh conx c (s + 1) a)
        ((conx.rd c s).bind fun v => (ty.rd c s).bind fun z => (out.rd c v).bind fun o =>
          if Num.lt (Num.abs o) (Num.abs ((sd - dd - x) * fin (z : ℚ))) then out.wr c v ((sd - dd - x) * fin (z : ℚ)) else some out)
        (fun i => ((conx' i).rd c s).bind fun v => ((ty' i).rd c s).bind fun z => ((out' i).rd c v).bind fun o =>
          if Num.lt (Num.abs o) (Num.abs (Rounded.rn (r i) (Rounded.rn (r i) (Rounded.rn (r i) (sd' i - dd' i) - y i) * fin (z : ℚ)))) then
            (out' i).wr c v (Rounded.rn (r i) (Rounded.rn (r i) (Rounded.rn (r i) (sd' i - dd' i) - y i) * fin (z : ℚ))) else some (out' i)) := by
    intro sd dd sd' dd' x y hxy hs hd
    simp only [hc.conx, hc.ty]
    refine RelO.bind_same fun v hv => RelO.bind_same fun z hz => ?_
    refine (rel_pickAt hR hp ho c v (hR.sign (hR.sub (hR.sub hs hd) hxy) (hc.sign c s z hz)) (Or.inl (hfresh.1 s le_rfl v hv))).mono ?_
    rintro a b ⟨h1, h2⟩
    refine ⟨h1, fun s' hs' v' hv' => ?_, fun c' hc' v' => ?_⟩
    · rw [h2, if_neg]
      · exact hfresh.1 s' (by omega) v' hv'
      · rintro ⟨-, rfl⟩
        have := hc.inj c s s' v' hv hv'
        omega
    · rw [h2, if_neg (by rintro ⟨rfl, -⟩; omega)]
      exact hfresh.2 c' hc' v'
  by_cases hk : s + 1 = k
  · simp only [if_pos hk]
    refine (rel_ksatLit hR hc h c s).bind fun x y _ hxy => (hf.rd _ _).bind fun f0 f0' _ h0 => (hf.rd _ _).bind fun f1 f1' _ h1 => ?_
    refine (hb.rd _ _).bind fun b1 b1' _ g1 => ?_
    exact tail hxy (hR.cmin (hR.add (hR.add h0 g1) hxy) (hR.add (hR.add h1 hxy) g1)) (hR.add h1 g1)
  · simp only [if_neg hk]
    refine (rel_ksatLit hR hc h c s).bind fun x y _ hxy => (hf.rd _ _).bind fun f0 f0' _ h0 => (hf.rd _ _).bind fun f1 f1' _ h1 => ?_
    refine (hb.rd _ _).bind fun b1 b1' _ g1 => ?_
    refine (hb.rd (s + 1) 0).bind fun b0 b0' _ g0 => ?_
    exact tail hxy (hR.cmin (hR.add (hR.add h0 g1) hxy) (hR.add (hR.add h1 hxy) g1)) (hR.cmin (hR.add h0 g0) (hR.add h1 g1))

omit hc in
theorem rel_initFwd2 : RelArr l R initFwd2 (fun _ => initFwd2) :=
  ⟨Eventually.of_forall fun _ => rfl, fun k _ => by
    show R (if k = 0 then 0 else pinf) (fun _ => if k = 0 then 0 else pinf)
    by_cases hk : k = 0
    · simp only [if_pos hk]; exact hR.zero
    · simp only [if_neg hk]; exact hR.pinf⟩

omit hc in
theorem rel_initBwd2 : RelArr l R initBwd2 (fun _ => initBwd2) := ⟨Eventually.of_forall fun _ => rfl, fun _ _ => hR.zero⟩

omit hc in
theorem rel_matFill (a b : ℕ) : RelMat l R (Mat.fill a b (0 : Num)) (fun _ => Mat.fill a b (0 : Num)) :=
  ⟨Eventually.of_forall fun _ => rfl, Eventually.of_forall fun _ => rfl, fun _ _ _ _ => hR.zero⟩

/-- Forward, backward and output tables. -/
abbrev RelT (l : Filter ι) (R : Num → (ι → Num) → Prop) : Mat Num × Mat Num × Mat Num → (ι → Mat Num × Mat Num × Mat Num) → Prop :=
  RelP (RelMat l R) (RelP (RelMat l R) (RelMat l R))

theorem rel_ksatBody (hp : Picks R) (k : ℕ) (h : RelMat l R m u) (c : ℕ) {s : Mat Num × Mat Num × Mat Num} {t : ι → Mat Num × Mat Num × Mat Num}
    (hst : RelT l R s t) (hz : ∀ c', c ≤ c' → ∀ v, s.2.2.data c' v = 0) :
    RelO l (fun a b => RelT l R a b ∧ ∀ c', c + 1 ≤ c' → ∀ v, a.2.2.data c' v = 0) (ksatBody k m conx ty c s)
      (fun i => Rounded.ksatBody (r i) k (u i) (conx' i) (ty' i) c (t i)) := by
  refine (hst.1.wrRow 0 (rel_initFwd2 hR)).bind fun fw fw' _ hf => ?_
  refine RelO.bind (R := RelMat l R) (RelO.loopUp hf fun s _ _ _ hf => rel_ksatFwdStage hR hc h c s hf) fun fw fw' _ hf => ?_
  refine (hst.2.1.wrRow k (rel_initBwd2 hR)).bind fun bw bw' _ hb => ?_
  refine RelO.bind (R := RelMat l R) (RelO.loopDown hb fun s _ _ _ hb => rel_ksatBwdStage hR hc k h c s hb) fun bw bw' _ hb => ?_
  refine RelO.bind (RelO.loopUp_inv (R := RelMat l R) (Fresh conx c) hst.2.2 ⟨fun _ _ v _ => hz c le_rfl v, fun c' hc' v => hz c' hc'.le v⟩
    fun s _ a b hab hP => rel_ksatOut hR hc hp k h hf hb c s hab hP) fun a b _ hab => ?_
  exact RelO.some ⟨⟨hf, hb, hab.1⟩, hab.2.2⟩

theorem rel_ksatToVariableUpdate (hp : Picks R) (n k : ℕ) (h : RelMat l R m u) {out : Mat Num} {out' : ι → Mat Num} (ho : RelMat l R out out') :
    RelO l (RelMat l R) (ksatToVariableUpdate n k m out conx ty)
      (fun i => Rounded.ksatToVariableUpdate (r i) n k (u i) (out' i) (conx' i) (ty' i)) := by
  have h0 : RelMat l R (Mat.fill out.rows out.cols 0) (fun i => Mat.fill (out' i).rows (out' i).cols (0 : Num)) :=
    ⟨ho.rows, ho.cols, fun _ _ _ _ => hR.zero⟩
  refine RelO.bind (RelO.loopUp_inv (R := RelT l R) (t := fun i => (Mat.fill (k + 1) 2 0, Mat.fill (k + 1) 2 0, Mat.fill (out' i).rows (out' i).cols 0))
    (fun c a => ∀ c', c ≤ c' → ∀ v, a.2.2.data c' v = 0)
    ⟨rel_matFill hR _ _, rel_matFill hR _ _, h0⟩ (fun _ _ _ => rfl) fun c _ a b hab hP => rel_ksatBody hR hc hp k h c hab hP) fun a b _ hab => ?_
  exact RelO.some hab.1.2.2

end clause

section vars
variable (hR : Calc l r R) {m : Mat Num} {u : ι → Mat Num} {cc : Arr Num} {dd : ι → Arr Num}
include hR

theorem rel_usedCosts (n : ℕ) (used : List ℕ) (h : RelArr l R cc dd) :
    RelO l (RelArr l R) (usedCosts n used cc) (fun i => usedCosts n used (dd i)) :=
  RelO.loopList (RelArr.fill hR.zero _) fun v _ _ _ hab => (h.rd v).bind fun _ _ _ hx => hab.wr _ hx

theorem rel_variableSums (n : ℕ) (conns : List (List ℕ)) (h : RelMat l R m u) (hc : RelArr l R cc dd) :
    RelO l (RelArr l R) (variableSums n m conns cc) (fun i => Rounded.variableSums (r i) n (u i) conns (dd i)) := by
  refine RelO.loopUp (RelArr.fill hR.zero _) fun j _ a b hab => RelO.bind_same fun L _ => ?_
  refine RelO.bind (R := RelArr l R) (RelO.loopList hab fun c _ a b hab => ?_) fun a b _ hab => ?_
  · exact (hab.rd _).bind fun _ _ _ h1 => (h.rd _ _).bind fun _ _ _ h2 => hab.wr _ (hR.add h1 h2)
  · exact (hab.rd _).bind fun _ _ _ h1 => (hc.rd _).bind fun _ _ _ h2 => hab.wr _ (hR.add h1 h2)

/-- Every entry is zero or the message of its place. -/
def OwnOrZero (sums : Arr Num) (m out : Mat Num) : Prop := ∀ c v, out.data c v = 0 ∨ out.data c v = sums.data v - m.data c v

theorem rel_variableOut (hp : Picks R) (conns : List (List ℕ)) (h : RelMat l R m u) (hs : RelArr l R cc dd) (v : ℕ) {out : Mat Num} {out' : ι → Mat Num}
    (ho : RelMat l R out out') (hz : OwnOrZero cc m out) :
    RelO l (fun a b => RelMat l R a b ∧ OwnOrZero cc m a) (variableOut cc m conns v out)
      (fun i => Rounded.variableOut (r i) (dd i) (u i) conns v (out' i)) := by
  refine RelO.bind_same fun L _ => RelO.loopList ⟨ho, hz⟩ fun c _ a b hab => ?_
  have swap : ∀ (a : Mat Num) (s : Arr Num) (m : Mat Num) (f : Num → Num → Num), ((a.rd c v).bind fun o => (s.rd v).bind fun s => (m.rd c v).bind fun x =>
      if Num.lt (Num.abs o) (Num.abs (f s x)) then a.wr c v (f s x) else some a) =
      (s.rd v).bind fun s => (m.rd c v).bind fun x => (a.rd c v).bind fun o =>
      if Num.lt (Num.abs o) (Num.abs (f s x)) then a.wr c v (f s x) else some a := by
    intro a s m f
    cases a.rd c v <;> cases s.rd v <;> cases m.rd c v <;> rfl
  have e1 := swap a cc m (fun s x => s - x)
  have e2 := fun i => swap (b i) (dd i) (u i) (fun s x => Rounded.rn (r i) (s - x))
  beta_reduce
  simp only [Option.bind_eq_bind]
  rw [e1, funext e2]
  refine (hs.rd v).bind fun s s' h1 hss => (h.rd c v).bind fun x x' h2 hxx => ?_
  have es : s = cc.data v := by
    unfold Arr.rd at h1; split at h1
    · exact (Option.some.inj h1).symm
    · cases h1
  have ex : x = m.data c v := by
    unfold Mat.rd at h2; split at h2
    · exact (Option.some.inj h2).symm
    · cases h2
  refine (rel_pickAt hR hp hab.1 c v (hR.sub hss hxx) (by rw [es, ex]; exact hab.2 c v)).mono ?_
  rintro a' b' ⟨g1, g2⟩
  refine ⟨g1, fun c' v' => ?_⟩
  rw [g2]
  by_cases hcv : c' = c ∧ v' = v
  · obtain ⟨rfl, rfl⟩ := hcv
    simp only [and_self, if_true]
    unfold pick
    split
    · right; rw [es, ex]
    · exact hab.2 c' v'
  · rw [if_neg hcv]; exact hab.2 c' v'

theorem rel_variableToKsat (hp : Picks R) (n : ℕ) (used : List ℕ) (conns : List (List ℕ)) {m' : Mat Num} {u' : ι → Mat Num} (h : RelMat l R m u)
    (h' : RelMat l R m' u') (hc : RelArr l R cc dd) :
    RelO l (RelMat l R) (variableToKsat n m m' used cc conns) (fun i => Rounded.variableToKsat (r i) n (u i) (u' i) used (dd i) conns) := by
  refine (rel_usedCosts hR n used hc).bind fun cs cs' _ hcs => (rel_variableSums hR n conns h hcs).bind fun s s' _ hs => ?_
  refine RelO.mono (R := fun a b => RelMat l R a b ∧ OwnOrZero s m a) ?_ fun _ _ h => h.1
  refine RelO.loopList ⟨⟨h'.rows, h'.cols, fun _ _ _ _ => hR.zero⟩, fun _ _ => Or.inl rfl⟩ fun v _ a b hab => rel_variableOut hR hp conns h hs v hab.1 hab.2

end vars

/-- Related inputs. -/
structure RelKsat (l : Filter ι) (R : Num → (ι → Num) → Prop) (inp : KsatInputs) (J : ι → KsatInputs) : Prop where
  numVars : ∀ i, (J i).numVars = inp.numVars
  numConstraints : ∀ i, (J i).numConstraints = inp.numConstraints
  k : ∀ i, (J i).k = inp.k
  flag : ∀ i, (J i).flag = inp.flag
  alpha : ∀ i, (J i).alpha = inp.alpha
  used : ∀ i, (J i).used = inp.used
  conns : ∀ i, (J i).conns = inp.conns
  clauses : RelClauses inp.conx inp.conxType (fun i => (J i).conx) (fun i => (J i).conxType)
  cost : RelArr l R inp.cost (fun i => (J i).cost)

structure RelKState (l : Filter ι) (R : Num → (ι → Num) → Prop) (s : KsatState) (t : ι → KsatState) : Prop where
  v2k : RelMat l R s.v2k (fun i => (t i).v2k)
  dummy : RelMat l R s.dummy (fun i => (t i).dummy)
  k2v : RelMat l R s.k2v (fun i => (t i).k2v)
  old : RelMat l R s.old (fun i => (t i).old)

section run
variable (hR : Calc l r R) (hp : Picks R) {inp : KsatInputs} {J : ι → KsatInputs} (hJ : RelKsat l R inp J) (hd : Damps r R inp.flag inp.alpha)
include hR hp hJ hd

theorem rel_ksatIter (iter : ℕ) {s : KsatState} {t : ι → KsatState} (h : RelKState l R s t) :
    RelO l (RelKState l R) (ksatIter inp iter s) (fun i => Rounded.ksatIter (r i) (J i) iter (t i)) := by
  simp only [Rounded.ksatIter, hJ.numVars, hJ.numConstraints, hJ.k, hJ.flag, hJ.alpha, hJ.used, hJ.conns]
  refine (rel_ksatToVariableUpdate hR hJ.clauses hp _ _ h.v2k h.dummy).bind fun a b _ hab => ?_
  refine (rel_processFiltering hR hd _ iter hab (t := fun i => ((t i).k2v, (t i).old)) ⟨h.k2v, h.old⟩).bind fun p q _ hpq => ?_
  refine (rel_variableToKsat hR hp _ _ _ hpq.1 h.v2k hJ.cost).bind fun x y _ hxy => ?_
  exact RelO.some ⟨hxy, hab, hpq.1, hpq.2⟩

theorem rel_ksatSolve (numIter : ℕ) {v2k : Mat Num} {V : ι → Mat Num} (hv : RelMat l R v2k V) :
    RelO l (RelArr l R) (ksatSolve inp v2k numIter) (fun i => Rounded.ksatSolve (r i) (J i) (V i) numIter) := by
  have e : ksatSolve inp v2k numIter = (loopUp numIter (ksatIter inp) (ksatInit inp v2k)).bind fun st =>
      ksatExtrinsic inp.numVars inp.numConstraints st.k2v (Arr.fill inp.numVars 0) := by
    simp only [ksatSolve, ksatIterate, Option.bind_eq_bind, Option.bind_assoc, Option.bind_some, Option.bind_fun_some]
  rw [e]
  have h0 : RelKState l R (ksatInit inp v2k) (fun i => ksatInit (J i) (V i)) := by
    simp only [ksatInit, hJ.numVars, hJ.numConstraints]
    exact ⟨hv, rel_matFill hR _ _, rel_matFill hR _ _, rel_matFill hR _ _⟩
  refine RelO.bind (RelO.loopUp h0 fun j _ a b hab => rel_ksatIter hR hp hJ hd j hab) fun a b _ hab => ?_
  simp only [hJ.numVars, hJ.numConstraints]
  refine RelO.loopUp (RelArr.fill hR.zero _) fun j _ a b h1 => RelO.loopUp h1 fun c _ a b h1 => ?_
  exact (h1.rd _).bind fun _ _ _ h2 => (hab.k2v.rd _ _).bind fun _ _ _ h3 => h1.wr _ (hR.add h2 h3)

end run

end Verif.Proofs
