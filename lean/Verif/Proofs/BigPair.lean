import Verif.Proofs.KcBounds
import Verif.Proofs.KcIO
import Verif.Proofs.KcRun

/-! Runs of the assignment solver with large and with infinite costs of pairs, compared. -/

namespace Verif.Proofs
open Verif Num Spec Model

section
variable {α β α' β' : Type} {R : α → β → Prop} {S : α' → β' → Prop}

/-- If the first computation returns, so does the second, with a related result. -/
def Sim (R : α → β → Prop) (x : Option α) (y : Option β) : Prop := ∀ a, x = some a → ∃ b, y = some b ∧ R a b

theorem Sim.some {a : α} {b : β} (h : R a b) : Sim R (some a) (some b) := fun c hc => by
  obtain rfl := Option.some.inj hc; exact ⟨b, rfl, h⟩

theorem Sim.none {y : Option β} : Sim R none y := fun _ h => by cases h

theorem Sim.bind {x : Option α} {y : Option β} {f : α → Option α'} {g : β → Option β'} (h : Sim R x y)
    (hf : ∀ a b, x = Option.some a → R a b → Sim S (f a) (g b)) : Sim S (x.bind f) (y.bind g) := by
  intro c hc
  obtain ⟨a, ha, hfa⟩ := Option.bind_eq_some_iff.mp hc
  obtain ⟨b, hb, hab⟩ := h a ha
  obtain ⟨d, hd, hcd⟩ := hf a b ha hab c hfa
  exact ⟨d, by rw [hb]; exact hd, hcd⟩

/-- Both sides begin with the same computation. -/
theorem Sim.same {x : Option α} {f : α → Option α'} {g : α → Option β'} (hf : ∀ a, x = Option.some a → Sim S (f a) (g a)) :
    Sim S (x.bind f) (x.bind g) := by
  cases x with
  | none => exact fun _ h => by cases h
  | some a => exact hf a rfl

theorem Sim.refl (x : Option α) : Sim Eq x x := fun a h => ⟨a, h, rfl⟩

theorem Sim.loopUp {n : ℕ} {f : ℕ → α → Option α} {g : ℕ → β → Option β} {s : α} {t : β} (h0 : R s t)
    (hf : ∀ k < n, ∀ a b, R a b → Sim R (f k a) (g k b)) : Sim R (loopUp n f s) (Verif.loopUp n g t) := by
  induction n with
  | zero => exact Sim.some h0
  | succ n ih => exact (ih fun k hk => hf k (by omega)).bind fun a b _ hab => hf n (by omega) a b hab

theorem Sim.loopDown {n : ℕ} {f : ℕ → α → Option α} {g : ℕ → β → Option β} {s : α} {t : β} (h0 : R s t)
    (hf : ∀ k < n, ∀ a b, R a b → Sim R (f k a) (g k b)) : Sim R (loopDown n f s) (Verif.loopDown n g t) := by
  induction n generalizing s t with
  | zero => exact Sim.some h0
  | succ n ih => exact (hf n (by omega) s t h0).bind fun a b _ hab => ih hab fun k hk => hf k (by omega)
end

/-- Tables of the same shape, related entry by entry. -/
structure MatRel (r : ℕ → ℕ → Num → Num → Prop) (m m' : Mat Num) : Prop where
  rows : m'.rows = m.rows
  cols : m'.cols = m.cols
  data : ∀ k < m.rows, ∀ j < m.cols, r k j (m.data k j) (m'.data k j)

section
variable {r : ℕ → ℕ → Num → Num → Prop} {m m' : Mat Num}

theorem MatRel.rd (h : MatRel r m m') (k j : ℕ) : Sim (r k j) (m.rd k j) (m'.rd k j) := by
  unfold Mat.rd
  rw [h.rows, h.cols]
  split
  · next hh => exact Sim.some (h.data k hh.1 j hh.2)
  · exact Sim.none

theorem MatRel.wr (h : MatRel r m m') {k j : ℕ} {v v' : Num} (hv : r k j v v') : Sim (MatRel r) (m.wr k j v) (m'.wr k j v') := by
  unfold Mat.wr
  rw [h.rows, h.cols]
  split
  · refine Sim.some ⟨rfl, rfl, fun i hi l hl => ?_⟩
    show r i l (if i = k ∧ l = j then v else m.data i l) (if i = k ∧ l = j then v' else m'.data i l)
    by_cases e : i = k ∧ l = j
    · rw [if_pos e, if_pos e, e.1, e.2]; exact hv
    · rw [if_neg e, if_neg e]; exact h.data i hi l hl
  · exact Sim.none

theorem MatRel.wrRow (h : MatRel r m m') {k : ℕ} {v : Arr Num} (hv : ∀ j < v.size, r k j (v.data j) (v.data j)) :
    Sim (MatRel r) (m.wrRow k v) (m'.wrRow k v) := by
  unfold Mat.wrRow
  rw [h.rows, h.cols]
  split
  · next hh =>
    refine Sim.some ⟨rfl, rfl, fun i hi l hl => ?_⟩
    show r i l (if i = k then v.data l else m.data i l) (if i = k then v.data l else m'.data i l)
    by_cases e : i = k
    · rw [if_pos e, if_pos e, e]; exact hv l (by rw [hh.2]; exact hl)
    · rw [if_neg e, if_neg e]; exact h.data i hi l hl
  · exact Sim.none

theorem MatRel.fill {v : Num} {a b : ℕ} (h : ∀ k j, r k j v v) : MatRel r (Mat.fill a b v) (Mat.fill a b v) := ⟨rfl, rfl, fun k _ j _ => h k j⟩
end

/-- Not below zero. -/
def Big (x : Num) : Prop := x = pinf ∨ ∃ q : ℚ, 0 ≤ q ∧ x = fin q

/-- Equal, or both not below zero. -/
def Low (x y : Num) : Prop := x = y ∨ (Big x ∧ Big y)

theorem Low.rfl' {x : Num} : Low x x := Or.inl rfl

theorem big_fin {q : ℚ} (h : 0 ≤ q) : Big (fin q) := Or.inr ⟨q, h, rfl⟩

theorem cmin_nan (x : Num) : cmin nan x = nan := by cases x <;> rfl

theorem cmin_below {x z : Num} (hx : Big x) (hz : lt z 0 = true) : cmin x z = z ∧ cmin z x = z := by
  rcases hx with rfl | ⟨p, hp, rfl⟩ <;> cases z <;> simp_all [cmin, lt]
  exact ⟨fun h => by linarith, fun h => by linarith⟩

theorem cmin_above {x z : Num} (hx : Big x) (hz : lt z 0 = false) : Big (cmin x z) ∧ (z = nan ∧ cmin z x = nan ∨ Big (cmin z x)) := by
  rcases hx with rfl | ⟨p, hp, rfl⟩ <;> cases z with
  | nan => exact ⟨by first | exact Or.inl rfl | exact big_fin hp, Or.inl ⟨rfl, rfl⟩⟩
  | ninf => simp [lt] at hz
  | pinf => exact ⟨by first | exact Or.inl rfl | exact big_fin hp, Or.inr (by first | exact Or.inl rfl | exact big_fin hp)⟩
  | fin q =>
    have hq : 0 ≤ q := by simpa [lt, zero_def] using hz
    first
    | (rw [cmin_fin, cmin_fin]; exact ⟨big_fin (le_min hp hq), Or.inr (big_fin (le_min hq hp))⟩)
    | exact ⟨big_fin hq, Or.inr (big_fin hq)⟩

theorem Low.cmin {x y x' y' : Num} (h : Low x y) (h' : Low x' y') : Low (cmin x x') (cmin y y') := by
  rcases h with rfl | ⟨h1, h2⟩
  · rcases h' with rfl | ⟨h3, h4⟩
    · exact Or.inl rfl
    · cases hx : lt x 0 with
      | true => exact Or.inl (by rw [(cmin_below h3 hx).2, (cmin_below h4 hx).2])
      | false =>
        rcases (cmin_above h3 hx).2 with ⟨rfl, e⟩ | e
        · exact Or.inl (by rw [cmin_nan, cmin_nan])
        · rcases (cmin_above h4 hx).2 with ⟨rfl, e'⟩ | e'
          · exact Or.inl (by rw [cmin_nan, cmin_nan])
          · exact Or.inr ⟨e, e'⟩
  · rcases h' with rfl | ⟨h3, h4⟩
    · cases hx : lt x' 0 with
      | true => exact Or.inl (by rw [(cmin_below h1 hx).1, (cmin_below h2 hx).1])
      | false => exact Or.inr ⟨(cmin_above h1 hx).1, (cmin_above h2 hx).1⟩
    · have : ∀ {z : Num}, Big z → lt z 0 = false := by
        rintro z (rfl | ⟨q, hq, rfl⟩)
        · rfl
        · simpa [lt, zero_def] using hq
      exact Or.inr ⟨(cmin_above h1 (this h3)).1, (cmin_above h2 (this h4)).1⟩

theorem Low.zero {x y : Num} (h : Low x y) : Num.cmin x 0 = Num.cmin y 0 := by
  rcases h with rfl | ⟨h1, h2⟩
  · rfl
  · have : ∀ {x : Num}, Big x → Num.cmin x 0 = 0 := by
      rintro x (rfl | ⟨q, hq, rfl⟩)
      · rfl
      · rw [zero_def, cmin_fin, min_eq_right hq]
    rw [this h1, this h2]

theorem Low.zero_add {x y : Num} (h : Low x y) : Low (0 + x) (0 + y) := by
  have : ∀ {x : Num}, Big x → Big (0 + x) := by
    rintro x (rfl | ⟨q, hq, rfl⟩)
    · exact Or.inl rfl
    · exact Or.inr ⟨0 + q, by linarith, rfl⟩
  rcases h with rfl | ⟨h1, h2⟩
  · exact Or.inl rfl
  · exact Or.inr ⟨this h1, this h2⟩

/-- Forward tables: state 0 costs nothing. -/
def FwdRel (_ j : ℕ) (x y : Num) : Prop := (j = 0 → x = 0 ∧ y = 0) ∧ Low x y
/-- Backward tables: nothing can be added in state 1. -/
def BwdRel (_ j : ℕ) (x y : Num) : Prop := (j = 1 → x = 0 ∧ y = 0) ∧ Low x y

theorem fwdRel_init : ∀ j < initFwd2.size, FwdRel 0 j (initFwd2.data j) (initFwd2.data j) := fun j _ =>
  ⟨fun h => by subst h; exact ⟨rfl, rfl⟩, Or.inl rfl⟩
theorem bwdRel_init {k : ℕ} : ∀ j < initBwd2.size, BwdRel k j (initBwd2.data j) (initBwd2.data j) := fun _ _ => ⟨fun _ => ⟨rfl, rfl⟩, Or.inl rfl⟩

section
variable {m m' F F' B B' : Mat Num}

theorem sim_projFwdStage (hm : MatRel (fun _ _ => Low) m m') (p k : ℕ) (h : MatRel FwdRel F F') :
    Sim (MatRel FwdRel) (projFwdStage m p k F) (projFwdStage m' p k F') := by
  simp only [projFwdStage, Option.bind_eq_bind]
  refine (h.rd k 0).bind fun a b _ hab => (h.wr (k := k + 1) (j := 0) hab).bind fun G G' _ hG => (hG.rd k 1).bind fun c d _ hcd =>
    (hG.rd k 0).bind fun x y _ hxy => (hm.rd p k).bind fun u v _ huv => hG.wr ⟨fun hh => by omega, hcd.2.cmin ?_⟩
  rw [(hxy.1 rfl).1, (hxy.1 rfl).2]; exact huv.zero_add

theorem sim_projBwdStage (hm : MatRel (fun _ _ => Low) m m') (p k : ℕ) (h : MatRel BwdRel B B') :
    Sim (MatRel BwdRel) (projBwdStage m p k B) (projBwdStage m' p k B') := by
  simp only [projBwdStage, Option.bind_eq_bind]
  refine (h.rd (k + 1) 0).bind fun a b _ hab => (h.rd (k + 1) 1).bind fun c d _ hcd => (hm.rd p k).bind fun u v _ huv =>
    (h.wr (k := k) (j := 0) ⟨fun hh => by omega, hab.2.cmin ?_⟩).bind fun G G' _ hG => (hG.rd (k + 1) 1).bind fun x y _ hxy => hG.wr hxy
  rw [(hcd.1 rfl).1, (hcd.1 rfl).2]; exact huv.zero_add

theorem sim_projOut (hF : MatRel FwdRel F F') (hB : MatRel BwdRel B B') (p t : ℕ) (out : Mat Num) :
    Sim Eq (projOut F B p t out) (projOut F' B' p t out) := by
  simp only [projOut, Option.bind_eq_bind]
  refine (hF.rd t 1).bind fun a b _ hab => (hB.rd (t + 1) 0).bind fun c d _ hcd => ?_
  rw [(hab.2.cmin hcd.2).zero]
  exact Sim.refl _

/-- The constraints of the projects do not tell large costs from infinite ones. -/
theorem sim_projectInequalityUpdate (T : ℕ) (hm : MatRel (fun _ _ => Low) m m') (out : Mat Num) :
    Sim Eq (projectInequalityUpdate T m out) (projectInequalityUpdate T m' out) := by
  simp only [projectInequalityUpdate, Option.bind_eq_bind]
  refine Sim.bind (R := fun s s' : Mat Num × Mat Num × Mat Num => MatRel FwdRel s.1 s'.1 ∧ MatRel BwdRel s.2.1 s'.2.1 ∧ s.2.2 = s'.2.2)
    (Sim.loopUp ⟨MatRel.fill fun _ _ => ⟨fun _ => ⟨rfl, rfl⟩, Or.inl rfl⟩, MatRel.fill fun _ _ => ⟨fun _ => ⟨rfl, rfl⟩, Or.inl rfl⟩, rfl⟩ ?_) ?_
  · rintro p - ⟨F, B, o⟩ ⟨F', B', o'⟩ ⟨h1, h2, h3⟩
    simp only at h1 h2 h3
    subst h3
    simp only [projBody, Option.bind_eq_bind]
    refine (h1.wrRow fwdRel_init).bind fun F F' _ hF => (Sim.loopUp hF fun k _ a b hab => sim_projFwdStage hm p k hab).bind fun F F' _ hF =>
      (h2.wrRow bwdRel_init).bind fun B B' _ hB => (Sim.loopDown hB fun k _ a b hab => sim_projBwdStage hm p k hab).bind fun B B' _ hB =>
      (Sim.loopUp (R := Eq) rfl fun t _ a b hab => hab ▸ sim_projOut hF hB p t a).bind fun o o' _ ho => Sim.some ⟨hF, hB, ho⟩
  · rintro ⟨F, B, o⟩ ⟨F', B', o'⟩ - ⟨h1, h2, h3⟩
    exact Sim.some h3

variable {t2o : Arr Num}

/-- Messages into the coupling constraints, as the constraint of team `t` adds them up. -/
def InRel (t2o : Arr Num) (_ t : ℕ) (x y : Num) : Prop := ∀ v, t2o.rd t = some v → Low (0 + x + v) (0 + y + v)

theorem sim_oricFwdStage (hm : MatRel (InRel t2o) m m') (t k : ℕ) (h : MatRel FwdRel F F') :
    Sim (MatRel FwdRel) (oricFwdStage m t2o t k F) (oricFwdStage m' t2o t k F') := by
  simp only [oricFwdStage, Option.bind_eq_bind]
  refine (h.rd k 0).bind fun a b _ hab => (h.wr (k := k + 1) (j := 0) hab).bind fun G G' _ hG => (hG.rd k 1).bind fun c d _ hcd =>
    (hG.rd k 0).bind fun x y _ hxy => (hm.rd k t).bind fun u v _ huv => Sim.same fun z hz => hG.wr ⟨fun hh => by omega, hcd.2.cmin ?_⟩
  rw [(hxy.1 rfl).1, (hxy.1 rfl).2]; exact huv z hz

theorem sim_oricBwdStage (hm : MatRel (InRel t2o) m m') (t k : ℕ) (h : MatRel BwdRel B B') :
    Sim (MatRel BwdRel) (oricBwdStage m t2o t k B) (oricBwdStage m' t2o t k B') := by
  simp only [oricBwdStage, Option.bind_eq_bind]
  refine (h.rd (k + 1) 0).bind fun a b _ hab => (h.rd (k + 1) 1).bind fun c d _ hcd => (hm.rd k t).bind fun u v _ huv => Sim.same fun z hz =>
    (h.wr (k := k) (j := 0) ⟨fun hh => by omega, hab.2.cmin ?_⟩).bind fun G G' _ hG => (hG.rd (k + 1) 1).bind fun x y _ hxy => hG.wr hxy
  rw [(hcd.1 rfl).1, (hcd.1 rfl).2]; exact huv z hz

/-- Costs of pairs that differ at most by `M` instead of infinity, with the same number added on both sides. -/
def PairRel (F : ℕ → ℕ → Bool) (M : ℚ) (p t : ℕ) (x y : Num) : Prop := x = y ∨ F p t = true ∧ ∃ z, x = z + fin M ∧ y = z + pinf

/-- The costs themselves. -/
def CostRel (F : ℕ → ℕ → Bool) (M : ℚ) (p t : ℕ) (x y : Num) : Prop := x = y ∨ F p t = true ∧ x = fin M ∧ y = pinf

theorem CostRel.add {F : ℕ → ℕ → Bool} {M : ℚ} {p t : ℕ} {x y : Num} (h : CostRel F M p t x y) (z : Num) : PairRel F M p t (z + x) (z + y) := by
  rcases h with rfl | ⟨hF, rfl, rfl⟩
  · exact Or.inl rfl
  · exact Or.inr ⟨hF, z, rfl, rfl⟩

theorem sim_oricOut {N : ℕ → ℕ → Bool} {M : ℚ} {R R' e e' : Mat Num} (hF : MatRel FwdRel F F') (hB : MatRel BwdRel B B') (hR : MatRel (CostRel N M) R R') (t p : ℕ)
    (o : Mat Num) (he : MatRel (PairRel N M) e e') :
    Sim (fun s s' : Mat Num × Mat Num => s.1 = s'.1 ∧ MatRel (PairRel N M) s.2 s'.2) (oricOut F B t2o R t p (o, e)) (oricOut F' B' t2o R' t p (o, e')) := by
  simp only [oricOut, Option.bind_eq_bind]
  refine (hF.rd p 1).bind fun a b _ hab => (hB.rd (p + 1) 0).bind fun c d _ hcd => Sim.same fun v hv => ?_
  rw [(hab.2.cmin hcd.2).zero]
  exact Sim.same fun o _ => Sim.same fun x _ => (hR.rd p t).bind fun r r' _ hr => (he.wr (hr.add x)).bind fun e e' _ he => Sim.some ⟨rfl, he⟩

/-- The coupling constraints do not tell large costs from infinite ones. -/
theorem sim_oricToProjectUpdate {N : ℕ → ℕ → Bool} {M : ℚ} (P T : ℕ) (hm : MatRel (InRel t2o) m m') (o : Mat Num) {e e' R R' : Mat Num}
    (he : MatRel (PairRel N M) e e') (hR : MatRel (CostRel N M) R R') :
    Sim (fun s s' : Mat Num × Mat Num => s.1 = s'.1 ∧ MatRel (PairRel N M) s.2 s'.2)
      (oricToProjectUpdate P T m t2o o e R) (oricToProjectUpdate P T m' t2o o e' R') := by
  simp only [oricToProjectUpdate, Option.bind_eq_bind]
  refine Sim.bind (R := fun s s' : Mat Num × Mat Num × Mat Num × Mat Num => MatRel FwdRel s.1 s'.1 ∧ MatRel BwdRel s.2.1 s'.2.1 ∧ s.2.2.1 = s'.2.2.1 ∧
      MatRel (PairRel N M) s.2.2.2 s'.2.2.2)
    (Sim.loopUp ⟨MatRel.fill fun _ _ => ⟨fun _ => ⟨rfl, rfl⟩, Or.inl rfl⟩, MatRel.fill fun _ _ => ⟨fun _ => ⟨rfl, rfl⟩, Or.inl rfl⟩, rfl, he⟩ ?_) ?_
  · rintro t - ⟨F, B, o, e⟩ ⟨F', B', o', e'⟩ ⟨h1, h2, h3, h4⟩
    simp only at h1 h2 h3 h4
    subst h3
    simp only [oricBody, Option.bind_eq_bind]
    refine (h1.wrRow fwdRel_init).bind fun F F' _ hF => (Sim.loopUp hF fun k _ a b hab => sim_oricFwdStage hm t k hab).bind fun F F' _ hF =>
      (h2.wrRow bwdRel_init).bind fun B B' _ hB => (Sim.loopDown hB fun k _ a b hab => sim_oricBwdStage hm t k hab).bind fun B B' _ hB => ?_
    refine Sim.bind (R := fun s s' : Mat Num × Mat Num => s.1 = s'.1 ∧ MatRel (PairRel N M) s.2 s'.2)
      (Sim.loopUp ⟨rfl, h4⟩ ?_) fun o o' _ ho => Sim.some ⟨hF, hB, ho.1, ho.2⟩
    rintro p - ⟨o, e⟩ ⟨o', e'⟩ ⟨h5, h6⟩
    simp only at h5 h6
    subst h5
    exact sim_oricOut hF hB hR t p o h6
  · rintro ⟨F, B, o, e⟩ ⟨F', B', o', e'⟩ - ⟨-, -, h3, h4⟩
    exact Sim.some ⟨h3, h4⟩

/-- Equal, or both not below the limit of the messages to teams. -/
def AboveLimit (x y : Num) : Prop := x = y ∨ ∃ q : ℚ, 1000000 ≤ q ∧ x = fin q ∧ y = pinf

theorem sim_oricToTeamUpdate (hm : MatRel (fun _ _ => AboveLimit) m m') (out : Arr Num) :
    Sim Eq (oricToTeamUpdate m out) (oricToTeamUpdate m' out) := by
  unfold oricToTeamUpdate
  refine Sim.loopUp (R := Eq) rfl fun t _ a b hab => ?_
  subst hab
  simp only [oricTeamBody, Option.bind_eq_bind]
  rw [hm.rows]
  refine Sim.bind (R := fun x y : Num => x = y ∧ ∃ q : ℚ, q ≤ 1000000 ∧ x = fin q ∨ x = ninf ∧ q = 0) (Sim.loopUp ⟨rfl, 1000000, Or.inl ⟨le_rfl, rfl⟩⟩ ?_) fun x y _ hxy => by
    rw [hxy.1]; exact Sim.refl _
  rintro p - x y ⟨rfl, q, hq⟩
  simp only [oricTeamMin, Option.bind_eq_bind]
  refine (hm.rd p t).bind fun u v _ huv => ?_
  have key : (if lt u x then u else x) = (if lt v x then v else x) := by
    rcases huv with rfl | ⟨z, hz, rfl, rfl⟩
    · rfl
    · rcases hq with ⟨hq, rfl⟩ | ⟨rfl, -⟩
      · simp [lt, not_lt.mpr (hq.trans hz)]
      · rfl
  rw [key]
  refine Sim.some ⟨rfl, ?_⟩
  cases v with
  | nan => exact ⟨q, by simpa [lt] using hq⟩
  | ninf =>
    rcases hq with ⟨hq, rfl⟩ | ⟨rfl, h0⟩
    · exact ⟨0, Or.inr ⟨rfl, rfl⟩⟩
    · exact ⟨0, Or.inr ⟨rfl, rfl⟩⟩
  | pinf =>
    refine ⟨q, ?_⟩
    rcases hq with ⟨hq, rfl⟩ | ⟨rfl, h0⟩
    · exact Or.inl ⟨hq, rfl⟩
    · exact Or.inr ⟨rfl, h0⟩
  | fin z =>
    rcases hq with ⟨hq, rfl⟩ | ⟨rfl, h0⟩
    · by_cases hl : z < q
      · exact ⟨z, Or.inl ⟨hl.le.trans hq, by simp [lt, hl]⟩⟩
      · exact ⟨q, Or.inl ⟨hq, by simp [lt, hl]⟩⟩
    · exact ⟨q, Or.inr ⟨rfl, h0⟩⟩

/-- Messages from pairs to coupling constraints. -/
theorem sim_projectToOric {N : ℕ → ℕ → Bool} {M : ℚ} (y : Mat Num) {e e' R R' : Mat Num} (he : MatRel (PairRel N M) e e') (hR : MatRel (CostRel N M) R R') :
    Sim (MatRel (PairRel N M)) (projectToOric y e R) (projectToOric y e' R') := by
  unfold projectToOric
  refine Sim.loopUp he fun p _ e e' he => ?_
  simp only [Option.bind_eq_bind]
  refine Sim.same fun x hx => ?_
  simp only [Mat.rdRow, hR.rows, he.rows, hR.cols, he.cols]
  by_cases hr : p < R.rows
  · by_cases hp : p < e.rows
    · simp only [if_pos hr, if_pos hp, Option.bind_some, Arr.addTo, Mat.wrRow, he.rows, he.cols]
      split
      · next hs =>
        simp only [Option.bind_some, hp, true_and, if_true]
        refine Sim.some ⟨rfl, rfl, fun k hk j hj => ?_⟩
        simp only at hk hj ⊢
        by_cases hkp : k = p
        · subst hkp
          simp only [if_true]
          split
          · next hjx => exact (hR.data k hr j (hjx.trans_le hs.1)).add _
          · exact he.data k hk j hj
        · simp only [if_neg hkp]; exact he.data k hk j hj
      · exact Sim.none
    · simp only [if_pos hr, if_neg hp, Option.bind_some]
      exact Sim.none
  · simp only [if_neg hr]
    exact Sim.none
end

/-- Messages from pairs: equal, or one is infinite and the other, of a forbidden pair, at least `M`. -/
def Ahead (N : ℕ → ℕ → Bool) (M : ℚ) (p t : ℕ) (x y : Num) : Prop := x = y ∨ N p t = true ∧ ∃ q : ℚ, M ≤ q ∧ x = fin q ∧ y = pinf

theorem Ahead.pair {N : ℕ → ℕ → Bool} {M : ℚ} {p t : ℕ} {x y : Num} (h : Ahead N M p t x y) : PairRel N M p t x y := by
  rcases h with rfl | ⟨hN, q, -, rfl, rfl⟩
  · exact Or.inl rfl
  · exact Or.inr ⟨hN, fin (q - M), by simp, rfl⟩

/-- States of the two runs. -/
structure BigState (N : ℕ → ℕ → Bool) (M : ℚ) (s s' : KcState) : Prop where
  a : s'.a = s.a
  dummy : s'.dummy = s.dummy
  ext : s'.ext = s.ext
  extOld : s'.extOld = s.extOld
  t2o : s'.t2o = s.t2o
  e2o : MatRel (Ahead N M) s.e2o s'.e2o
  o2e : s'.o2e = s.o2e
  e2p : MatRel (PairRel N M) s.e2p s'.e2p
  p2e : s'.p2e = s.p2e
  o2t : s'.o2t = s.o2t
  outTeam : s'.outTeam = s.outTeam
  outMwm : s'.outMwm.size = s.outMwm.size

/-- A finite sum with `M` comes from a finite number. -/
theorem fin_of_add {z : Num} {M q : ℚ} (h : fin q = z + fin M) : z = fin (q - M) := by
  cases z with
  | fin x => rw [fin_add] at h; rw [Num.fin.inj h]; simp
  | _ => cases h

section
variable {inp : KcInputs} {wf : ℕ → ℕ → ℕ} {cap : ℕ → ℕ} {w : ℕ → ℚ} {R : ℕ → ℕ → ℚ} {N : ℕ → ℕ → Bool} {M : ℚ} {Q : Mat Num}

/-- One iteration of the two runs. -/
theorem big_iter (h : KcOk inp wf cap w R) (hQ : MatRel (CostRel N M) inp.rewardProject Q) (hN : ∀ p < inp.numProjects, ∀ t < inp.numTeams, N p t = true → R p t = M)
    (ha : inp.flag = true → 0 ≤ inp.alpha ∧ inp.alpha ≤ 1) (hM : 1000000 ≤ M) (hw : ∀ t < inp.numTeams, 0 ≤ M + w t) {j : ℕ} {s s' : KcState}
    (hs : KcInv inp wf R j s) (hx : ∀ d < inp.numDepartments, ∀ t < inp.numTeams, 0 ≤ s.ext.val d t) (hb : BigState N M s s') :
    ∃ u u', kcIter inp j s = some u ∧ kcIter { inp with rewardProject := Q } j s' = some u' ∧ KcInv inp wf R (j + 1) u ∧
      (∀ d < inp.numDepartments, ∀ t < inp.numTeams, 0 ≤ u.ext.val d t) ∧ BigState N M u u' ∧
      ∀ p < inp.numProjects, ∀ t < inp.numTeams, w t ≤ u.o2e.val p t ∧ 0 ≤ u.p2e.val p t ∧
        u'.outMwm.data (p * inp.numTeams + t) = fin (u.o2e.val p t + u.p2e.val p t) + Q.data p t := by
  obtain ⟨u, hu, hinv, hstep⟩ := kcIter_step h hs
  -- the values of this iteration
  have hext : ∀ d < inp.numDepartments, ∀ t < inp.numTeams, 0 ≤ u.ext.val d t := by
    intro d hd t ht
    by_cases hwt : wf d t = 0
    · rw [hinv.ext_off d hd t ht hwt]
    · have h1 := (capacity_message (mem_users0.mpr ⟨ht, hwt⟩) (hstep.dept d hd t ht hwt)).1
      rw [hstep.damp d hd t ht]
      unfold dampStep
      split
      · next hf =>
        obtain ⟨a1, a2⟩ := ha hf.1
        split
        · exact mul_nonneg (by linarith) h1
        · exact add_nonneg (mul_nonneg (by linarith) h1) (mul_nonneg a1 (hx d hd t ht))
      · exact h1
  have hrooms : ∀ t < inp.numTeams, 0 ≤ ∑ d ∈ depts inp.numDepartments wf t, u.ext.val d t := fun t ht =>
    Finset.sum_nonneg fun d hd => hext d (mem_depts.mp hd).1 t ht
  have ho : ∀ p < inp.numProjects, ∀ t < inp.numTeams, w t ≤ u.o2e.val p t := by
    intro p hp t ht
    obtain ⟨q, hq⟩ := exists_least_rest inp.numProjects (fun k => k ≠ p)
      (fun k => s.e2o.val k t + (w t + ∑ d ∈ depts inp.numDepartments wf t, u.ext.val d t))
    have e1 := Num.fin.inj ((hstep.coupling p hp t ht).unique (coupling_project_message hp hq))
    have e2 : q ≤ 0 := hq.2 (Or.inl rfl)
    have := hrooms t ht
    rw [e1]; linarith
  have hy : ∀ p < inp.numProjects, ∀ t < inp.numTeams, 0 ≤ u.p2e.val p t := by
    intro p hp t ht
    obtain ⟨q, hq⟩ := exists_least_rest inp.numTeams (fun k => k ≠ t) (fun k => u.o2e.val p k + R p k)
    have e1 := Num.fin.inj ((hstep.project p hp t ht).unique (atMostOne_message (Finset.mem_range.mpr ht) (by simpa only [Finset.mem_range] using hq)))
    have e2 : q ≤ 0 := hq.2 (Or.inl rfl)
    rw [e1]; linarith
  -- the stages of the finite run
  have hu' := hu
  simp only [kcIter, Option.bind_eq_bind] at hu'
  obtain ⟨⟨dummy, ext, old⟩, a1, hu'⟩ := Option.bind_eq_some_iff.mp hu'
  obtain ⟨t2o, b1, hu'⟩ := Option.bind_eq_some_iff.mp hu'
  obtain ⟨⟨o2e, e2p⟩, c1, hu'⟩ := Option.bind_eq_some_iff.mp hu'
  obtain ⟨p2e, d1, hu'⟩ := Option.bind_eq_some_iff.mp hu'
  obtain ⟨e2o, g1, hu'⟩ := Option.bind_eq_some_iff.mp hu'
  obtain ⟨o2t, k1, hu'⟩ := Option.bind_eq_some_iff.mp hu'
  obtain ⟨mwm, l1, hu'⟩ := Option.bind_eq_some_iff.mp hu'
  obtain ⟨a, m1, hu'⟩ := Option.bind_eq_some_iff.mp hu'
  obtain rfl := Option.some.inj hu'
  simp only at a1 b1 c1 d1 g1 k1 l1 m1 hext hrooms ho hy
  -- messages to the coupling constraints
  have ht2o : t2o.Is inp.numTeams (fun t => w t + ∑ d ∈ depts inp.numDepartments wf t, ext.val d t) := by
    obtain ⟨t2o', e1, e2⟩ := teamToOric_is hinv.ext hs.t2o h.reward
    obtain rfl : t2o' = t2o := Option.some.inj (e1.symm.trans b1)
    exact e2.congr fun t ht => by
      show w t + ∑ d ∈ Finset.range inp.numDepartments, ext.val d t = _
      rw [depts_sum (fun d hd hwt => hinv.ext_off d hd t ht hwt)]
  have hin : MatRel (InRel t2o) s.e2o s'.e2o := ⟨hb.e2o.rows, hb.e2o.cols, fun p hp t ht v hv => by
    rcases hb.e2o.data p hp t ht with e | ⟨-, q, hq, e1, e2⟩
    · rw [e]; exact Or.inl rfl
    · rw [hs.e2o.2.1] at ht
      rw [ht2o.rd ht] at hv
      obtain rfl := Option.some.inj hv
      rw [e1, e2]
      refine Or.inr ⟨Or.inr ⟨_, ?_, rfl⟩, Or.inl rfl⟩
      have := hw t ht
      have := hrooms t ht
      linarith⟩
  obtain ⟨⟨o2e', e2p'⟩, c2, c3, c4⟩ := sim_oricToProjectUpdate inp.numProjects inp.numTeams hin s.o2e hb.e2p hQ _ c1
  simp only at c3 c4
  subst c3
  -- messages to the projects
  have he2p : ∀ p < inp.numProjects, ∀ t < inp.numTeams, e2p.data p t = fin (o2e.val p t + R p t) := by
    obtain ⟨o, q, e1, -, -, -, -, e2⟩ := Properties.C02_coupling_messages_exact hs.e2o ht2o h.rewardProject hs.o2e.1 hs.o2e.2.1 hs.e2p_rows hs.e2p_cols
    obtain ⟨rfl, rfl⟩ := Prod.mk.inj (Option.some.inj (e1.symm.trans c1))
    intro p hp t ht
    obtain ⟨v, v1, -, v2⟩ := e2 p hp t ht
    rw [v2, show o.val p t = v by rw [Mat.val, v1]; rfl]
  have hlow : MatRel (fun _ _ => Low) e2p e2p' := ⟨c4.rows, c4.cols, fun p hp t ht => by
    rcases c4.data p hp t ht with e | ⟨hF, z, e1, e2⟩
    · exact Or.inl e
    · have hp' : p < inp.numProjects := by rw [← hinv.e2p_rows]; exact hp
      have ht' : t < inp.numTeams := by rw [← hinv.e2p_cols]; exact ht
      rw [he2p p hp' t ht'] at e1
      rw [he2p p hp' t ht', e2, fin_of_add e1, hN p hp' t ht' hF]
      have := ho p hp' t ht'
      have := hw t ht'
      exact Or.inr ⟨Or.inr ⟨_, by linarith, rfl⟩, Or.inl rfl⟩⟩
  obtain ⟨p2e', d2, rfl⟩ := sim_projectInequalityUpdate inp.numTeams hlow s.p2e p2e d1
  -- messages back
  obtain ⟨e2o', g2, g3⟩ := sim_projectToOric p2e (e := s.e2o) (e' := s'.e2o)
    ⟨hb.e2o.rows, hb.e2o.cols, fun p hp t ht => (hb.e2o.data p hp t ht).pair⟩ hQ e2o g1
  have hahead : MatRel (Ahead N M) e2o e2o' := ⟨g3.rows, g3.cols, fun p hp t ht => by
    rcases g3.data p hp t ht with e | ⟨hF, z, e1, e2⟩
    · exact Or.inl e
    · have hp' : p < inp.numProjects := by rw [← hinv.e2o.1]; exact hp
      have ht' : t < inp.numTeams := by rw [← hinv.e2o.2.1]; exact ht
      have e3 : e2o.data p t = fin (e2o.val p t) := hinv.e2o.2.2 p hp' t ht'
      have e4 : e2o.val p t = R p t + p2e.val p t := hstep.edge p hp' t ht'
      rw [e3] at e1
      rw [e2, fin_of_add e1]
      have := hy p hp' t ht'
      exact Or.inr ⟨hF, e2o.val p t, by rw [e4, hN p hp' t ht' hF]; linarith, e3, rfl⟩⟩
  obtain ⟨o2t', k2, rfl⟩ := sim_oricToTeamUpdate (m := e2o) (m' := e2o') ⟨g3.rows, g3.cols, fun p hp t ht => by
    rcases hahead.data p hp t ht with e | ⟨-, q, hq, e1, e2⟩
    · exact Or.inl e
    · exact Or.inr ⟨q, hM.trans hq, e1, e2⟩⟩ s.o2t o2t k1
  obtain ⟨mwm', l2, l3, l4⟩ := kcIntrinsic_cells (o := o2e) (y := p2e) (r := Q) (P := inp.numProjects) (T := inp.numTeams) ⟨hinv.o2e.1, hinv.o2e.2.1⟩ ⟨hinv.p2e.1, hinv.p2e.2.1⟩
    ⟨by rw [hQ.rows, h.rewardProject.1], by rw [hQ.cols, h.rewardProject.2.1]⟩ (out := s'.outMwm) (by rw [hb.outMwm, hs.outMwm])
  refine ⟨_, ⟨a, dummy, ext, old, t2o, e2o', o2e, e2p', p2e, o2t, s.outTeam, mwm'⟩, hu, ?_, hinv, hext,
    ⟨rfl, rfl, rfl, rfl, rfl, hahead, rfl, c4, rfl, rfl, rfl, by rw [l3]; exact hinv.outMwm.symm⟩, fun p hp t ht => ⟨ho p hp t ht, hy p hp t ht, ?_⟩⟩
  · have a2 : loopUp inp.numDepartments (kcDept { inp with rewardProject := Q } j s'.a) (s'.dummy, s'.ext, s'.extOld) = some (dummy, ext, old) := by
      rw [hb.a, hb.dummy, hb.ext, hb.extOld]; exact a1
    rw [← hb.t2o] at b1
    rw [← hb.o2e] at c2
    rw [← hb.p2e] at d2
    rw [← hb.o2t] at k2
    rw [← hb.a] at m1
    simp only [kcIter, a2, b1, c2, d2, g2, k2, l2, m1, hb.outTeam, Option.bind_eq_bind, Option.bind_some]
  · show mwm'.data _ = _
    have e1 : o2e.data p t = fin (o2e.val p t) := hinv.o2e.2.2 p hp t ht
    have e2 : p2e.data p t = fin (p2e.val p t) := hinv.p2e.2.2 p hp t ht
    rw [l4 p hp t ht, e1, e2, fin_add]

/-- Whole runs. -/
theorem big_run (h : KcOk inp wf cap w R) (hQ : MatRel (CostRel N M) inp.rewardProject Q) (hN : ∀ p < inp.numProjects, ∀ t < inp.numTeams, N p t = true → R p t = M)
    (ha : inp.flag = true → 0 ≤ inp.alpha ∧ inp.alpha ≤ 1) (hM : 1000000 ≤ M) (hw : ∀ t < inp.numTeams, 0 ≤ M + w t) {A : Mat Num} {a0 : ℕ → ℕ → ℚ}
    (hA : A.Is inp.numDepartments inp.numTeams a0) (K : ℕ) :
    ∃ ext intr intr', kcSolve inp A K = some (ext, intr) ∧ kcSolve { inp with rewardProject := Q } A K = some (ext, intr') ∧
      intr.size = inp.numProjects * inp.numTeams ∧ intr'.size = inp.numProjects * inp.numTeams ∧
      (K = 0 → intr' = intr ∧ intr.data = fun _ => 0) ∧
      (0 < K → ∀ p < inp.numProjects, ∀ t < inp.numTeams, ∃ z, w t ≤ z ∧ intr.data (p * inp.numTeams + t) = fin (z + R p t) ∧
        intr'.data (p * inp.numTeams + t) = fin z + Q.data p t) := by
  have key : ∀ K, ∃ s s', loopUp K (kcIter inp) (kcInit inp A) = some s ∧ loopUp K (kcIter { inp with rewardProject := Q }) (kcInit { inp with rewardProject := Q } A) = some s' ∧
      KcInv inp wf R K s ∧ (∀ d < inp.numDepartments, ∀ t < inp.numTeams, 0 ≤ s.ext.val d t) ∧ BigState N M s s' ∧
      (K = 0 → s'.outMwm = s.outMwm ∧ s.outMwm.data = fun _ => 0) ∧
      (0 < K → ∀ p < inp.numProjects, ∀ t < inp.numTeams, w t ≤ s.o2e.val p t ∧ 0 ≤ s.p2e.val p t ∧
        s'.outMwm.data (p * inp.numTeams + t) = fin (s.o2e.val p t + s.p2e.val p t) + Q.data p t) := by
    intro K
    induction K with
    | zero =>
      refine ⟨_, _, rfl, rfl, kcInit_inv hA, fun _ _ _ _ => le_rfl, ⟨rfl, rfl, rfl, rfl, rfl, ?_, rfl, ?_, rfl, rfl, rfl, rfl⟩, fun _ => ⟨rfl, rfl⟩,
        fun hh => absurd hh (lt_irrefl 0)⟩
      · exact ⟨rfl, rfl, fun _ _ _ _ => Or.inl rfl⟩
      · exact ⟨rfl, rfl, fun _ _ _ _ => Or.inl rfl⟩
    | succ K ih =>
      obtain ⟨s, s', h1, h2, h3, h4, h5, -⟩ := ih
      obtain ⟨u, u', u1, u2, u3, u4, u5, u6⟩ := big_iter h hQ hN ha hM hw h3 h4 h5
      exact ⟨u, u', by simp only [loopUp, h1, Option.bind_some, u1], by simp only [loopUp, h2, Option.bind_some, u2], u3, u4, u5,
        fun hh => absurd hh (Nat.succ_ne_zero K), fun _ => u6⟩
  obtain ⟨s, s', h1, h2, h3, -, h5, h6, h7⟩ := key K
  obtain ⟨ext, r1, -⟩ := kcExtrinsic_is h3.ext h3.o2t h3.outTeam
  refine ⟨ext, s.outMwm, s'.outMwm, by simp only [kcSolve, kcIterate, h1, r1, Option.bind_eq_bind, Option.bind_some], ?_, h3.outMwm, by rw [h5.outMwm, h3.outMwm], h6,
    fun hK p hp t ht => ?_⟩
  · simp only [kcSolve, kcIterate, h2, h5.ext, h5.o2t, h5.outTeam, r1, Option.bind_eq_bind, Option.bind_some]
  · obtain ⟨a1, a2, a3⟩ := h7 hK p hp t ht
    exact ⟨s.o2e.val p t + s.p2e.val p t, by linarith, h3.mwm (by omega) p hp t ht, a3⟩
end

end Verif.Proofs
