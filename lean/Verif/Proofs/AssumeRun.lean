import Verif.Proofs.AssumeVar
import Verif.Spec.KsatRun

/-! # Infinite values in the k-SAT solver: whole runs on clauses with two literals -/

namespace Verif.Proofs
open Verif Num Spec Model

variable {inp : KsatInputs} {τ : ℕ → Bool}

/-- The belief of a variable is infinite: its cost or one of its clause messages is. -/
def Known (inp : KsatInputs) (K : Mat Num) (v : ℕ) : Prop :=
  IsInf (inp.cost.data v) ∨ ∃ c < inp.numConstraints, IsInf (K.data c v)

/-- What holds at the start of each iteration, when the assignment `τ` satisfies the formula and the costs. -/
structure AssumeInv (inp : KsatInputs) (τ : ℕ → Bool) (st : KsatState) : Prop where
  vr : st.v2k.rows = inp.numConstraints
  vc : st.v2k.cols = inp.numVars
  dr : st.dummy.rows = inp.numConstraints
  dc : st.dummy.cols = inp.numVars
  kr : st.k2v.rows = inp.numConstraints
  kc : st.k2v.cols = inp.numVars
  or : st.old.rows = inp.numConstraints
  oc : st.old.cols = inp.numVars
  agV : ∀ c < inp.numConstraints, ∀ s < 2, Agrees (τ (inp.conx.data c s)) (st.v2k.data c (inp.conx.data c s))
  agK : ∀ c < inp.numConstraints, ∀ v < inp.numVars, Agrees (τ v) (st.k2v.data c v)
  agO : ∀ c < inp.numConstraints, ∀ v < inp.numVars, Agrees (τ v) (st.old.data c v)
  off : ∀ c < inp.numConstraints, ∀ v < inp.numVars, (∀ s < 2, inp.conx.data c s ≠ v) → ¬ IsInf (st.k2v.data c v)
  mem : inp.flag = true ∧ inp.alpha ≠ 0 → ∀ c < inp.numConstraints, ∀ v < inp.numVars, st.old.data c v = st.k2v.data c v
  lit : ∀ c < inp.numConstraints, ∀ s < 2, IsInf (st.k2v.data c (inp.conx.data c s)) →
    τ (inp.conx.data c s) = decide (inp.conxType.data c s = 1)
  sup : ∀ c < inp.numConstraints, ∀ s < 2, IsInf (st.k2v.data c (inp.conx.data c s)) →
    st.v2k.data c (inp.conx.data c (1 - s)) * fin (inp.conxType.data c (1 - s) : ℚ) = pinf
  own : ∀ c < inp.numConstraints, ∀ s < 2, IsInf (st.k2v.data c (inp.conx.data c s)) → ¬ IsInf (st.v2k.data c (inp.conx.data c s))
  inf : ∀ c < inp.numConstraints, ∀ s < 2, ¬ IsInf (st.k2v.data c (inp.conx.data c s)) →
    (IsInf (st.v2k.data c (inp.conx.data c s)) ↔ Known inp st.k2v (inp.conx.data c s))

theorem lit_pinf {x : Num} {t : ℤ} (ht : t = 1 ∨ t = -1) {b : Bool} (hx : Agrees b x) :
    x * fin (t : ℚ) = pinf ↔ IsInf x ∧ b = decide (t = -1) := by
  have e1 : pinf * fin ((1 : ℤ) : ℚ) = pinf := by decide +kernel
  have e2 : pinf * fin ((-1 : ℤ) : ℚ) = ninf := by decide +kernel
  have e3 : ninf * fin ((1 : ℤ) : ℚ) = ninf := by decide +kernel
  have e4 : ninf * fin ((-1 : ℤ) : ℚ) = pinf := by decide +kernel
  obtain ⟨h1, h2, h3⟩ := hx
  rcases ht with rfl | rfl
  · cases x with
    | nan => exact absurd rfl h1
    | fin q => rw [fin_mul]; simp [IsInf]
    | ninf => rw [e3]; simp [h3 rfl]
    | pinf => rw [e1]; simp [h2 rfl, IsInf]
  · cases x with
    | nan => exact absurd rfl h1
    | fin q => rw [fin_mul]; simp [IsInf]
    | ninf => rw [e4]; simp [h3 rfl, IsInf]
    | pinf => rw [e2]; simp [h2 rfl]

theorem agrees_lit {t : ℤ} (ht : t = 1 ∨ t = -1) : Agrees (decide (t = 1)) (ninf * fin (t : ℚ)) ∧ IsInf (ninf * fin (t : ℚ)) := by
  have e3 : ninf * fin ((1 : ℤ) : ℚ) = ninf := by decide +kernel
  have e4 : ninf * fin ((-1 : ℤ) : ℚ) = pinf := by decide +kernel
  rcases ht with rfl | rfl
  · rw [e3]; simp [Agrees, IsInf]
  · rw [e4]; simp [Agrees, IsInf]

theorem sign_flip {t : ℤ} (ht : t = 1 ∨ t = -1) : decide (t = -1) ≠ decide (t = 1) := by
  rcases ht with rfl | rfl <;> decide

section step
variable (hk : inp.k = 2) (ht : ClauseTables inp.numConstraints 2 inp.numVars inp.conx inp.conxType)
  (hco : ConnectionsOk inp.numConstraints 2 inp.numVars inp.conx inp.used inp.conns) (hcs : inp.cost.size = inp.numVars)
  (hca : ∀ v < inp.numVars, Agrees (τ v) (inp.cost.data v)) (ha0 : 0 ≤ inp.alpha) (ha1 : inp.alpha < 1)
  (hsat : ∀ c < inp.numConstraints, ∃ s < 2, τ (inp.conx.data c s) = decide (inp.conxType.data c s = 1))

include ht hsat in
theorem other_true {c s : ℕ} (hc : c < inp.numConstraints) (hs : s < 2)
    (h : τ (inp.conx.data c (1 - s)) = decide (inp.conxType.data c (1 - s) = -1)) :
    τ (inp.conx.data c s) = decide (inp.conxType.data c s = 1) := by
  obtain ⟨s0, h0, h1⟩ := hsat c hc
  by_cases e : s0 = s
  · rw [← e]; exact h1
  · have : s0 = 1 - s := by omega
    subst this
    rw [h] at h1
    exact absurd h1 (sign_flip (ht.sign c hc _ h0))

include hk ht hco hcs hca ha0 ha1 hsat in
theorem assume_step {j : ℕ} {st : KsatState} (h : AssumeInv inp τ st) :
    ∃ st', ksatIter inp j st = some st' ∧ AssumeInv inp τ st' ∧ (∀ v < inp.numVars, Known inp st.k2v v → Known inp st'.k2v v) ∧
      ∀ c < inp.numConstraints, (∀ s < 2, st.v2k.data c (inp.conx.data c (1 - s)) * fin (inp.conxType.data c (1 - s) : ℚ) = pinf →
        ¬ IsInf (st.v2k.data c (inp.conx.data c s)) → IsInf (st'.k2v.data c (inp.conx.data c s))) ∧
        ∀ v < inp.numVars, IsInf (st'.k2v.data c v) → ∃ s < 2, inp.conx.data c s = v ∧
          st.v2k.data c (inp.conx.data c (1 - s)) * fin (inp.conxType.data c (1 - s) : ℚ) = pinf := by
  obtain ⟨d, d1, dr, dc, d2⟩ := ksatUpdate_two (V := st.v2k) ht h.vr h.vc (fun c hc s hs => (h.agV c hc s hs).1) h.dr h.dc
  have hlt := ht.conx_lt
  -- clause messages before the filtering
  have dag : ∀ c < inp.numConstraints, ∀ s < 2, Agrees (τ (inp.conx.data c s)) (d.data c (inp.conx.data c s)) ∧
      (IsInf (d.data c (inp.conx.data c s)) →
        st.v2k.data c (inp.conx.data c (1 - s)) * fin (inp.conxType.data c (1 - s) : ℚ) = pinf ∧
        τ (inp.conx.data c s) = decide (inp.conxType.data c s = 1)) := by
    intro c hc s hs
    rcases (d2 c hc).1 s hs with ⟨⟨q, hq⟩, -⟩ | ⟨h1, h2, -⟩
    · rw [hq]
      exact ⟨Agrees.fin _ _, fun hi => absurd hi isInf_fin⟩
    · have ho := (lit_pinf (ht.sign c hc (1 - s) (by omega)) (h.agV c hc (1 - s) (by omega))).mp h2
      have := other_true ht hsat hc hs ho.2
      rw [h1, this]
      exact ⟨(agrees_lit (ht.sign c hc s hs)).1, fun _ => ⟨h2, rfl⟩⟩
  have dfire : ∀ c < inp.numConstraints, ∀ s < 2,
      st.v2k.data c (inp.conx.data c (1 - s)) * fin (inp.conxType.data c (1 - s) : ℚ) = pinf →
      ¬ IsInf (st.v2k.data c (inp.conx.data c s)) → IsInf (d.data c (inp.conx.data c s)) := by
    intro c hc s hs h1 h2
    rcases (d2 c hc).1 s hs with ⟨-, hn⟩ | ⟨h3, -⟩
    · exact absurd ⟨h1, h2⟩ hn
    · rw [h3]; exact (agrees_lit (ht.sign c hc s hs)).2
  have dall : ∀ c < inp.numConstraints, ∀ v < inp.numVars, Agrees (τ v) (d.data c v) := by
    intro c hc v hv
    by_cases hex : ∃ s < 2, inp.conx.data c s = v
    · obtain ⟨s, hs, rfl⟩ := hex
      exact (dag c hc s hs).1
    · rw [(d2 c hc).2 v (fun s hs e => hex ⟨s, hs, e⟩)]
      exact Agrees.zero _
  obtain ⟨⟨K, O⟩, f1, f2, f3, f4, f5, f6, f7, -⟩ := processFiltering_spec (rows := inp.numConstraints) (flag := inp.flag)
    (alpha := inp.alpha) (iter := j) (n := inp.numVars) (dummy := d) (s := (st.k2v, st.old)) (by omega)
    (by rw [h.kr]) (by rw [h.or]) dc h.kc h.oc
  simp only at f2 f3 f4 f5 f6 f7
  have hfl := fun c hc v hv => agrees_filter (flag := inp.flag) (dall c hc v hv) (h.agO c hc v hv) ha0 ha1 j
  have hKag : ∀ c < inp.numConstraints, ∀ v < inp.numVars, Agrees (τ v) (K.data c v) := by
    intro c hc v hv
    rw [f6 c hc v hv]
    exact (hfl c hc v hv).1
  have hKin : ∀ c < inp.numConstraints, ∀ v < inp.numVars, IsInf (d.data c v) → IsInf (K.data c v) := by
    intro c hc v hv hi
    rw [f6 c hc v hv]
    exact (hfl c hc v hv).2.1 hi
  have hKout : ∀ c < inp.numConstraints, ∀ v < inp.numVars, IsInf (K.data c v) → IsInf (d.data c v) ∨ IsInf (st.k2v.data c v) := by
    intro c hc v hv hi
    rw [f6 c hc v hv] at hi
    refine ((hfl c hc v hv).2.2 hi).imp id ?_
    rintro ⟨hf, ho⟩
    rw [← h.mem hf c hc v hv]
    exact ho
  have hKoff : ∀ c < inp.numConstraints, ∀ v < inp.numVars, (∀ s < 2, inp.conx.data c s ≠ v) → ¬ IsInf (K.data c v) := by
    intro c hc v hv hn hi
    rcases hKout c hc v hv hi with h1 | h1
    · rw [(d2 c hc).2 v hn] at h1
      exact isInf_zero h1
    · exact h.off c hc v hv hn h1
  have hKlit : ∀ c < inp.numConstraints, ∀ s < 2, IsInf (K.data c (inp.conx.data c s)) →
      st.v2k.data c (inp.conx.data c (1 - s)) * fin (inp.conxType.data c (1 - s) : ℚ) = pinf ∧
        τ (inp.conx.data c s) = decide (inp.conxType.data c s = 1) := by
    intro c hc s hs hi
    rcases hKout c hc _ (hlt c hc s hs) hi with h1 | h1
    · exact (dag c hc s hs).2 h1
    · exact ⟨h.sup c hc s hs h1, h.lit c hc s hs h1⟩
  have hpers : ∀ c < inp.numConstraints, ∀ v < inp.numVars, IsInf (st.k2v.data c v) → IsInf (K.data c v) := by
    intro c hc v hv hi
    have hex : ∃ s < 2, inp.conx.data c s = v := by
      by_contra hn
      exact h.off c hc v hv (fun s hs e => hn ⟨s, hs, e⟩) hi
    obtain ⟨s, hs, rfl⟩ := hex
    exact hKin c hc _ hv (dfire c hc s hs (h.sup c hc s hs hi) (h.own c hc s hs hi))
  have hknown : ∀ v < inp.numVars, Known inp st.k2v v → Known inp K v := by
    rintro v hv (hi | ⟨c, hc, hi⟩)
    · exact Or.inl hi
    · exact Or.inr ⟨c, hc, hpers c hc v hv hi⟩
  -- variable messages
  have hgd : ∀ l ∈ inp.conns, ∃ v < inp.numVars, inp.conns.getD v [] = l := by
    intro l hl
    obtain ⟨v, hv, rfl⟩ := List.mem_iff_getElem.mp hl
    exact ⟨v, by rw [← hco.length]; exact hv, by simp [hv]⟩
  have hocc : ∀ v < inp.numVars, ∀ c, c ∈ inp.conns.getD v [] ↔ c < inp.numConstraints ∧ ∃ s < 2, inp.conx.data c s = v := by
    intro v hv c
    rw [hco.mem v hv]
    simp [occurrences, clauseVars]
  obtain ⟨V, v1, vr, vc, v2⟩ := variableToKsat_num (K := K) (V := st.v2k) (by rw [f2, h.kr]) f3 h.vr h.vc hco.used_lt hco.length (by
    intro l hl c hc
    obtain ⟨v, hv, rfl⟩ := hgd l hl
    exact ((hocc v hv c).mp hc).1) hcs
  have hsum : ∀ v < inp.numVars, Agrees (τ v) (sumTo K (inp.conns.getD v []) v + inp.cost.data v) ∧
      (IsInf (sumTo K (inp.conns.getD v []) v + inp.cost.data v) ↔ Known inp K v) := by
    intro v hv
    have h1 := agrees_foldl (b := τ v) (g := fun c => K.data c v) (l := inp.conns.getD v [])
      (fun c hc => hKag c ((hocc v hv c).mp hc).1 v hv) (Agrees.zero (τ v))
    have h2 := agrees_add h1.1 (hca v hv)
    refine ⟨h2.1, h2.2.trans ?_⟩
    rw [h1.2, or_comm]
    refine or_congr Iff.rfl ?_
    rw [or_iff_right isInf_zero]
    constructor
    · rintro ⟨c, hc, hi⟩
      exact ⟨c, ((hocc v hv c).mp hc).1, hi⟩
    · rintro ⟨c, hc, hi⟩
      refine ⟨c, (hocc v hv c).mpr ⟨hc, ?_⟩, hi⟩
      by_contra hn
      exact hKoff c hc v hv (fun s hs e => hn ⟨s, hs, e⟩) hi
  have hV : ∀ c < inp.numConstraints, ∀ s < 2, Agrees (τ (inp.conx.data c s)) (V.data c (inp.conx.data c s)) ∧
      (IsInf (K.data c (inp.conx.data c s)) → ¬ IsInf (V.data c (inp.conx.data c s))) ∧
      (¬ IsInf (K.data c (inp.conx.data c s)) → (IsInf (V.data c (inp.conx.data c s)) ↔ Known inp K (inp.conx.data c s))) := by
    intro c hc s hs
    have hl := hlt c hc s hs
    have hus : inp.conx.data c s ∈ inp.used :=
      hco.used_mem c hc _ (Finset.mem_image.mpr ⟨s, Finset.mem_range.mpr hs, rfl⟩)
    rw [v2, if_pos ⟨hus, (hocc _ hl c).mpr ⟨hc, s, hs, rfl⟩⟩]
    have hS := hsum _ hl
    by_cases hi : IsInf (K.data c (inp.conx.data c s))
    · rw [sub_self_inf hS.1 (hKag c hc _ hl) (hS.2.mpr (Or.inr ⟨c, hc, hi⟩)) hi]
      exact ⟨Agrees.zero _, fun _ => isInf_zero, fun hn => absurd hi hn⟩
    · obtain ⟨q, hq⟩ := Agrees.fin_of_not (hKag c hc _ hl) hi
      have hd := agrees_sub_fin hS.1 q
      rw [hq]
      have : clean (sumTo K (inp.conns.getD (inp.conx.data c s) []) (inp.conx.data c s) + inp.cost.data (inp.conx.data c s) - fin q) =
          sumTo K (inp.conns.getD (inp.conx.data c s) []) (inp.conx.data c s) + inp.cost.data (inp.conx.data c s) - fin q :=
        if_neg hd.1.1
      rw [this]
      exact ⟨hd.1, fun hn => absurd hn isInf_fin, fun _ => hd.2.trans hS.2⟩
  refine ⟨⟨V, d, K, O⟩, ?_, ⟨vr, vc, dr, dc, by rw [f2, h.kr], f3, by rw [f4, h.or], f5, fun c hc s hs => (hV c hc s hs).1, hKag, ?_, hKoff,
    ?_, fun c hc s hs hi => (hKlit c hc s hs hi).2, ?_, fun c hc s hs => (hV c hc s hs).2.1, fun c hc s hs => (hV c hc s hs).2.2⟩,
    hknown, fun c hc => ⟨fun s hs h1 h2 => hKin c hc _ (hlt c hc s hs) (dfire c hc s hs h1 h2), fun v hv hi => ?_⟩⟩
  · simp only [ksatIter, hk, d1, f1, v1, Option.bind_eq_bind, Option.bind_some]
  · intro c hc v hv
    show Agrees (τ v) (O.data c v)
    rw [f7 c hc v hv]
    split_ifs
    · exact (hfl c hc v hv).1
    · exact h.agO c hc v hv
  · intro hf c hc v hv
    show O.data c v = K.data c v
    rw [f7 c hc v hv, if_pos hf, f6 c hc v hv]
  · intro c hc s hs hi
    have hs' : 1 - s < 2 := by omega
    have hl := hKlit c hc s hs hi
    have ho := (lit_pinf (ht.sign c hc (1 - s) hs') (h.agV c hc (1 - s) hs')).mp hl.1
    refine (lit_pinf (ht.sign c hc (1 - s) hs') (hV c hc (1 - s) hs').1).mpr ⟨?_, ho.2⟩
    have hk' : ¬ IsInf (K.data c (inp.conx.data c (1 - s))) := by
      intro hn
      have := (hKlit c hc (1 - s) hs' hn).2
      rw [ho.2] at this
      exact sign_flip (ht.sign c hc (1 - s) hs') this
    refine ((hV c hc (1 - s) hs').2.2 hk').mpr (hknown _ (hlt c hc _ hs') ?_)
    have hk0 : ¬ IsInf (st.k2v.data c (inp.conx.data c (1 - s))) := fun hn => h.own c hc _ hs' hn ho.1
    exact (h.inf c hc _ hs' hk0).mp ho.1
  · have hex : ∃ s < 2, inp.conx.data c s = v := by
      by_contra hn
      exact hKoff c hc v hv (fun s hs e => hn ⟨s, hs, e⟩) hi
    obtain ⟨s, hs, rfl⟩ := hex
    exact ⟨s, hs, rfl, (hKlit c hc s hs hi).1⟩

include ht hca hsat in
/-- Unit propagation derives only values of `τ`. -/
theorem implied_sound {j v : ℕ} {b : Bool}
    (h : Implied inp.numConstraints 2 inp.numVars inp.conx inp.conxType inp.cost.data j v b) : τ v = b ∧ v < inp.numVars := by
  induction h with
  | assumedTrue hv h => exact ⟨(hca _ hv).2.2 h, hv⟩
  | assumedFalse hv h => exact ⟨(hca _ hv).2.1 h, hv⟩
  | later _ ih => exact ih
  | @unit j c s hc hs h ih =>
    exact ⟨other_true ht hsat hc hs (ih (1 - s) (by omega) (by omega)).1, ht.conx_lt c hc s hs⟩

include hk ht hco hcs hca ha0 ha1 hsat in
theorem assume_run {V : Mat Num} (vr : V.rows = inp.numConstraints) (vc : V.cols = inp.numVars)
    (hV : ∀ c < inp.numConstraints, ∀ s < 2, V.data c (inp.conx.data c s) = inp.cost.data (inp.conx.data c s)) (t : ℕ) :
    ∃ st, loopUp t (ksatIter inp) (ksatInit inp V) = some st ∧ AssumeInv inp τ st ∧ (∀ j ≤ t, ∀ v b,
      Implied inp.numConstraints 2 inp.numVars inp.conx inp.conxType inp.cost.data j v b → Known inp st.k2v v) ∧
      ∀ v < inp.numVars, Known inp st.k2v v →
        Implied inp.numConstraints 2 inp.numVars inp.conx inp.conxType inp.cost.data t v (τ v) := by
  have hcost : ∀ v < inp.numVars, IsInf (inp.cost.data v) →
      Implied inp.numConstraints 2 inp.numVars inp.conx inp.conxType inp.cost.data 0 v (τ v) := by
    rintro v hv (e | e)
    · rw [(hca v hv).2.1 e]
      exact .assumedFalse hv e
    · rw [(hca v hv).2.2 e]
      exact .assumedTrue hv e
  induction t with
  | zero =>
    refine ⟨_, rfl, ⟨vr, vc, rfl, rfl, rfl, rfl, rfl, rfl, ?_, fun c _ v _ => Agrees.zero _, fun c _ v _ => Agrees.zero _,
      fun _ _ _ _ _ => isInf_zero, fun _ _ _ _ _ => rfl, fun _ _ _ _ hi => absurd hi isInf_zero,
      fun _ _ _ _ hi => absurd hi isInf_zero, fun _ _ _ _ hi => absurd hi isInf_zero, ?_⟩, ?_, ?_⟩
    · intro c hc s hs
      show Agrees _ (V.data c _)
      rw [hV c hc s hs]
      exact hca _ (ht.conx_lt c hc s hs)
    · intro c hc s hs _
      show IsInf (V.data c _) ↔ _
      rw [hV c hc s hs]
      constructor
      · exact Or.inl
      · rintro (hi | ⟨c', -, hi⟩)
        · exact hi
        · exact absurd hi isInf_zero
    · intro j hj v b hi
      obtain rfl : j = 0 := by omega
      cases hi with
      | assumedTrue _ h => exact Or.inl (Or.inr h)
      | assumedFalse _ h => exact Or.inl (Or.inl h)
    · rintro v hv (hi | ⟨c', -, hi⟩)
      · exact hcost v hv hi
      · exact absurd hi isInf_zero
  | succ t ih =>
    obtain ⟨st, h1, h2, h3, h4⟩ := ih
    obtain ⟨st', g1, g2, g3, g4⟩ := assume_step hk ht hco hcs hca ha0 ha1 hsat (j := t) h2
    refine ⟨st', by simp [loopUp, h1, g1], g2, ?_, ?_⟩
    on_goal 2 =>
      rintro v hv (hi | ⟨c, hc, hi⟩)
      · exact .later (h4 v hv (Or.inl hi))
      · obtain ⟨s, hs, rfl, hz⟩ := (g4 c hc).2 v hv hi
        have hs' : 1 - s < 2 := by omega
        obtain ⟨hi', hτ⟩ := (lit_pinf (ht.sign c hc _ hs') (h2.agV c hc _ hs')).mp hz
        have hn : ¬ IsInf (st.k2v.data c (inp.conx.data c (1 - s))) := fun hn => h2.own c hc _ hs' hn hi'
        have hp := h4 _ (ht.conx_lt c hc _ hs') ((h2.inf c hc _ hs' hn).mp hi')
        rw [hτ] at hp
        rw [other_true ht hsat hc hs hτ]
        refine .unit hc hs fun s' h1 h2 => ?_
        obtain rfl : s' = 1 - s := by omega
        exact hp
    intro j hj v b hi
    have hv := (implied_sound ht hca hsat hi).2
    by_cases hjt : j ≤ t
    · exact g3 v hv (h3 j hjt v b hi)
    · obtain rfl : j = t + 1 := by omega
      cases hi with
      | later h => exact g3 v hv (h3 t (le_refl _) v b h)
      | @unit _ c s hc hs h =>
        by_cases hkn : Known inp st.k2v (inp.conx.data c s)
        · exact g3 _ hv hkn
        · have hs' : 1 - s < 2 := by omega
          have hp := h (1 - s) hs' (by omega)
          have hτ := (implied_sound ht hca hsat hp).1
          have hn : ¬ IsInf (st.k2v.data c (inp.conx.data c (1 - s))) := by
            intro hi
            have := h2.lit c hc _ hs' hi
            rw [hτ] at this
            exact sign_flip (ht.sign c hc _ hs') this
          have hi := (h2.inf c hc _ hs' hn).mpr (h3 t (le_refl _) _ _ hp)
          have hz := (lit_pinf (ht.sign c hc _ hs') (h2.agV c hc _ hs')).mpr ⟨hi, hτ⟩
          have hs0 : ¬ IsInf (st.k2v.data c (inp.conx.data c s)) := fun hi => hkn (Or.inr ⟨c, hc, hi⟩)
          exact Or.inr ⟨c, hc, (g4 c hc).1 s hs hz (fun hi => hkn ((h2.inf c hc s hs hs0).mp hi))⟩

include hk ht hco hcs hca ha0 ha1 hsat in
/-- Beliefs after any number of iterations. -/
theorem assume_beliefs {V : Mat Num} (vr : V.rows = inp.numConstraints) (vc : V.cols = inp.numVars)
    (hV : ∀ c < inp.numConstraints, ∀ s < 2, V.data c (inp.conx.data c s) = inp.cost.data (inp.conx.data c s)) (t : ℕ) :
    ∃ out, ksatSolve inp V t = some out ∧ out.size = inp.numVars ∧
      ∀ v < inp.numVars, Agrees (τ v) (out.data v + inp.cost.data v) ∧
      (out.data v + inp.cost.data v = ninf ↔
        Implied inp.numConstraints 2 inp.numVars inp.conx inp.conxType inp.cost.data t v true) ∧
      (out.data v + inp.cost.data v = pinf ↔
        Implied inp.numConstraints 2 inp.numVars inp.conx inp.conxType inp.cost.data t v false) := by
  obtain ⟨st, h1, h2, h3, h4⟩ := assume_run hk ht hco hcs hca ha0 ha1 hsat vr vc hV t
  obtain ⟨out, o1, o2, o3⟩ := ksatExtrinsic_num (K := st.k2v) h2.kr h2.kc (out := Arr.fill inp.numVars 0) rfl
  have hb : ∀ v < inp.numVars, Agrees (τ v) (out.data v + inp.cost.data v) ∧
      (IsInf (out.data v + inp.cost.data v) ↔ Known inp st.k2v v) := by
    intro v hv
    have g1 := agrees_foldl (b := τ v) (g := fun c => st.k2v.data c v) (l := List.range inp.numConstraints)
      (fun c hc => h2.agK c (List.mem_range.mp hc) v hv) (Agrees.zero (τ v))
    have g2 := agrees_add g1.1 (hca v hv)
    rw [o3 v hv]
    refine ⟨g2.1, g2.2.trans ?_⟩
    rw [g1.2, or_comm]
    refine or_congr Iff.rfl ?_
    rw [or_iff_right isInf_zero]
    simp
  refine ⟨out, ?_, o2, fun v hv => ?_⟩
  · simp only [ksatSolve, ksatIterate, h1, o1, Option.bind_eq_bind, Option.bind_some]
  · obtain ⟨p, hI⟩ := hb v hv
    have back : ∀ b, Implied inp.numConstraints 2 inp.numVars inp.conx inp.conxType inp.cost.data t v b →
        τ v = b ∧ IsInf (out.data v + inp.cost.data v) :=
      fun b hi => ⟨(implied_sound ht hca hsat hi).1, hI.mpr (h3 t (le_refl _) v b hi)⟩
    refine ⟨p, ⟨fun e => ?_, fun hi => ?_⟩, ⟨fun e => ?_, fun hi => ?_⟩⟩
    · have := h4 v hv (hI.mp (Or.inr e))
      rw [p.2.2 e] at this
      exact this
    · obtain ⟨hτ, e | e⟩ := back _ hi
      · have := p.2.1 e
        rw [hτ] at this
        exact absurd this (by decide)
      · exact e
    · have := h4 v hv (hI.mp (Or.inl e))
      rw [p.2.1 e] at this
      exact this
    · obtain ⟨hτ, e | e⟩ := back _ hi
      · exact e
      · have := p.2.2 e
        rw [hτ] at this
        exact absurd this (by decide)

end step

end Verif.Proofs
