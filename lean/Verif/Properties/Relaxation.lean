import Verif.Proofs.Relaxation
import Verif.Properties.Unmixed

/-! # C108: decisions of undamped runs on formulas without mixed variables, compared with the cheapest assignments -/

namespace Verif.Properties
open Verif Num Spec Model

section
variable {n k : ℕ} {t : KsatTables} (hf : KFormula n k t.clauses t.used t.conns) (hk : 2 ≤ k) {g : ℕ → ℤ} (hg : Unmixed t.clauses g) {w : ℕ → ℚ}
  {flag : Bool} {alpha : ℚ} (hu : flag = false ∨ alpha = 0)
include hf hk hg

/-- C108, the linear relaxation has a cheapest solution. -/
theorem C108_exists (w : ℕ → ℚ) : ∃ X, CheapestFractional t.clauses t.used.toFinset w X :=
  Proofs.fractional_exists hf (Proofs.plainSign_unmixed hf hg) hk (fun v _ => Proofs.plainSign_one g v) w

include hu

/-- C108.  Decisions agree with the linear relaxation.  If after an even number of iterations the belief says that the literal of a variable is true, then it is
entirely true in every cheapest fractional solution; if after an odd number of iterations the belief says that it is false, it is entirely false in all of them. -/
theorem C108_relaxation {N : ℕ} (hN : 1 ≤ N) {b : ℕ → ℚ}
    (hb : ksatBeliefs N flag alpha (ksatObject n k t (listOf n (fun v => fin (w v)))) = some (listOf n (fun v => fin (b v)))) {X : ℕ → ℚ}
    (hX : CheapestFractional t.clauses t.used.toFinset w X) {v : ℕ} (hv : v ∈ t.used) :
    (g v = 1 → (Even N → b v < 0 → X v = 1) ∧ (¬ Even N → 0 < b v → X v = 0)) ∧
    (g v = -1 → (Even N → 0 < b v → X v = 0) ∧ (¬ Even N → b v < 0 → X v = 1)) := by
  have hg' := Proofs.plainSign_unmixed hf hg
  obtain ⟨y, hy⟩ := Proofs.fractional_certificate hf hg' hk (fun v _ => Proofs.plainSign_one g v) hX
  obtain ⟨h1, h2⟩ := Proofs.relax_sign hf hk hg' hu hN hb hy hv
  constructor
  · intro e
    have e' : Proofs.plainSign g v = 1 := by rw [Proofs.plainSign, e]; rfl
    simp only [Proofs.signDegree, e', if_true, Int.cast_one, mul_one] at h1 h2
    exact ⟨h1, h2⟩
  · intro e
    have e' : Proofs.plainSign g v = -1 := by rw [Proofs.plainSign, e]; rfl
    simp only [Proofs.signDegree, e', Int.cast_neg, Int.cast_one, mul_neg, mul_one, Left.neg_neg_iff, Left.neg_pos_iff] at h1 h2
    rw [if_neg (by decide)] at h1 h2
    exact ⟨fun he hlt => by linarith [h1 he hlt], fun he hlt => by linarith [h2 he hlt]⟩

/-- C108, a certificate.  If an even and an odd number of iterations give the same decisions and no belief is zero, then these decisions are the only cheapest
satisfying assignment, and every call with at least that many iterations reports it and needs no post-processing. -/
theorem C108_certified {N M : ℕ} (hN : 1 ≤ N) (hNe : Even N) (hMo : ¬ Even M) {b b' : ℕ → ℚ}
    (hb : ksatBeliefs N flag alpha (ksatObject n k t (listOf n (fun v => fin (w v)))) = some (listOf n (fun v => fin (b v))))
    (hb' : ksatBeliefs M flag alpha (ksatObject n k t (listOf n (fun v => fin (w v)))) = some (listOf n (fun v => fin (b' v))))
    (hsame : ∀ v ∈ t.used, (b v < 0 ∧ b' v < 0) ∨ (0 < b v ∧ 0 < b' v)) :
    OnlyCheapest t.used.toFinset (Satisfies t.clauses) w (t.used.toFinset.filter (fun v => b v < 0)) ∧
    ∀ L, N ≤ L → M ≤ L → ∀ order order' : List ℕ → List ℕ, (∀ l, (order l).Perm l) → (∀ l, (order' l).Perm l) → ∀ (post : Bool) (pp : ℕ) (sol : List Bool),
      (sol = [] ∨ sol.length = n) → ∃ res, ksatCall n k L flag alpha (fin 0) order order' post pp sol t (listOf n (fun v => fin (w v))) = some res ∧
        res.post.flag = true ∧ res.post.sum.unsat = [] ∧ res.requiredPP = false ∧ ∀ v, v ∈ res.post.sum.active ↔ v ∈ t.used ∧ b v < 0 := by
  have hM : 1 ≤ M := by
    rcases Nat.eq_zero_or_pos M with e | e
    · rw [e] at hMo; exact absurd (by decide) hMo
    · exact e
  have hg' := Proofs.plainSign_unmixed hf hg
  set S := t.used.toFinset.filter (fun v => b v < 0) with hSdef
  have hS : ∀ v, v ∈ S ↔ v ∈ t.used ∧ b v < 0 := fun v => by simp [hSdef]
  -- every cheapest fractional solution is this assignment
  have hforce : ∀ X, CheapestFractional t.clauses t.used.toFinset w X → ∀ v ∈ t.used, X v = if v ∈ S then 1 else 0 := by
    intro X hX v hv
    have h1 := C108_relaxation hf hk hg' hu hN hb hX hv
    have h2 := C108_relaxation hf hk hg' hu hM hb' hX hv
    rcases hsame v hv with ⟨s1, s2⟩ | ⟨s1, s2⟩
    · rw [if_pos ((hS v).mpr ⟨hv, s1⟩)]
      rcases Proofs.plainSign_one g v with e | e
      · exact (h1.1 e).1 hNe s1
      · exact (h2.2 e).2 hMo s2
    · rw [if_neg fun h => absurd ((hS v).mp h).2 (not_lt.mpr s1.le)]
      rcases Proofs.plainSign_one g v with e | e
      · exact (h2.1 e).2 hMo s2
      · exact (h1.2 e).1 hNe s1
  obtain ⟨X, hX⟩ := C108_exists hf hk hg w
  have hcost : ∀ T ⊆ t.used.toFinset, ∑ v ∈ t.used.toFinset, w v * (if v ∈ T then 1 else 0) = cost w T := by
    intro T hT
    rw [cost, ← Finset.sum_subset hT (fun v _ hv => by rw [if_neg hv, mul_zero])]
    exact Finset.sum_congr rfl fun v hv => by rw [if_pos hv, mul_one]
  have hSU : S ⊆ t.used.toFinset := Finset.filter_subset _ _
  have hXS : ∑ v ∈ t.used.toFinset, w v * X v = cost w S := by
    rw [← hcost S hSU]
    exact Finset.sum_congr rfl fun v hv => by rw [hforce X hX v (List.mem_toFinset.mp hv)]
  -- it satisfies the formula
  have hsat : Satisfies t.clauses S := by
    rw [← Proofs.signFlip_twice (Proofs.plainSign g) hSU, Proofs.flip_satisfies hf hg']
    intro c hc
    have h1 := ((Proofs.fractional_iff hf hg' X).mp hX.1).2 c hc
    by_contra hcon
    push Not at hcon
    have h2 : ∑ v ∈ clauseVars k (Proofs.litVar t c), Proofs.signDegree (Proofs.plainSign g) X v = 0 := by
      refine Finset.sum_eq_zero fun v hv => ?_
      have hvU := (Proofs.clause_ok hf hk c hc).2 hv
      have h3 : ¬ (v ∈ S ↔ Proofs.plainSign g v = 1) := fun h4 => hcon v hv (Finset.mem_filter.mpr ⟨hvU, h4⟩)
      unfold Proofs.signDegree
      rw [hforce X hX v (List.mem_toFinset.mp hvU)]
      by_cases h4 : v ∈ S
      · have : ¬ Proofs.plainSign g v = 1 := fun h5 => h3 ⟨fun _ => h5, fun _ => h4⟩
        rw [if_neg this, if_pos h4, sub_self]
      · have : Proofs.plainSign g v = 1 := by
          by_contra h5
          exact h3 ⟨fun h6 => absurd h6 h4, fun h6 => absurd h6 h5⟩
        rw [if_pos this, if_neg h4]
    rw [h2] at h1
    norm_num at h1
  refine ⟨⟨hSU, hsat, fun T hT hTs hne => ?_⟩, fun L hNL hML order order' ho ho' post pp sol hs => ?_⟩
  · have hfr := Proofs.indicator_fractional hf hg' hT hTs
    have h1 := hX.2 _ hfr
    rw [hcost T hT, hXS] at h1
    refine lt_of_le_of_ne h1 fun e => hne ?_
    have hbest : CheapestFractional t.clauses t.used.toFinset w (fun v => if v ∈ T then 1 else 0) := by
      refine ⟨hfr, fun X' hX' => ?_⟩
      rw [hcost T hT, ← e, ← hXS]
      exact hX.2 X' hX'
    ext v
    by_cases hv : v ∈ t.used
    · have h2 := hforce _ hbest v hv
      by_cases h3 : v ∈ T <;> by_cases h4 : v ∈ S <;> simp [h3, h4] at h2 ⊢
    · exact ⟨fun h2 => absurd (List.mem_toFinset.mp (hT h2)) hv, fun h2 => absurd ((hS v).mp h2).1 hv⟩
  · obtain ⟨q, hq, hbr⟩ := C106_bracket hf hk hg' w hu
    have same : ∀ K, 1 ≤ K → ∀ a : ℕ → ℚ, ksatBeliefs K flag alpha (ksatObject n k t (listOf n (fun v => fin (w v)))) = some (listOf n (fun v => fin (a v))) →
        ∀ v ∈ t.used, q K v = a v := by
      intro K hK a ha v hv
      rw [hq K hK] at ha
      have hvn := hf.tables.used_lt v hv
      have := congrArg (fun l => l[v]?) (Option.some.inj ha)
      simpa [listOf, hvn] using this
    have hlt : ∀ v ∈ t.used, (q L v ≤ 0 ↔ v ∈ S) := by
      intro v hv
      have h1 := (hbr N L hN hNL v hv).2 hNe
      have h2 := (hbr M L hM hML v hv).1 hMo
      rw [same N hN b hb v hv] at h1
      rw [same M hM b' hb' v hv] at h2
      rw [hS v]
      rcases hsame v hv with ⟨s1, s2⟩ | ⟨s1, s2⟩ <;> rcases Proofs.plainSign_one g v with e | e <;> rw [e] at h1 h2 <;> push_cast at h1 h2
      · exact ⟨fun _ => ⟨hv, s1⟩, fun _ => by linarith⟩
      · exact ⟨fun _ => ⟨hv, s1⟩, fun _ => by linarith⟩
      · exact ⟨fun h => by linarith, fun h => by linarith [h.2]⟩
      · exact ⟨fun h => by linarith, fun h => by linarith [h.2]⟩
    obtain ⟨res, c1, c2, c3, c4, c5, -⟩ := Proofs.call_of_signs hf ho ho' (post := post) (pp := pp) hs (hq L (hN.trans hNL)) hSU hsat hlt
    exact ⟨res, c1, c2, c3, c4, fun v => (c5 v).trans (hS v)⟩

omit hk in
/-- C108, clauses of two literals.  The decisions that C108 speaks about are safe: every satisfying assignment can be replaced by one that costs no more and follows all
of them, those of all numbers of iterations at once. -/
theorem C108_persistent (hk2 : k = 2) {T : Finset ℕ} (hT : T ⊆ t.used.toFinset) (hsat : Satisfies t.clauses T) :
    ∃ T' ⊆ t.used.toFinset, Satisfies t.clauses T' ∧ cost w T' ≤ cost w T ∧ ∀ N ≥ 1, ∀ b : ℕ → ℚ,
      ksatBeliefs N flag alpha (ksatObject n k t (listOf n (fun v => fin (w v)))) = some (listOf n (fun v => fin (b v))) → ∀ v ∈ t.used,
        (g v = 1 → (Even N → b v < 0 → v ∈ T') ∧ (¬ Even N → 0 < b v → v ∉ T')) ∧
        (g v = -1 → (Even N → 0 < b v → v ∉ T') ∧ (¬ Even N → b v < 0 → v ∈ T')) := by
  have hk : 2 ≤ k := hk2.ge
  have hg' := Proofs.plainSign_unmixed hf hg
  have hone := fun v (_ : v ∈ t.used.toFinset) => Proofs.plainSign_one g v
  obtain ⟨X, hX⟩ := C108_exists hf hk hg w
  obtain ⟨y, hy⟩ := Proofs.fractional_certificate hf hg' hk hone hX
  have hfl : Proofs.signFlip (Proofs.plainSign g) t.used.toFinset T ⊆ t.used.toFinset := Finset.filter_subset _ _
  have hcard : ∀ c < t.clauses.length, (clauseVars k (Proofs.litVar t c)).card = 2 := by
    intro c hc
    rw [clauseVars, Finset.card_image_of_injOn, Finset.card_range, hk2]
    intro s hs s' hs' e
    exact Proofs.lit_inj hf hc s (by simpa using hs) s' (by simpa using hs') e
  rw [← Proofs.signFlip_twice (Proofs.plainSign g) hT, Proofs.flip_satisfies hf hg'] at hsat
  obtain ⟨C', h1, h2, h3, h4⟩ := Proofs.cert_round (Proofs.clause_ok hf hk) _ hy hcard hfl hsat
  refine ⟨Proofs.signFlip (Proofs.plainSign g) t.used.toFinset C', Finset.filter_subset _ _, (Proofs.flip_satisfies hf hg').mpr h2, ?_, fun N hN b hb v hv => ?_⟩
  · have e : cost w T = cost w (Proofs.signFlip (Proofs.plainSign g) t.used.toFinset (Proofs.signFlip (Proofs.plainSign g) t.used.toFinset T)) := by
      rw [Proofs.signFlip_twice _ hT]
    rw [e, Proofs.signFlip_cost h1 hone, Proofs.signFlip_cost hfl hone]
    linarith
  · have hvU := List.mem_toFinset.mpr hv
    obtain ⟨h5, h6⟩ := Proofs.relax_sign hf hk hg' hu hN hb hy hv
    obtain ⟨h7, h8⟩ := h4 v hvU
    have hm : v ∈ Proofs.signFlip (Proofs.plainSign g) t.used.toFinset C' ↔ (v ∈ C' ↔ Proofs.plainSign g v = 1) := by
      unfold Proofs.signFlip
      rw [Finset.mem_filter]
      exact ⟨fun h => h.2, fun h => ⟨hvU, h⟩⟩
    rw [hm]
    constructor
    · intro e
      have e' : Proofs.plainSign g v = 1 := by rw [Proofs.plainSign, e]; rfl
      simp only [e', Int.cast_one, mul_one] at h5 h6 ⊢
      simp only [iff_true]
      exact ⟨fun he hlt => h7 (h5 he hlt), fun he hlt => h8 (h6 he hlt)⟩
    · intro e
      have e' : Proofs.plainSign g v = -1 := by rw [Proofs.plainSign, e]; rfl
      simp only [e', Int.cast_neg, Int.cast_one, mul_neg, mul_one, Left.neg_neg_iff, Left.neg_pos_iff] at h5 h6 ⊢
      rw [show ((-1 : ℤ) = 1) = False from by decide]
      simp only [iff_false, not_not]
      exact ⟨fun he hlt => h7 (h5 he hlt), fun he hlt => h8 (h6 he hlt)⟩

end

/-! ## Examples -/

/-- Four and five iterations agree on the cycle with costs 1, 3, 1, 3, 2, so that its cheapest cover is proved to be the nodes 0, 2 and 4. -/
example : OnlyCheapest c106Cycle.used.toFinset (Satisfies c106Cycle.clauses) c106Costs {0, 2, 4} := by
  have h := (C108_certified c106Cycle_ok le_rfl c106Cycle_unmixed (w := c106Costs) (flag := false) (alpha := 0) (.inl rfl) (N := 4) (M := 5) (by omega) (by decide)
    (by decide) (b := fun v => [-2, 2, -2, 1, -1].getD v 0) (b' := fun v => [-2, 2, -2, 1, -1].getD v 0) (by decide +kernel) (by decide +kernel) (by decide +kernel)).1
  rwa [show c106Cycle.used.toFinset.filter (fun v => ([-2, 2, -2, 1, -1] : List ℚ).getD v 0 < 0) = {0, 2, 4} from by decide +kernel] at h

/-- The second iteration alone shows that nodes 0 and 2 belong to a cheapest cover, and the first one that node 1 does not. -/
example (T : Finset ℕ) (hT : T ⊆ c106Cycle.used.toFinset) (hsat : Satisfies c106Cycle.clauses T) :
    ∃ T' ⊆ c106Cycle.used.toFinset, Satisfies c106Cycle.clauses T' ∧ cost c106Costs T' ≤ cost c106Costs T ∧ 0 ∈ T' ∧ 2 ∈ T' ∧ 1 ∉ T' := by
  obtain ⟨T', h1, h2, h3, h4⟩ := C108_persistent c106Cycle_ok c106Cycle_unmixed (w := c106Costs) (flag := false) (alpha := 0) (.inl rfl) rfl hT hsat
  have a := h4 2 (by omega) (fun v => [-1, 3, -2, 2, 0].getD v 0) (by decide +kernel)
  have b := h4 1 (by omega) (fun v => [-4, 1, -5, 0, -2].getD v 0) (by decide +kernel)
  exact ⟨T', h1, h2, h3, ((a 0 (by decide)).1 rfl).1 (by decide) (by decide +kernel), ((a 2 (by decide)).1 rfl).1 (by decide) (by decide +kernel),
    ((b 1 (by decide)).1 rfl).2 (by decide) (by decide +kernel)⟩

/-- C108, the parity matters: with equal costs on the cycle eleven iterations choose all five nodes and twelve choose none, while three nodes are enough and are needed. -/
theorem C108_parity : ksatBeliefs 11 false 0 (ksatObject 5 2 c106Cycle (listOf 5 (fun _ => fin 1))) = some (listOf 5 (fun _ => fin (-1))) ∧
    ksatBeliefs 12 false 0 (ksatObject 5 2 c106Cycle (listOf 5 (fun _ => fin 1))) = some (listOf 5 (fun _ => fin 1)) ∧
    Satisfies c106Cycle.clauses {0, 1, 3} ∧ cost (fun _ => 1) ({0, 1, 3} : Finset ℕ) = 3 ∧
    ∀ T ⊆ c106Cycle.used.toFinset, Satisfies c106Cycle.clauses T → 3 ≤ T.card := by
  unfold Satisfies
  refine ⟨by decide +kernel, by decide +kernel, by decide, by decide +kernel, ?_⟩
  intro T hT
  have : T ∈ c106Cycle.used.toFinset.powerset := Finset.mem_powerset.mpr hT
  revert T
  decide +kernel

/-- One half for every node is a fractional solution, which costs less than three nodes. -/
example : FractionalSolution c106Cycle.clauses c106Cycle.used.toFinset (fun _ => 1 / 2) := by
  unfold FractionalSolution
  decide +kernel

end Verif.Properties
