import Verif.Proofs.Unmixed
import Verif.Proofs.KsatLocalCall
import Verif.Properties.Recurrence

/-! # C106: formulas in which no variable occurs with both signs, for example vertex covers and hitting sets -/

namespace Verif.Properties
open Verif Num Spec Model

section
variable {n k : ℕ} {t : KsatTables} (hf : KFormula n k t.clauses t.used t.conns) (hk : 2 ≤ k) {g : ℕ → ℤ} (hg : Unmixed t.clauses g) (w : ℕ → ℚ)
  {flag : Bool} {alpha : ℚ}
include hf hk hg

/-- C106.  Without damping the results bracket all later ones.  Read as cost of making the literal of a variable true, the belief after an odd number of
iterations is at most the belief after any larger number, and the belief after an even number is at least that. -/
theorem C106_bracket (hu : flag = false ∨ alpha = 0) : ∃ b : ℕ → ℕ → ℚ,
    (∀ N, 1 ≤ N → ksatBeliefs N flag alpha (ksatObject n k t (listOf n (fun v => fin (w v)))) = some (listOf n (fun v => fin (b N v)))) ∧
    ∀ N L, 1 ≤ N → N ≤ L → ∀ v ∈ t.used, (¬ Even N → b N v * g v ≤ b L v * g v) ∧ (Even N → b L v * g v ≤ b N v * g v) := by
  obtain ⟨x, r, h, hb⟩ := Proofs.call_trace hf hk w flag alpha
  refine ⟨fun N v => (∑ c ∈ occurrences t.clauses.length k ⟨t.clauses.length, k, Proofs.litVar t⟩ v, damped flag alpha (fun i => r i c v) (N - 1)) +
    if v ∈ t.used then w v else 0, fun N hN => ?_, fun N L hN hL v hv => ?_⟩
  · obtain ⟨K, rfl⟩ : ∃ K, N = K + 1 := ⟨N - 1, by omega⟩
    exact hb K
  · obtain ⟨K, rfl⟩ : ∃ K, N = K + 1 := ⟨N - 1, by omega⟩
    obtain ⟨M, rfl⟩ : ∃ M, L = M + 1 := ⟨L - 1, by omega⟩
    simp only [Nat.add_sub_cancel, if_pos hv, add_mul, Finset.sum_mul, Proofs.undamped_eq hu, Nat.even_add_one, not_not]
    have key := fun c (hc : c ∈ occurrences t.clauses.length k ⟨t.clauses.length, k, Proofs.litVar t⟩ v) =>
      Proofs.unmixed_bracket hf hk hg h hu K M (by omega) c (Proofs.occ_vars hc).1 v (Proofs.occ_vars hc).2
    constructor
    · intro he
      have := Finset.sum_le_sum fun c hc => (key c hc).1 he
      linarith
    · intro he
      have := Finset.sum_le_sum fun c hc => (key c hc).2 he
      linarith

/-- C106, reported values (without post-processing).  A literal that is made true after an even number of iterations is made true after every larger number, and a
literal that is made false after an odd number stays false. -/
theorem C106_decisions (hu : flag = false ∨ alpha = 0) {order order' : List ℕ → List ℕ} (ho : ∀ l, (order l).Perm l) (ho' : ∀ l, (order' l).Perm l)
    (pp : ℕ) {sol : List Bool} (hs : sol = [] ∨ sol.length = n) (thr : ℚ) {N L : ℕ} (hN : 1 ≤ N) (hL : N ≤ L) : ∃ res res',
    ksatCall n k N flag alpha (fin thr) order order' false pp sol t (listOf n (fun v => fin (w v))) = some res ∧
    ksatCall n k L flag alpha (fin thr) order order' false pp sol t (listOf n (fun v => fin (w v))) = some res' ∧
    (∀ v ∈ t.used, g v = 1 → (Even N → v ∈ res.post.sum.active → v ∈ res'.post.sum.active) ∧
      (¬ Even N → v ∈ res.post.sum.inactive → v ∈ res'.post.sum.inactive)) ∧
    (∀ v ∈ t.used, g v = -1 → (Even N → v ∈ res.post.sum.inactive → v ∈ res'.post.sum.inactive) ∧
      (¬ Even N → v ∈ res.post.sum.active → v ∈ res'.post.sum.active)) := by
  obtain ⟨b, hb, hbr⟩ := C106_bracket hf hk hg w hu
  obtain ⟨K, rfl⟩ : ∃ K, N = K + 1 := ⟨N - 1, by omega⟩
  obtain ⟨M, rfl⟩ : ∃ M, L = M + 1 := ⟨L - 1, by omega⟩
  obtain ⟨res, a1, a2, a3⟩ := Proofs.call_values hf hk ho ho' (pp := pp) hs (thr := thr) (hb (K + 1) (by omega))
  obtain ⟨res', a1', a2', a3'⟩ := Proofs.call_values hf hk ho ho' (pp := pp) hs (thr := thr) (hb (M + 1) (by omega))
  refine ⟨res, res', a1, a1', fun v hv e => ?_, fun v hv e => ?_⟩
  · obtain ⟨h1, h2⟩ := hbr (K + 1) (M + 1) (by omega) hL v hv
    rw [e] at h1 h2
    push_cast at h1 h2
    rw [a2 v hv, a2' v hv, a3 v hv, a3' v hv]
    exact ⟨fun he h => by linarith [h2 he], fun he h => by linarith [h1 he, not_le.mp h, not_le.mp h]⟩
  · obtain ⟨h1, h2⟩ := hbr (K + 1) (M + 1) (by omega) hL v hv
    rw [e] at h1 h2
    push_cast at h1 h2
    rw [a2 v hv, a2' v hv, a3 v hv, a3' v hv]
    exact ⟨fun he h h' => h (by linarith [h2 he]), fun he h => by linarith [h1 he]⟩

/-- C106, bounds, with any damping between 0 and 1: the belief of a variable, read as before, is never above its own cost, and below it by at most the cost of
satisfying each of its clauses with another literal, whichever one chooses. -/
theorem C106_bounds (ha : flag = true → 0 ≤ alpha ∧ alpha ≤ 1) {v : ℕ} (hv : v ∈ t.used) (o : ℕ → ℕ)
    (ho : ∀ c < t.clauses.length, v ∈ varsOf t.clauses c → o c ∈ varsOf t.clauses c ∧ o c ≠ v) {N : ℕ} (hN : 1 ≤ N) : ∃ b : ℕ → ℚ,
    ksatBeliefs N flag alpha (ksatObject n k t (listOf n (fun v => fin (w v)))) = some (listOf n (fun v => fin (b v))) ∧
    w v * g v - ∑ c ∈ (Finset.range t.clauses.length).filter (fun c => v ∈ varsOf t.clauses c), max 0 (w (o c) * g (o c)) ≤ b v * g v ∧
    b v * g v ≤ w v * g v := by
  obtain ⟨x, r, h, hb⟩ := Proofs.call_trace hf hk w flag alpha
  obtain ⟨K, rfl⟩ : ∃ K, N = K + 1 := ⟨N - 1, by omega⟩
  refine ⟨_, hb K, ?_⟩
  simp only [if_pos hv, add_mul, Finset.sum_mul, Proofs.damped_scale]
  have e : occurrences t.clauses.length k ⟨t.clauses.length, k, Proofs.litVar t⟩ v =
      (Finset.range t.clauses.length).filter (fun c => v ∈ varsOf t.clauses c) :=
    Finset.filter_congr fun c hc => by rw [Proofs.clauseVars_eq hf (Finset.mem_range.mp hc)]
  have key : ∀ c ∈ occurrences t.clauses.length k ⟨t.clauses.length, k, Proofs.litVar t⟩ v,
      -max 0 (w (o c) * g (o c)) ≤ damped flag alpha (fun i => r i c v * g v) K ∧ damped flag alpha (fun i => r i c v * g v) K ≤ 0 := by
    intro c hc
    obtain ⟨h1, h2⟩ := Proofs.occ_vars hc
    obtain ⟨ho1, ho2⟩ := ho c h1 (by rw [← Proofs.clauseVars_eq hf h1]; exact h2)
    refine Proofs.damped_le ha (by simp) le_rfl fun j _ => ⟨?_, Proofs.unmixed_nonpos hf hk hg h j h1 h2⟩
    refine le_trans ?_ (Proofs.unmixed_low hf hk hg h ha j h1 h2)
    obtain ⟨u, hu, hne, hmin, e'⟩ := Proofs.unmixed_closed hf hk hg h 0 h1 h2
    have ho3 : o c ∈ clauseVars k (Proofs.litVar t c) := by rw [Proofs.clauseVars_eq hf h1]; exact ho1
    have h3 := hmin (o c) ho3 ho2
    rw [Proofs.unmixed_init hf h h1 ho3] at h3
    rw [e']
    exact le_min (neg_le_neg (h3.trans (le_max_right _ _))) (neg_nonpos.mpr (le_max_left _ _))
  have hlo := Finset.sum_le_sum fun c hc => (key c hc).1
  have hhi := Finset.sum_nonpos fun c hc => (key c hc).2
  rw [Finset.sum_neg_distrib] at hlo
  rw [← e]
  constructor <;> linarith

/-- C106, the run settles: if all costs are multiples of a unit and making a literal true costs at most `Q` units, then from twice the number of literals times
`Q` iterations on (and two more), the results repeat with period two, with and without post-processing. -/
theorem C106_settles (hu : flag = false ∨ alpha = 0) {e : ℚ} (he : 0 < e) (hw : ∀ v ∈ t.used, ∃ z : ℤ, w v = z * e) {Q : ℕ}
    (hQ : ∀ v ∈ t.used, w v * g v ≤ Q * e) {N : ℕ} (hN : 2 * (t.clauses.length * k * Q) + 2 ≤ N) (threshold : Num) (order order' : List ℕ → List ℕ)
    (post : Bool) (pp : ℕ) (sol : List Bool) :
    ksatCall n k (N + 2) flag alpha threshold order order' post pp sol t (listOf n (fun v => fin (w v))) =
      ksatCall n k N flag alpha threshold order order' post pp sol t (listOf n (fun v => fin (w v))) := by
  obtain ⟨x, r, h, hb⟩ := Proofs.call_trace hf hk w flag alpha
  obtain ⟨m, hm, hrep⟩ := Proofs.unmixed_repeats hf hk hg h hu he hw hQ
  have hvars : ∀ c < t.clauses.length, clauseVars k (Proofs.litVar t c) = varsOf t.clauses c := fun c hc => Proofs.clauseVars_eq hf hc
  have ht : FormulaTrace n k t w flag alpha x r := { h with
    init := fun c hc v hv => by
      rw [h.init c hc v hv, ← hvars c hc]
      simp only [clauseVars, Finset.mem_image, Finset.mem_range] }
  have := C66_ksat hf hk ht (K := 2 * m + 3) (K' := 2 * m + 1) (fun c hc v hv => by
    rw [Proofs.undamped_eq hu, Proofs.undamped_eq hu]
    exact (hrep c hc v (by rw [hvars c hc]; exact hv)).symm) (N - (2 * m + 2)) threshold order order' post pp sol
  rw [show 2 * m + 3 + (N - (2 * m + 2)) + 1 = N + 2 by omega, show 2 * m + 1 + (N - (2 * m + 2)) + 1 = N by omega] at this
  exact this

/-- C106, a test for the end of the run: if two successive numbers of iterations give the same beliefs, no larger number of iterations changes the result. -/
theorem C106_final (hu : flag = false ∨ alpha = 0) {N : ℕ} (hN : 1 ≤ N)
    (hsame : ksatBeliefs N flag alpha (ksatObject n k t (listOf n (fun v => fin (w v)))) =
      ksatBeliefs (N + 1) flag alpha (ksatObject n k t (listOf n (fun v => fin (w v))))) {L : ℕ} (hL : N ≤ L) (threshold : Num)
    (order order' : List ℕ → List ℕ) (post : Bool) (pp : ℕ) (sol : List Bool) :
    ksatCall n k L flag alpha threshold order order' post pp sol t (listOf n (fun v => fin (w v))) =
      ksatCall n k N flag alpha threshold order order' post pp sol t (listOf n (fun v => fin (w v))) := by
  obtain ⟨x, r, h, hb⟩ := Proofs.call_trace hf hk w flag alpha
  obtain ⟨K, rfl⟩ : ∃ K, N = K + 1 := ⟨N - 1, by omega⟩
  have hvars : ∀ c < t.clauses.length, clauseVars k (Proofs.litVar t c) = varsOf t.clauses c := fun c hc => Proofs.clauseVars_eq hf hc
  have ht : FormulaTrace n k t w flag alpha x r := { h with
    init := fun c hc v hv => by
      rw [h.init c hc v hv, ← hvars c hc]
      simp only [clauseVars, Finset.mem_image, Finset.mem_range] }
  rw [hb, hb] at hsame
  have hsame := Option.some.inj hsame
  refine C66_ksat_settled hf hk ht (K := K) (fun c hc v hv => ?_) hL threshold order order' post pp sol
  have hvn : v < n := hf.tables.used_lt v (Proofs.vars_used hf hc hv)
  have hv' : v ∈ clauseVars k (Proofs.litVar t c) := by rw [hvars c hc]; exact hv
  have e1 := congrArg (fun l => l[v]?) hsame
  simp only [listOf, List.getElem?_map, List.getElem?_range hvn, Option.map_some, Option.some.injEq, Num.fin.injEq] at e1
  have e2 : ∑ c ∈ occurrences t.clauses.length k ⟨t.clauses.length, k, Proofs.litVar t⟩ v, r K c v * g v =
      ∑ c ∈ occurrences t.clauses.length k ⟨t.clauses.length, k, Proofs.litVar t⟩ v, r (K + 1) c v * g v := by
    rw [← Finset.sum_mul, ← Finset.sum_mul]
    simp only [Proofs.undamped_eq hu] at e1
    congr 1
    linarith
  have hmem : c ∈ occurrences t.clauses.length k ⟨t.clauses.length, k, Proofs.litVar t⟩ v :=
    Finset.mem_filter.mpr ⟨Finset.mem_range.mpr hc, hv'⟩
  have key := fun c (hc : c ∈ occurrences t.clauses.length k ⟨t.clauses.length, k, Proofs.litVar t⟩ v) =>
    Proofs.unmixed_bracket hf hk hg h hu K (K + 1) (by omega) c (Proofs.occ_vars hc).1 v (Proofs.occ_vars hc).2
  have e3 : r K c v * g v = r (K + 1) c v * g v := by
    by_cases hev : Even K
    · exact (Finset.sum_eq_sum_iff_of_le fun c hc => (key c hc).1 hev).mp e2 c hmem
    · exact ((Finset.sum_eq_sum_iff_of_le fun c hc => (key c hc).2 hev).mp e2.symm c hmem).symm
  rw [Proofs.undamped_eq hu, Proofs.undamped_eq hu]
  rcases Proofs.unmixed_one hf hg hc hv' with e4 | e4 <;> rw [e4] at e3 <;> push_cast at e3 <;> linarith

end

/-! ## Examples -/

/-- Vertex covers of a cycle with five nodes. -/
def c106Cycle : KsatTables where
  used := [0, 1, 2, 3, 4]
  clauses := [[(0, 1), (1, 1)], [(1, 1), (2, 1)], [(2, 1), (3, 1)], [(3, 1), (4, 1)], [(4, 1), (0, 1)]]
  conns := [[(0, 1), (4, 1)], [(0, 1), (1, 1)], [(1, 1), (2, 1)], [(2, 1), (3, 1)], [(3, 1), (4, 1)]]

theorem c106Cycle_ok : KFormula 5 2 c106Cycle.clauses c106Cycle.used c106Cycle.conns :=
  Proofs.kformula_of_checks (by decide) rfl (by decide) (by decide) (by decide) (by decide) (by decide)

theorem c106Cycle_unmixed : Unmixed c106Cycle.clauses (fun _ => 1) := by
  unfold Unmixed
  decide

/-- With equal costs the period is two: all nodes after an odd number of iterations, none after an even number. -/
example : ksatBeliefs 11 false 0 (ksatObject 5 2 c106Cycle (listOf 5 (fun _ => fin 1))) = some (listOf 5 (fun _ => fin (-1))) ∧
    ksatBeliefs 12 false 0 (ksatObject 5 2 c106Cycle (listOf 5 (fun _ => fin 1))) = some (listOf 5 (fun _ => fin 1)) := by decide +kernel

/-- Different costs: odd numbers of iterations from below, even ones from above; from four iterations on nothing changes, and the cheapest cover is reported. -/
def c106Costs (v : ℕ) : ℚ := [1, 3, 1, 3, 2].getD v 0

example : ksatBeliefs 1 false 0 (ksatObject 5 2 c106Cycle (listOf 5 (fun v => fin (c106Costs v)))) = some [fin (-4), fin 1, fin (-5), fin 0, fin (-2)] ∧
    ksatBeliefs 2 false 0 (ksatObject 5 2 c106Cycle (listOf 5 (fun v => fin (c106Costs v)))) = some [fin (-1), fin 3, fin (-2), fin 2, fin 0] ∧
    ksatBeliefs 3 false 0 (ksatObject 5 2 c106Cycle (listOf 5 (fun v => fin (c106Costs v)))) = some [fin (-2), fin 2, fin (-4), fin 1, fin (-1)] ∧
    ksatBeliefs 4 false 0 (ksatObject 5 2 c106Cycle (listOf 5 (fun v => fin (c106Costs v)))) = some [fin (-2), fin 2, fin (-2), fin 1, fin (-1)] := by
  decide +kernel

/-- So a thousand iterations give what four give. -/
example (threshold : Num) (order order' : List ℕ → List ℕ) (post : Bool) (pp : ℕ) (sol : List Bool) :
    ksatCall 5 2 1000 false 0 threshold order order' post pp sol c106Cycle (listOf 5 (fun v => fin (c106Costs v))) =
      ksatCall 5 2 4 false 0 threshold order order' post pp sol c106Cycle (listOf 5 (fun v => fin (c106Costs v))) :=
  C106_final c106Cycle_ok le_rfl c106Cycle_unmixed _ (Or.inl rfl) (by omega) (by decide +kernel) (by omega) _ _ _ _ _ _

/-- The decisions of the first iteration against node 1 and of the second one for nodes 0, 2 and 4 are final. -/
example (N : ℕ) (hN : 2 ≤ N) : ∃ res', ksatCall 5 2 N false 0 (fin 0) id id false 0 [] c106Cycle (listOf 5 (fun v => fin (c106Costs v))) = some res' ∧
    0 ∈ res'.post.sum.active ∧ 2 ∈ res'.post.sum.active ∧ 4 ∈ res'.post.sum.active := by
  obtain ⟨res, res', h1, h2, h3, -⟩ := C106_decisions c106Cycle_ok le_rfl c106Cycle_unmixed c106Costs (flag := false) (alpha := 0) (Or.inl rfl)
    (order := id) (order' := id) (fun l => List.Perm.refl l) (fun l => List.Perm.refl l) 0 (sol := []) (Or.inl rfl) 0 (by omega : 1 ≤ 2) hN
  have hd : (ksatCall 5 2 2 false 0 (fin 0) id id false 0 [] c106Cycle (listOf 5 (fun v => fin (c106Costs v)))).map (fun r => r.post.sum.active) = some [0, 2, 4] := by
    decide +kernel
  rw [h1] at hd
  have hd := Option.some.inj hd
  have hm : ∀ v ∈ [0, 2, 4], v ∈ res.post.sum.active := by
    intro v hv
    have : res.post.sum.active = [0, 2, 4] := hd
    rw [this]
    exact hv
  exact ⟨res', h2, (h3 0 (by decide) rfl).1 (by decide) (hm 0 (by decide)), (h3 2 (by decide) rfl).1 (by decide) (hm 2 (by decide)),
    (h3 4 (by decide) rfl).1 (by decide) (hm 4 (by decide))⟩

/-- With damping one half the belief of node 0 stays between -4 and 1. -/
example (N : ℕ) (hN : 1 ≤ N) : ∃ b : ℕ → ℚ,
    ksatBeliefs N true (1 / 2) (ksatObject 5 2 c106Cycle (listOf 5 (fun v => fin (c106Costs v)))) = some (listOf 5 (fun v => fin (b v))) ∧ -4 ≤ b 0 ∧ b 0 ≤ 1 := by
  obtain ⟨b, h1, h2, h3⟩ := C106_bounds c106Cycle_ok le_rfl c106Cycle_unmixed c106Costs (flag := true) (alpha := 1 / 2) (fun _ => by norm_num) (v := 0) (by decide)
    (fun c => if c = 0 then 1 else 4) (by decide) hN
  refine ⟨b, h1, ?_, ?_⟩
  · rw [show (Finset.range c106Cycle.clauses.length).filter (fun c => 0 ∈ varsOf c106Cycle.clauses c) = {0, 4} from by decide] at h2
    simp [c106Costs] at h2
    norm_num at h2
    linarith
  · simp [c106Costs] at h3
    linarith

/-- The formula `(¬a ∨ b) ∧ (b ∨ a)`. -/
def c106Mixed : KsatTables where
  used := [0, 1]
  clauses := [[(0, -1), (1, 1)], [(1, 1), (0, 1)]]
  conns := [[(0, -1), (1, 1)], [(0, 1), (1, 1)]]

/-- C106, the condition is needed: in a formula with a variable of both signs two and three iterations give the same beliefs, four give others (so that
`b` is no longer chosen), and the period is four. -/
theorem C106_mixed : KFormula 2 2 c106Mixed.clauses c106Mixed.used c106Mixed.conns ∧
    ksatBeliefs 2 false 0 (ksatObject 2 2 c106Mixed [fin 0, fin 2]) = some [fin 0, fin (-2)] ∧
    ksatBeliefs 3 false 0 (ksatObject 2 2 c106Mixed [fin 0, fin 2]) = some [fin 0, fin (-2)] ∧
    ksatBeliefs 4 false 0 (ksatObject 2 2 c106Mixed [fin 0, fin 2]) = some [fin 0, fin 2] ∧
    ksatBeliefs 5 false 0 (ksatObject 2 2 c106Mixed [fin 0, fin 2]) = some [fin 0, fin 2] := by
  refine ⟨Proofs.kformula_of_checks (by decide) rfl (by decide) (by decide) (by decide) (by decide) (by decide), ?_⟩
  decide +kernel

end Verif.Properties
