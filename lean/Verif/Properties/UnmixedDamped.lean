import Verif.Proofs.UnmixedDamped
import Verif.Properties.Relaxation

/-! # C109: damping on formulas in which no variable occurs with both signs -/

namespace Verif.Properties
open Verif Num Spec Model

section
variable {n k : ℕ} {t : KsatTables} (hf : KFormula n k t.clauses t.used t.conns) (hk : 2 ≤ k) {g : ℕ → ℤ} (hg : Unmixed t.clauses g) (w : ℕ → ℚ)
  {flag : Bool} {alpha : ℚ} (ha : flag = true → 0 ≤ alpha ∧ alpha < 1)
include hf hk hg ha

/-- C109.  With any damping factor below one, the results of a long run lie between the undamped results after odd and even numbers of iterations, up to an error as
small as one likes.  Beliefs are read as costs of making the literal of the variable true. -/
theorem C109_bracket : ∃ b d : ℕ → ℕ → ℚ,
    (∀ N, 1 ≤ N → ksatBeliefs N false 0 (ksatObject n k t (listOf n (fun v => fin (w v)))) = some (listOf n (fun v => fin (b N v)))) ∧
    (∀ N, 1 ≤ N → ksatBeliefs N flag alpha (ksatObject n k t (listOf n (fun v => fin (w v)))) = some (listOf n (fun v => fin (d N v)))) ∧
    ∀ N ≥ 1, ∀ ε > 0, ∃ J ≥ 1, ∀ L ≥ J, ∀ v ∈ t.used, (¬ Even N → b N v * g v - ε ≤ d L v * g v) ∧ (Even N → d L v * g v ≤ b N v * g v + ε) := by
  obtain ⟨x0, r0, h0, hb0⟩ := Proofs.call_trace hf hk w false 0
  obtain ⟨x, r, h, hb⟩ := Proofs.call_trace hf hk w flag alpha
  refine ⟨fun N v => (∑ c ∈ occurrences t.clauses.length k ⟨t.clauses.length, k, Proofs.litVar t⟩ v, damped false 0 (fun i => r0 i c v) (N - 1)) +
      if v ∈ t.used then w v else 0,
    fun N v => (∑ c ∈ occurrences t.clauses.length k ⟨t.clauses.length, k, Proofs.litVar t⟩ v, damped flag alpha (fun i => r i c v) (N - 1)) +
      if v ∈ t.used then w v else 0, fun N hN => ?_, fun N hN => ?_, fun N hN ε hε => ?_⟩
  · obtain ⟨K, rfl⟩ : ∃ K, N = K + 1 := ⟨N - 1, by omega⟩
    exact hb0 K
  · obtain ⟨K, rfl⟩ : ∃ K, N = K + 1 := ⟨N - 1, by omega⟩
    exact hb K
  · obtain ⟨K, rfl⟩ : ∃ K, N = K + 1 := ⟨N - 1, by omega⟩
    obtain ⟨J, hJ⟩ := Proofs.damped_beliefs hf hk hg ha h h0 K ε hε
    refine ⟨J + 1, by omega, fun L hL v hv => ?_⟩
    obtain ⟨h1, h2⟩ := hJ (L - 1) (by omega) v
    simp only [Nat.add_sub_cancel, add_mul, Nat.even_add_one, not_not]
    exact ⟨fun he => by linarith [h1 he], fun he => by linarith [h2 he]⟩

/-- C109, decisions.  What an undamped run decides with the right parity, every damped run decides in the end: a literal made true after some even number of iterations
without damping is made true by all sufficiently long damped runs, and likewise false for odd numbers. -/
theorem C109_decisions {N : ℕ} (hN : 1 ≤ N) {b : ℕ → ℚ}
    (hb : ksatBeliefs N false 0 (ksatObject n k t (listOf n (fun v => fin (w v)))) = some (listOf n (fun v => fin (b v)))) :
    ∃ J, ∀ L ≥ J, ∃ d : ℕ → ℚ, ksatBeliefs L flag alpha (ksatObject n k t (listOf n (fun v => fin (w v)))) = some (listOf n (fun v => fin (d v))) ∧
      ∀ v ∈ t.used, (g v = 1 → (Even N → b v < 0 → d v < 0) ∧ (¬ Even N → 0 < b v → 0 < d v)) ∧
        (g v = -1 → (Even N → 0 < b v → 0 < d v) ∧ (¬ Even N → b v < 0 → d v < 0)) := by
  obtain ⟨q, d, hq, hd, hbr⟩ := C109_bracket hf hk hg w ha
  have e : ∀ v ∈ t.used, q N v = b v := by
    intro v hv
    rw [hq N hN] at hb
    have hvn := hf.tables.used_lt v hv
    have := congrArg (fun l => l[v]?) (Option.some.inj hb)
    simpa [listOf, hvn] using this
  obtain ⟨ε, hε, hsmall⟩ : ∃ ε > 0, ∀ v ∈ t.used, b v ≠ 0 → ε < |b v| := by
    induction t.used with
    | nil => exact ⟨1, one_pos, by simp⟩
    | cons u l ih =>
      obtain ⟨ε, hε, h⟩ := ih
      by_cases hu : b u = 0
      · refine ⟨ε, hε, fun v hv hne => ?_⟩
        rcases List.mem_cons.mp hv with rfl | hv
        · exact absurd hu hne
        · exact h v hv hne
      · have hpos : 0 < |b u| := abs_pos.mpr hu
        refine ⟨min ε (|b u| / 2), lt_min hε (by linarith), fun v hv hne => ?_⟩
        rcases List.mem_cons.mp hv with rfl | hv
        · exact (min_le_right _ _).trans_lt (by linarith)
        · exact (min_le_left _ _).trans_lt (h v hv hne)
  obtain ⟨J, hJ, hJ'⟩ := hbr N hN ε hε
  refine ⟨J, fun L hL => ⟨d L, hd L (by omega), fun v hv => ?_⟩⟩
  obtain ⟨h1, h2⟩ := hJ' L hL v hv
  rw [e v hv] at h1 h2
  have hneg : b v < 0 → ε < -b v := fun h => by
    have := hsmall v hv h.ne
    rwa [abs_of_neg h] at this
  have hpos : 0 < b v → ε < b v := fun h => by
    have := hsmall v hv h.ne'
    rwa [abs_of_pos h] at this
  constructor <;> intro eg <;> rw [eg] at h1 h2 <;> push_cast at h1 h2
  · exact ⟨fun he hb => by linarith [h2 he, hneg hb], fun he hb => by linarith [h1 he, hpos hb]⟩
  · exact ⟨fun he hb => by linarith [h2 he, hpos hb], fun he hb => by linarith [h1 he, hneg hb]⟩

/-- C109, limits.  If two successive numbers of iterations give the same beliefs without damping, damped runs tend to these beliefs. -/
theorem C109_limit {N : ℕ} (hN : 1 ≤ N) {b : ℕ → ℚ}
    (hb : ksatBeliefs N false 0 (ksatObject n k t (listOf n (fun v => fin (w v)))) = some (listOf n (fun v => fin (b v))))
    (hb' : ksatBeliefs (N + 1) false 0 (ksatObject n k t (listOf n (fun v => fin (w v)))) = some (listOf n (fun v => fin (b v)))) :
    ∃ d : ℕ → ℕ → ℚ, (∀ L, 1 ≤ L → ksatBeliefs L flag alpha (ksatObject n k t (listOf n (fun v => fin (w v)))) = some (listOf n (fun v => fin (d L v)))) ∧
      ∀ v ∈ t.used, Tends (fun L => d L v) (b v) := by
  have hg' := Proofs.plainSign_unmixed hf hg
  obtain ⟨q, d, hq, hd, hbr⟩ := C109_bracket hf hk hg' w ha
  have same : ∀ M ≥ 1, ksatBeliefs M false 0 (ksatObject n k t (listOf n (fun v => fin (w v)))) = some (listOf n (fun v => fin (b v))) → ∀ v ∈ t.used, q M v = b v := by
    intro M hM hb v hv
    rw [hq M hM] at hb
    have hvn := hf.tables.used_lt v hv
    have := congrArg (fun l => l[v]?) (Option.some.inj hb)
    simpa [listOf, hvn] using this
  refine ⟨d, hd, fun v hv ε hε => ?_⟩
  obtain ⟨J, hJ, h1⟩ := hbr N hN (ε / 2) (by linarith)
  obtain ⟨J', hJ', h2⟩ := hbr (N + 1) (by omega) (ε / 2) (by linarith)
  refine ⟨max J J', fun L hL => ?_⟩
  have h1 := h1 L ((le_max_left _ _).trans hL) v hv
  have h2 := h2 L ((le_max_right _ _).trans hL) v hv
  rw [same N hN hb v hv] at h1
  rw [same (N + 1) (by omega) hb' v hv, Nat.even_add_one, not_not] at h2
  rw [abs_lt]
  by_cases he : Even N
  · have h3 := h1.2 he
    have h4 := h2.1 he
    rcases Proofs.plainSign_one g v with e | e <;> rw [e] at h3 h4 <;> push_cast at h3 h4 <;> constructor <;> linarith
  · have h3 := h1.1 he
    have h4 := h2.2 he
    rcases Proofs.plainSign_one g v with e | e <;> rw [e] at h3 h4 <;> push_cast at h3 h4 <;> constructor <;> linarith

/-- C109, whole calls.  If an even and an odd number of iterations without damping give the same decisions and no belief is zero, then with any damping factor below one
every sufficiently long call reports the only cheapest satisfying assignment. -/
theorem C109_certified {N M : ℕ} (hN : 1 ≤ N) (hNe : Even N) (hMo : ¬ Even M) {b b' : ℕ → ℚ}
    (hb : ksatBeliefs N false 0 (ksatObject n k t (listOf n (fun v => fin (w v)))) = some (listOf n (fun v => fin (b v))))
    (hb' : ksatBeliefs M false 0 (ksatObject n k t (listOf n (fun v => fin (w v)))) = some (listOf n (fun v => fin (b' v))))
    (hsame : ∀ v ∈ t.used, (b v < 0 ∧ b' v < 0) ∨ (0 < b v ∧ 0 < b' v)) :
    ∃ S, OnlyCheapest t.used.toFinset (Satisfies t.clauses) w S ∧ ∃ J, ∀ L ≥ J, ∀ order order' : List ℕ → List ℕ, (∀ l, (order l).Perm l) → (∀ l, (order' l).Perm l) →
      ∀ (post : Bool) (pp : ℕ) (sol : List Bool), (sol = [] ∨ sol.length = n) →
        ∃ res, ksatCall n k L flag alpha (fin 0) order order' post pp sol t (listOf n (fun v => fin (w v))) = some res ∧
          res.post.flag = true ∧ res.post.sum.unsat = [] ∧ res.requiredPP = false ∧ ∀ v, v ∈ res.post.sum.active ↔ v ∈ S := by
  have hM : 1 ≤ M := by
    rcases Nat.eq_zero_or_pos M with e | e
    · rw [e] at hMo; exact absurd (by decide) hMo
    · exact e
  have hg' := Proofs.plainSign_unmixed hf hg
  have hbest := (C108_certified hf hk hg' (.inl rfl) hN hNe hMo hb hb' hsame).1
  refine ⟨_, hbest, ?_⟩
  obtain ⟨J, hJ⟩ := C109_decisions hf hk hg' w ha hN hb
  obtain ⟨J', hJ'⟩ := C109_decisions hf hk hg' w ha hM hb'
  refine ⟨max J J', fun L hL order order' ho ho' post pp sol hs => ?_⟩
  obtain ⟨d, hd, h1⟩ := hJ L ((le_max_left _ _).trans hL)
  obtain ⟨d', hd', h2⟩ := hJ' L ((le_max_right _ _).trans hL)
  have e : ∀ v ∈ t.used, d' v = d v := by
    intro v hv
    rw [hd] at hd'
    have hvn := hf.tables.used_lt v hv
    have := congrArg (fun l => l[v]?) (Option.some.inj hd'.symm)
    simpa [listOf, hvn] using this
  have hlt : ∀ v ∈ t.used, (d v ≤ 0 ↔ v ∈ t.used.toFinset.filter (fun v => b v < 0)) := by
    intro v hv
    have h1 := h1 v hv
    have h2 := h2 v hv
    rw [e v hv] at h2
    rw [Finset.mem_filter, List.mem_toFinset]
    rcases hsame v hv with ⟨s1, s2⟩ | ⟨s1, s2⟩
    · refine ⟨fun _ => ⟨hv, s1⟩, fun _ => ?_⟩
      rcases Proofs.plainSign_one g v with eg | eg
      · exact ((h1.1 eg).1 hNe s1).le
      · exact ((h2.2 eg).2 hMo s2).le
    · have : 0 < d v := by
        rcases Proofs.plainSign_one g v with eg | eg
        · exact (h2.1 eg).2 hMo s2
        · exact (h1.2 eg).1 hNe s1
      exact ⟨fun h => by linarith, fun h => by linarith [h.2]⟩
  obtain ⟨res, c1, c2, c3, c4, c5, -⟩ := Proofs.call_of_signs hf ho ho' (post := post) (pp := pp) hs hd hbest.1 hbest.2.1 hlt
  exact ⟨res, c1, c2, c3, c4, c5⟩

end

/-! ## Examples -/

/-- Whatever the damping factor, long calls report the cheapest cover of the cycle. -/
example (alpha : ℚ) (h0 : 0 ≤ alpha) (h1 : alpha < 1) : ∃ J, ∀ L ≥ J, ∃ res,
    ksatCall 5 2 L true alpha (fin 0) id id true 3 [] c106Cycle (listOf 5 (fun v => fin (c106Costs v))) = some res ∧ ∀ v, v ∈ res.post.sum.active ↔ v ∈ ({0, 2, 4} : Finset ℕ) := by
  obtain ⟨S, hS, J, hJ⟩ := C109_certified c106Cycle_ok le_rfl c106Cycle_unmixed c106Costs (flag := true) (alpha := alpha) (fun _ => ⟨h0, h1⟩) (N := 4) (M := 5)
    (by omega) (by decide) (by decide) (b := fun v => [-2, 2, -2, 1, -1].getD v 0) (b' := fun v => [-2, 2, -2, 1, -1].getD v 0) (by decide +kernel) (by decide +kernel)
    (by decide +kernel)
  have hS' : OnlyCheapest c106Cycle.used.toFinset (Satisfies c106Cycle.clauses) c106Costs {0, 2, 4} := by
    have h := (C108_certified c106Cycle_ok le_rfl c106Cycle_unmixed (w := c106Costs) (flag := false) (alpha := 0) (.inl rfl) (N := 4) (M := 5) (by omega) (by decide)
      (by decide) (b := fun v => [-2, 2, -2, 1, -1].getD v 0) (b' := fun v => [-2, 2, -2, 1, -1].getD v 0) (by decide +kernel) (by decide +kernel) (by decide +kernel)).1
    rwa [show c106Cycle.used.toFinset.filter (fun v => ([-2, 2, -2, 1, -1] : List ℚ).getD v 0 < 0) = {0, 2, 4} from by decide +kernel] at h
  have e : S = {0, 2, 4} := by
    by_contra hne
    have a := hS.2.2 _ hS'.1 hS'.2.1 (Ne.symm hne)
    have b := hS'.2.2 _ hS.1 hS.2.1 hne
    linarith
  refine ⟨J, fun L hL => ?_⟩
  obtain ⟨res, c1, -, -, -, c2⟩ := hJ L hL id id (fun l => List.Perm.refl l) (fun l => List.Perm.refl l) true 3 [] (.inl rfl)
  exact ⟨res, c1, by rw [← e]; exact c2⟩

/-- With damping one half the beliefs tend to those of four undamped iterations. -/
example : ∃ d : ℕ → ℕ → ℚ, (∀ L, 1 ≤ L → ksatBeliefs L true (1 / 2) (ksatObject 5 2 c106Cycle (listOf 5 (fun v => fin (c106Costs v)))) =
    some (listOf 5 (fun v => fin (d L v)))) ∧ Tends (fun L => d L 0) (-2) := by
  obtain ⟨d, h1, h2⟩ := C109_limit c106Cycle_ok le_rfl c106Cycle_unmixed c106Costs (flag := true) (alpha := 1 / 2) (fun _ => by norm_num) (N := 4) (by omega)
    (b := fun v => [-2, 2, -2, 1, -1].getD v 0) (by decide +kernel) (by decide +kernel)
  exact ⟨d, h1, h2 0 (by decide)⟩

/-- C109, a factor of one is excluded: then nothing is ever passed on, and the beliefs stay the costs. -/
theorem C109_factor_one : ∃ b : ℕ → ℚ, ksatBeliefs 9 true 1 (ksatObject 5 2 c106Cycle (listOf 5 (fun v => fin (c106Costs v)))) = some (listOf 5 (fun v => fin (b v))) ∧
    ∀ v < 5, b v = c106Costs v := ⟨c106Costs, by decide +kernel, fun _ _ => rfl⟩

end Verif.Properties
