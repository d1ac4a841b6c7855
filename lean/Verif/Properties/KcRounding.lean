import Verif.Proofs.ParamKcCall
import Verif.Properties.KcCall
import Verif.Properties.TspRounding

/-! # C65: rounding errors in the assignment solver -/

namespace Verif.Properties
open Verif Num Spec Model

section
variable {d : TeamData} {caps types : List ℕ} {combos : List (ℕ × ℕ)} {count : ℕ × ℕ × ℕ → ℕ} (h : KcCallOk d caps types combos count)
  {P : ℕ} (hP : 0 < P) {L : List (ℕ × ℕ × ℕ)} (hL : L = teams combos types count) (w : ℕ → ℚ) (R : ℕ → ℕ → ℚ) (flag : Bool) (alpha : ℚ)
  {q : ℚ} (hq : q ≤ 0) (post byTeams : Bool) (K : ℕ)
include h hP hL hq

/-- The run with exact arithmetic ends, with or without post-processing. -/
theorem run_ends {a raw o y e : ℕ → ℕ → ℕ → ℚ} {c : ℕ → ℕ → ℚ} (ht : TeamTrace caps L P w R flag alpha a raw o y e c) :
    ∃ res, kcCall d (K + 1) flag alpha post (if byTeams then 2 else 1) (fin q) (inputFile caps types L.length P w R) = some res ∧
      res.beliefs = listOf L.length (fun t => fin (teamBelief caps L w flag alpha raw c K t)) := by
  cases post with
  | false =>
    obtain ⟨res, h1, h2, -⟩ := C54_plain h hP hL ht K (if byTeams then 2 else 1) hq
    exact ⟨res, h1, h2⟩
  | true =>
    obtain ⟨res, -, h1, h2, -⟩ := (C54_call h hP hL).2 a raw o y e c ht K q byTeams hq
    exact ⟨res, h1, h2⟩

/-- C65, exact runs.  Let `G` be a set of numbers with zero and the constant 10⁶, closed under sums and negation, and closed under damping if
damping is on.  If all costs are in `G`, then there are finitely many numbers in `G` such that every rounding that keeps these numbers leads to
exactly the same result as exact arithmetic. -/
theorem C65_exact {G : ℚ → Prop} (h0 : G 0) (hneg : ∀ x, G x → G (-x)) (hadd : ∀ x y, G x → G y → G (x + y)) (hbig : G 1000000)
    (hdamp : flag = true → alpha ≠ 0 → G (1 - alpha) ∧ ∀ x, G x → G (x * (1 - alpha)) ∧ G (x * alpha)) (hw : ∀ t < L.length, G (w t))
    (hRG : ∀ p < P, ∀ t < L.length, G (R p t)) :
    ∃ res, kcCall d (K + 1) flag alpha post (if byTeams then 2 else 1) (fin q) (inputFile caps types L.length P w R) = some res ∧
      ∃ F : Finset ℚ, (∀ x ∈ F, G x) ∧ ∀ r : ℚ → Num, (∀ x ∈ F, r x = fin x) →
        Rounded.kcCall r d (K + 1) flag alpha post (if byTeams then 2 else 1) (fin q) (inputFile caps types L.length P w R) = some res := by
  obtain ⟨hprob, T, hgen, -, -, hinit⟩ := call_start (w := w) (R := R) h hP hL
  obtain ⟨a, raw, o, y, e, c, ht⟩ := C23_trace (w := w) (R := R) hprob flag alpha
  obtain ⟨res, h1, h2⟩ := run_ends h hP hL w R flag alpha hq post byTeams K ht
  obtain ⟨m, hm, hm'⟩ := C23_call hprob flag alpha ht K
  refine ⟨res, h1, ?_⟩
  have fixed : ∀ x, G x → Proofs.Keep G (fin x) (fun _ => fin x) := fun x hx =>
    ⟨fun y hy => by rw [Num.fin.injEq] at hy; rw [← hy]; exact hx, Filter.Eventually.of_forall fun _ => rfl⟩
  obtain ⟨B, g1, g2, g3⟩ := Proofs.rel_kcIteratePy (Proofs.calc_keep h0 hneg hadd) (fixed _ hbig) (Proofs.damps_keep hdamp) hprob.departments (K + 1)
    (T := L.length) (P := P) (w := fun t => fin (w t)) (W := fun _ t => fin (w t)) (fun t ht => fixed _ (hw t ht))
    (c := fun p t => fin (R p t)) (C := fun _ p t => fin (R p t)) (fun p hp t ht => fixed _ (hRG p hp t ht)) _ hm
  have k1 := g2.length
  have k2 : ∀ᶠ r in Proofs.keepFilter G, ∀ t ∈ Finset.range L.length, (B r).1.getD t 0 = fin (teamBelief caps L w flag alpha raw c K t) := by
    rw [Filter.eventually_all_finset]
    intro t ht
    have ht := Finset.mem_range.mp ht
    have := (g2.data t (by simp [listOf]; exact ht)).2
    rw [Proofs.listOf_getD ht] at this
    exact this
  have k3 : ∀ᶠ r in Proofs.keepFilter G, ∀ p ∈ Finset.range P, ∀ t ∈ Finset.range L.length, (B r).2.data p t = m.data p t := by
    rw [Filter.eventually_all_finset]
    intro p hp
    rw [Filter.eventually_all_finset]
    intro t ht
    exact (g3.data p (by rw [hm'.1]; exact Finset.mem_range.mp hp) t (by rw [hm'.2.1]; exact Finset.mem_range.mp ht)).2
  have k4 : ∀ᶠ r in Proofs.keepFilter G,
      Rounded.kcCall r d (K + 1) flag alpha post (if byTeams then 2 else 1) (fin q) (inputFile caps types L.length P w R) = some res := by
    filter_upwards [g1, k1, k2, k3, g3.rows, g3.cols] with r e1 e2 e3 e4 e5 e6
    have e : (B r).1 = listOf L.length (fun t => fin (teamBelief caps L w flag alpha raw c K t)) := by
      refine List.ext_getElem e2 fun t t1 t2 => ?_
      have htL : t < L.length := by simpa [listOf] using t2
      have := e3 t (Finset.mem_range.mpr htL)
      rw [List.getD_eq_getElem _ _ t1] at this
      rw [this]
      simp [listOf]
    have key := Proofs.rounded_kcCall (ρ := r) (N := L.length) (P := P) (T := L.length) (f := teamBelief caps L w flag alpha raw c K)
      (f' := teamBelief caps L w flag alpha raw c K) (m := m) (m' := (B r).2) h1 hinit hinit rfl hm (by rw [e1, ← e]) hq hm'.1 hm'.2.1
      (by rw [e5, hm'.1]) (by rw [e6, hm'.2.1]) (fun p hp t ht => by rw [e4 p (Finset.mem_range.mpr hp) t (Finset.mem_range.mpr ht)]) le_rfl
      (fun _ p hp p' hp' t ht _ _ => by
        rw [e4 p (Finset.mem_range.mpr hp) t (Finset.mem_range.mpr ht), e4 p' (Finset.mem_range.mpr hp') t (Finset.mem_range.mpr ht)])
      (fun _ _ _ _ _ => Iff.rfl)
    rw [key, ← h2]
  exact k4

/-- C65, integers.  With integer costs and without damping there is a bound such that every arithmetic that is exact on the integers up to the
bound leads to exactly the same result as exact arithmetic. -/
theorem C65_integers (hd : flag = false ∨ alpha = 0) (hw : ∀ t < L.length, ∃ z : ℤ, w t = z) (hRz : ∀ p < P, ∀ t < L.length, ∃ z : ℤ, R p t = z) :
    ∃ res, kcCall d (K + 1) flag alpha post (if byTeams then 2 else 1) (fin q) (inputFile caps types L.length P w R) = some res ∧
      ∃ B : ℕ, ∀ r : ℚ → Num, KeepsIntegers r B →
        Rounded.kcCall r d (K + 1) flag alpha post (if byTeams then 2 else 1) (fin q) (inputFile caps types L.length P w R) = some res := by
  obtain ⟨res, h3, F, h1, h2⟩ := C65_exact h hP hL w R flag alpha hq post byTeams K (G := fun x => ∃ z : ℤ, x = z) ⟨0, by simp⟩
    (fun x ⟨z, hz⟩ => ⟨-z, by rw [hz]; push_cast; rfl⟩) (fun x y ⟨z, hz⟩ ⟨w, hw⟩ => ⟨z + w, by rw [hz, hw]; push_cast; rfl⟩) ⟨1000000, by norm_num⟩
    (fun h1 h2 => by rcases hd with hd | hd; · rw [hd] at h1; cases h1
                     · exact absurd hd h2) hw hRz
  refine ⟨res, h3, F.sup (fun x => x.num.natAbs), fun r hk => h2 r fun x hx => ?_⟩
  obtain ⟨z, rfl⟩ := h1 x hx
  refine hk z ?_
  have := Finset.le_sup (f := fun x : ℚ => x.num.natAbs) hx
  simp only [Rat.num_intCast] at this
  rw [Int.abs_eq_natAbs]
  exact_mod_cast this

/-- C65, small errors.  Suppose that no pair belief of the exact run equals the threshold and, if there is post-processing, that the pair beliefs
of one team below the threshold are different and that the selected teams have different beliefs.  Then every arithmetic that is accurate
enough keeps and reports the same teams with the same projects, also for costs that are changed a little, and its beliefs are as close to the
exact ones as desired. -/
theorem C65_call {a raw o y e : ℕ → ℕ → ℕ → ℚ} {c : ℕ → ℕ → ℚ} (ht : TeamTrace caps L P w R flag alpha a raw o y e c)
    (hne : ∀ p < P, ∀ t < L.length, pairBelief R o y K p t ≠ q)
    (hpairs : post = true → ∀ p < P, ∀ p' < P, ∀ t < L.length, p ≠ p' → pairBelief R o y K p t < q → pairBelief R o y K p' t < q →
      pairBelief R o y K p t ≠ pairBelief R o y K p' t)
    (hteams : post = true → ∀ t < L.length, ∀ t' < L.length, t ≠ t' → (∃ p < P, pairBelief R o y K p t < q) → (∃ p < P, pairBelief R o y K p t' < q) →
      teamBelief caps L w flag alpha raw c K t ≠ teamBelief caps L w flag alpha raw c K t') :
    ∃ res, kcCall d (K + 1) flag alpha post (if byTeams then 2 else 1) (fin q) (inputFile caps types L.length P w R) = some res ∧
      ∀ η > 0, ∃ M, ∃ ε > 0, ∀ (r : ℚ → Num) (w' : ℕ → ℚ) (R' : ℕ → ℕ → ℚ), Accurate r M ε → (∀ t < L.length, |w t - w' t| ≤ ε) →
        (∀ p < P, ∀ t < L.length, |R p t - R' p t| ≤ ε) → ∃ b' : ℕ → ℚ,
          Rounded.kcCall r d (K + 1) flag alpha post (if byTeams then 2 else 1) (fin q) (inputFile caps types L.length P w' R') =
            some { res with beliefs := listOf L.length (fun t => fin (b' t)) } ∧
          ∀ t < L.length, |teamBelief caps L w flag alpha raw c K t - b' t| ≤ η := by
  obtain ⟨hprob, T, hgen, -, -, hinit⟩ := call_start (w := w) (R := R) h hP hL
  obtain ⟨res, h1, h2⟩ := run_ends h hP hL w R flag alpha hq post byTeams K ht
  obtain ⟨m, hm, hm'⟩ := C23_call hprob flag alpha ht K
  have hm' : m.Is P L.length (pairBelief R o y K) := hm'
  refine ⟨res, h1, fun η hη => ?_⟩
  have hfine := Proofs.fine_teams (T := L.length) (P := P) (w := w) (c := R)
  obtain ⟨B, g1, g2, g3⟩ := Proofs.rel_kcIteratePy (Proofs.calc_lim hfine) (Proofs.Lim.refl _) (Proofs.damps_lim hfine flag alpha) hprob.departments (K + 1)
    (T := L.length) (P := P) (w := fun t => fin (w t)) (W := fun i t => fin (i.2.1 t)) (fun t ht => Proofs.lim_team ht)
    (c := fun p t => fin (R p t)) (C := fun i p t => fin (i.2.2 p t)) (fun p hp t ht => Proofs.lim_pair hp ht) _ hm
  set b := teamBelief caps L w flag alpha raw c K with hb
  set x := pairBelief R o y K with hx
  have hlimT : ∀ t < L.length, Proofs.Lim (Proofs.teamsFilter L.length P w R) (fin (b t)) (fun i => (B i).1.getD t 0) := by
    intro t ht
    have := g2.data t (by simp [listOf]; exact ht)
    rwa [Proofs.listOf_getD ht] at this
  have hlimP : ∀ p < P, ∀ t < L.length, Proofs.Lim (Proofs.teamsFilter L.length P w R) (fin (x p t)) (fun i => (B i).2.data p t) := by
    intro p hp t ht
    have := g3.data p (by rw [hm'.1]; exact hp) t (by rw [hm'.2.1]; exact ht)
    rwa [hm'.2.2 p hp t ht] at this
  have k1 : ∀ᶠ i in Proofs.teamsFilter L.length P w R, ∀ t ∈ Finset.range L.length, ∃ c, (B i).1.getD t 0 = fin c ∧ |b t - c| ≤ η := by
    rw [Filter.eventually_all_finset]
    exact fun t ht => (hlimT t (Finset.mem_range.mp ht)).near hη
  have k2 : ∀ᶠ i in Proofs.teamsFilter L.length P w R, ∀ p ∈ Finset.range P, ∀ t ∈ Finset.range L.length,
      Num.lt ((B i).2.data p t) (fin q) = Num.lt (fin (x p t)) (fin q) := by
    rw [Filter.eventually_all_finset]
    intro p hp
    rw [Filter.eventually_all_finset]
    intro t ht
    have hp := Finset.mem_range.mp hp
    have ht := Finset.mem_range.mp ht
    exact Proofs.Lim.lt (hlimP p hp t ht) (Proofs.Lim.refl (fin q)) fun z hz hz' => hne p hp t ht (by
      rw [Num.fin.injEq] at hz hz'; rw [hz, hz'])
  have k3 : ∀ᶠ i in Proofs.teamsFilter L.length P w R, ∀ p ∈ Finset.range P, ∀ p' ∈ Finset.range P, ∀ t ∈ Finset.range L.length,
      post = true → x p t < q → x p' t < q → Num.lt ((B i).2.data p t) ((B i).2.data p' t) = Num.lt (fin (x p t)) (fin (x p' t)) := by
    rw [Filter.eventually_all_finset]
    intro p hp
    rw [Filter.eventually_all_finset]
    intro p' hp'
    rw [Filter.eventually_all_finset]
    intro t ht
    have hp := Finset.mem_range.mp hp
    have hp' := Finset.mem_range.mp hp'
    have ht := Finset.mem_range.mp ht
    by_cases hc : post = true ∧ x p t < q ∧ x p' t < q
    · by_cases hpp : p = p'
      · subst hpp
        filter_upwards [(hlimP p hp t ht).near one_pos] with i hi
        obtain ⟨z, hz, -⟩ := hi
        intros
        rw [hz]; simp
      · filter_upwards [Proofs.Lim.lt (hlimP p hp t ht) (hlimP p' hp' t ht) fun z hz hz' =>
          hpairs hc.1 p hp p' hp' t ht hpp hc.2.1 hc.2.2 (by rw [Num.fin.injEq] at hz hz'; rw [hz, hz'])] with i hi
        intros
        exact hi
    · exact Filter.Eventually.of_forall fun i h1 h2 h3 => absurd ⟨h1, h2, h3⟩ hc
  have k4 : ∀ᶠ i in Proofs.teamsFilter L.length P w R, ∀ t ∈ Finset.range L.length, ∀ t' ∈ Finset.range L.length,
      post = true → (∃ p < P, x p t < q) → (∃ p < P, x p t' < q) → Num.lt ((B i).1.getD t 0) ((B i).1.getD t' 0) = Num.lt (fin (b t)) (fin (b t')) := by
    rw [Filter.eventually_all_finset]
    intro t ht
    rw [Filter.eventually_all_finset]
    intro t' ht'
    have ht := Finset.mem_range.mp ht
    have ht' := Finset.mem_range.mp ht'
    by_cases hc : post = true ∧ (∃ p < P, x p t < q) ∧ ∃ p < P, x p t' < q
    · by_cases htt : t = t'
      · subst htt
        filter_upwards [(hlimT t ht).near one_pos] with i hi
        obtain ⟨z, hz, -⟩ := hi
        intros
        rw [hz]; simp
      · filter_upwards [Proofs.Lim.lt (hlimT t ht) (hlimT t' ht') fun z hz hz' =>
          hteams hc.1 t ht t' ht' htt hc.2.1 hc.2.2 (by rw [Num.fin.injEq] at hz hz'; rw [hz, hz'])] with i hi
        intros
        exact hi
    · exact Filter.Eventually.of_forall fun i h1 h2 h3 => absurd ⟨h1, h2, h3⟩ hc
  obtain ⟨M, ε, hε, key⟩ := g1.and (g2.length.and (k1.and (k2.and (k3.and (k4.and (g3.rows.and g3.cols))))))
  refine ⟨M, ε, hε, fun r w' R' hr hw' hR' => ?_⟩
  obtain ⟨j1, j2, j3, j4, j5, j6, j7, j8⟩ := key (r, w', R') ⟨hr, hw', hR'⟩
  have hbv : ∀ t, ∃ c, t < L.length → (B (r, w', R')).1.getD t 0 = fin c ∧ |b t - c| ≤ η := by
    intro t
    by_cases ht : t < L.length
    · obtain ⟨c, hc⟩ := j3 t (Finset.mem_range.mpr ht)
      exact ⟨c, fun _ => hc⟩
    · exact ⟨0, fun h => absurd h ht⟩
  choose b' hb' using hbv
  have hlist : (B (r, w', R')).1 = listOf L.length (fun t => fin (b' t)) := by
    refine List.ext_getElem (by rw [j2]; simp [listOf]) fun t e1 e2 => ?_
    have ht : t < L.length := by simpa [listOf] using e2
    have := (hb' t ht).1
    rw [List.getD_eq_getElem _ _ e1] at this
    rw [this]
    simp [listOf]
  obtain ⟨-, T', hgen', -, -, hinit'⟩ := call_start (w := w') (R := R') h hP hL
  obtain rfl : T' = T := by rw [hgen] at hgen'; exact (Option.some.inj hgen').symm
  refine ⟨b', ?_, fun t ht => (hb' t ht).2⟩
  refine Proofs.rounded_kcCall (N := L.length) (P := P) (T := L.length) (f := b) (m := m) (m' := (B (r, w', R')).2) h1 hinit hinit' rfl hm
    (by rw [← hlist]; exact j1) hq hm'.1 hm'.2.1 (by rw [j7, hm'.1]) (by rw [j8, hm'.2.1]) (fun p hp t ht => ?_) le_rfl (fun hpost p hp p' hp' t ht c1 c2 => ?_)
    fun hpost t ht t' ht' => ?_
  · rw [hm'.2.2 p hp t ht]
    exact j4 p (Finset.mem_range.mpr hp) t (Finset.mem_range.mpr ht)
  · rw [hm'.2.2 p hp t ht] at c1 ⊢
    rw [hm'.2.2 p' hp' t ht] at c2 ⊢
    exact j5 p (Finset.mem_range.mpr hp) p' (Finset.mem_range.mpr hp') t (Finset.mem_range.mpr ht) hpost (by simpa using c1) (by simpa using c2)
  · have hs : IsSelection m q (selectedTeams (decisionMatrix (fin q) m)) := (C31_nonpositive_partial hq m).2.2
    have hsel : ∀ t ∈ selectedTeams (decisionMatrix (fin q) m), t < L.length ∧ ∃ p < P, x p t < q := by
      intro t ht
      obtain ⟨h3, p, h4, h5⟩ := (hs.2 t).mp ht
      rw [hm'.1] at h4
      rw [hm'.2.1] at h3
      rw [hm'.2.2 p h4 t h3] at h5
      exact ⟨h3, p, h4, by simpa using h5⟩
    obtain ⟨t1, t2⟩ := hsel t ht
    obtain ⟨t1', t2'⟩ := hsel t' ht'
    have := j6 t (Finset.mem_range.mpr t1) t' (Finset.mem_range.mpr t1') hpost t2 t2'
    rw [(hb' t t1).1, (hb' t' t1').1] at this
    simpa using this.symm

end

/-- The costs of the example of C54. -/
def c65Pairs (p t : ℕ) : ℚ := ([[-8, 1, -7], [-7, -4, -7], [-6, -9, -7], [-5, -14, -7]].getD t []).getD p 0

theorem c65_load : inputFile [2, 2] [2] 4 3 (fun _ => -3) c65Pairs = c54Load := rfl

/-- The theorem on integers applies: with arithmetic that is exact on large enough integers the teams 0 and 3 are chosen after five iterations. -/
example : ∃ B : ℕ, ∀ r, KeepsIntegers r B → (Rounded.kcCall r flatData 5 false 0 true 1 (fin 0) c54Load).map (fun r => (r.beliefs, r.kept)) =
    some ([fin (-11), fin 15, fin 17, fin (-13)], [0, 3]) := by
  obtain ⟨res, h, B, hB⟩ := C65_integers c54_ok (P := 3) (by norm_num) (L := [(1, 1, 2), (1, 2, 2), (1, 2, 2), (2, 2, 2)]) (by decide) (fun _ => -3) c65Pairs
    false 0 (q := 0) le_rfl true false 4 (Or.inl rfl) (fun t _ => ⟨-3, by norm_num⟩) (fun p hp t ht => by
      have : ∀ p < 3, ∀ t < 4, c65Pairs p t = ((c65Pairs p t).num : ℚ) := by decide +kernel
      exact ⟨_, this p hp t ht⟩)
  refine ⟨B, fun r hr => ?_⟩
  have e := hB r hr
  rw [show ([(1, 1, 2), (1, 2, 2), (1, 2, 2), (2, 2, 2)] : List (ℕ × ℕ × ℕ)).length = 4 from rfl, c65_load] at e h
  rw [show Rounded.kcCall r flatData 5 false 0 true 1 (fin 0) c54Load = some res from e, ← h]
  decide +kernel

/-- The hypotheses of `C65_call` hold after three iterations with damping 1/2; team 0 has two projects below the threshold. -/
example : ∃ M, ∃ ε > 0, ∀ (r : ℚ → Num) (w' : ℕ → ℚ) (R' : ℕ → ℕ → ℚ), Accurate r M ε → (∀ t < 4, |-3 - w' t| ≤ ε) →
    (∀ p < 3, ∀ t < 4, |c65Pairs p t - R' p t| ≤ ε) →
    (Rounded.kcCall r flatData 3 true (1 / 2) true 1 (fin 0) (inputFile [2, 2] [2] 4 3 w' R')).map (fun r => (r.kept, r.entries.map (fun e => e.2.2))) =
      some ([0, 3], [([1], [1]), ([4], [2])]) := by
  obtain ⟨hprob, -⟩ := call_start (w := fun _ => -3) (R := c65Pairs) c54_ok (P := 3) (by norm_num) (L := [(1, 1, 2), (1, 2, 2), (1, 2, 2), (2, 2, 2)]) (by decide)
  obtain ⟨a, raw, o, y, e, c, ht⟩ := C23_trace (w := fun _ => -3) (R := c65Pairs) hprob true (1 / 2)
  obtain ⟨m, hm, hm'⟩ := C23_call hprob true (1 / 2) ht 2
  have hex : (kcIteratePy 3 true (1 / 2) (pythonTables 2 4 3 (weightOf [(1, 1, 2), (1, 2, 2), (1, 2, 2), (2, 2, 2)]) (fun d => [2, 2].getD d 0)
      (fun _ => fin (-3)) (fun p t => fin (c65Pairs p t)))).map (fun x => (x.1, (List.range 3).map fun p => (List.range 4).map (x.2.data p))) =
      some ([fin (-4), fin 2, fin (3 / 2), fin (-11 / 2)], [[fin (-4), fin 4, fin (9 / 2), fin 8], [fin 14, fin 11, fin (11 / 2), fin (-11 / 2)],
        [fin (-3 / 2), fin 2, fin (3 / 2), fin 4]]) := by decide +kernel
  have hx : ∀ p < 3, ∀ t < 4, pairBelief c65Pairs o y 2 p t = ([[-4, 4, 9 / 2, 8], [14, 11, 11 / 2, -11 / 2], [-3 / 2, 2, 3 / 2, 4]].getD p []).getD t 0 := by
    have e := congrArg (Option.map Prod.snd) ((congrArg (Option.map _) hm).symm.trans hex)
    simp only [Option.map_some, Option.some.injEq, List.range_succ, List.range_zero] at e
    simp at e
    have hcell : ∀ p < 3, ∀ t < 4, m.data p t = fin (pairBelief c65Pairs o y 2 p t) := fun p hp t ht => hm'.2.2 p hp t ht
    simp only [hcell 0 (by norm_num) 0 (by norm_num), hcell 0 (by norm_num) 1 (by norm_num), hcell 0 (by norm_num) 2 (by norm_num),
      hcell 0 (by norm_num) 3 (by norm_num), hcell 1 (by norm_num) 0 (by norm_num), hcell 1 (by norm_num) 1 (by norm_num),
      hcell 1 (by norm_num) 2 (by norm_num), hcell 1 (by norm_num) 3 (by norm_num), hcell 2 (by norm_num) 0 (by norm_num),
      hcell 2 (by norm_num) 1 (by norm_num), hcell 2 (by norm_num) 2 (by norm_num), hcell 2 (by norm_num) 3 (by norm_num), Num.fin.injEq] at e
    intro p hp t ht
    interval_cases p <;> interval_cases t <;> simp [e]
  have hb : ∀ t < 4, teamBelief [2, 2] [(1, 1, 2), (1, 2, 2), (1, 2, 2), (2, 2, 2)] (fun _ => -3) true (1 / 2) raw c 2 t = [-4, 2, 3 / 2, -11 / 2].getD t 0 := by
    have e := congrArg (Option.map Prod.fst) ((congrArg (Option.map _) hm).symm.trans hex)
    simp only [Option.map_some, Option.some.injEq] at e
    intro t ht
    have := congrArg (fun L : List Num => L.getD t 0) e
    beta_reduce at this
    rw [Proofs.listOf_getD (by simpa using ht)] at this
    have e2 : ([fin (-4), fin 2, fin (3 / 2), fin (-11 / 2)] : List Num).getD t 0 = fin ([-4, 2, 3 / 2, -11 / 2].getD t 0) := by
      interval_cases t <;> rfl
    rw [e2, Num.fin.injEq] at this
    exact this
  obtain ⟨res, h1, h2⟩ := C65_call c54_ok (P := 3) (by norm_num) (L := [(1, 1, 2), (1, 2, 2), (1, 2, 2), (2, 2, 2)]) (by decide) (fun _ => -3) c65Pairs
    true (1 / 2) (q := 0) le_rfl true false 2 ht
    (by
      intro p hp t ht
      rw [hx p hp t ht]
      revert p t
      show ∀ p < 3, ∀ t, t < 4 → _
      decide +kernel)
    (by
      intro _ p hp p' hp' t ht
      rw [hx p hp t ht, hx p' hp' t ht]
      have : ∀ p < 3, ∀ p' < 3, ∀ t < 4, p = p' ∨
          ([[-4, 4, 9 / 2, 8], [14, 11, 11 / 2, -11 / 2], [-3 / 2, 2, 3 / 2, 4]].getD p []).getD t 0 ≠
            (([[-4, 4, 9 / 2, 8], [14, 11, 11 / 2, -11 / 2], [-3 / 2, 2, 3 / 2, 4]].getD p' []).getD t 0 : ℚ) := by decide +kernel
      exact fun hne _ _ => (this p hp p' hp' t ht).resolve_left hne)
    (by
      have hsel : ∀ t < 4, (∃ p < 3, pairBelief c65Pairs o y 2 p t < 0) → t = 0 ∨ t = 3 := by
        rintro t ht ⟨p, hp, hlt⟩
        rw [hx p hp t ht] at hlt
        revert p t
        show ∀ t < 4, ∀ p < 3, _
        decide +kernel
      intro _ t ht t' ht' hne h1 h2
      rw [hb t ht, hb t' ht']
      rcases hsel t ht h1 with rfl | rfl <;> rcases hsel t' ht' h2 with rfl | rfl <;> first | exact absurd rfl hne | decide +kernel)
  obtain ⟨M, ε, hε, h3⟩ := h2 1 one_pos
  refine ⟨M, ε, hε, fun r w' R' hr hw hR => ?_⟩
  obtain ⟨b', h4, -⟩ := h3 r w' R' hr hw hR
  have hc : (kcCall flatData 3 true (1 / 2) true 1 (fin 0) c54Load).map (fun r => (r.kept, r.entries.map (fun e => e.2.2))) =
      some ([0, 3], [([1], [1]), ([4], [2])]) := by decide +kernel
  rw [show kcCall flatData 3 true (1 / 2) true 1 (fin 0) c54Load = some res from h1] at hc
  rw [show Rounded.kcCall r flatData 3 true (1 / 2) true 1 (fin 0) (inputFile [2, 2] [2] 4 3 w' R') = _ from h4]
  exact hc

set_option synthInstance.maxSize 1000 in
/-- After the first iteration some pair beliefs equal the threshold, and rounding to multiples of 1/3 selects other teams. -/
example : (kcCall flatData 1 true (1 / 2) true 1 (fin 0) c54Load).map (fun r => r.kept) = some [0, 3] ∧
    (Rounded.kcCall (fun q => fin (gridRound 3 q)) flatData 1 true (1 / 2) true 1 (fin 0) c54Load).map (fun r => r.kept) = some [3] := by decide +kernel

end Verif.Properties
