import Verif.Proofs.ParamKsatCall
import Verif.Properties.KsatStable
import Verif.Properties.TspRounding

/-! # C64: rounding errors in the k-SAT solver -/

namespace Verif.Properties
open Verif Num Spec Model

section
variable {n k : ℕ} {t : KsatTables} (hf : KFormula n k t.clauses t.used t.conns) (hk : 2 ≤ k) (w : ℕ → ℚ) (flag : Bool) (alpha thr : ℚ)
  {order order' : List ℕ → List ℕ} (ho : ∀ l, (order l).Perm l) (ho' : ∀ l, (order' l).Perm l) (post : Bool) (pp : ℕ)
  {sol : List Bool} (hs : sol = [] ∨ sol.length = n) (K : ℕ)
include hf hk ho ho' hs

/-- C64, exact runs.  Let `G` be a set of numbers with zero, closed under sums and negation, and closed under damping if damping is on.  If all
costs are in `G`, then there are finitely many numbers in `G` such that every rounding that keeps these numbers leads to exactly the same result
as exact arithmetic. -/
theorem C64_exact {G : ℚ → Prop} (h0 : G 0) (hneg : ∀ x, G x → G (-x)) (hadd : ∀ x y, G x → G y → G (x + y))
    (hdamp : flag = true → alpha ≠ 0 → G (1 - alpha) ∧ ∀ x, G x → G (x * (1 - alpha)) ∧ G (x * alpha)) (hw : ∀ v < n, G (w v)) :
    ∃ res, ksatCall n k (K + 1) flag alpha (fin thr) order order' post pp sol t (listOf n (fun v => fin (w v))) = some res ∧
      ∃ F : Finset ℚ, (∀ x ∈ F, G x) ∧ ∀ r : ℚ → Num, (∀ x ∈ F, r x = fin x) →
        Rounded.ksatCall r n k (K + 1) flag alpha (fin thr) order order' post pp sol t (listOf n (fun v => fin (w v))) = some res := by
  obtain ⟨x, r, -, hb⟩ := Proofs.call_trace hf hk w flag alpha
  have hb := hb K
  obtain ⟨res, h1, h2, -⟩ := Proofs.call_of_beliefs hf ho ho' (thr := fin thr) (post := post) (pp := pp) hs hb (by simp [listOf])
  refine ⟨res, h1, ?_⟩
  obtain ⟨B, g1, g2⟩ := Proofs.rel_ksatBeliefs hf (Proofs.calc_keep h0 hneg hadd) Proofs.picks_keep (Proofs.damps_keep hdamp) (K + 1)
    (w := fun v => fin (w v)) (W := fun _ v => fin (w v)) (fun v hv => ⟨fun x hx => by rw [Num.fin.injEq] at hx; rw [← hx]; exact hw v hv,
      Filter.Eventually.of_forall fun _ => rfl⟩) _ hb
  have hlen := g2.length
  have hdata := g2.data
  rw [← h2] at hb hlen hdata
  have g3 : ∀ᶠ r in Proofs.keepFilter G, ∀ v ∈ Finset.range res.beliefs.length, (B r).getD v 0 = res.beliefs.getD v 0 := by
    rw [Filter.eventually_all_finset]
    exact fun v hv => (hdata v (Finset.mem_range.mp hv)).2
  have g4 : ∀ᶠ r in Proofs.keepFilter G,
      Rounded.ksatCall r n k (K + 1) flag alpha (fin thr) order order' post pp sol t (listOf n (fun v => fin (w v))) = some res := by
    filter_upwards [g1, g3, hlen] with r k1 k2 k3
    have e : B r = res.beliefs := by
      refine List.ext_getElem k3 fun v e1 e2 => ?_
      have := k2 v (Finset.mem_range.mpr e2)
      rwa [List.getD_eq_getElem _ _ e1, List.getD_eq_getElem _ _ e2] at this
    rw [e] at k1
    rw [Proofs.rounded_ksatCall h1 hb k1 rfl]
  exact g4

/-- C64, integers.  With integer costs and without damping there is a bound such that every arithmetic that is exact on the integers up to the
bound leads to exactly the same result as exact arithmetic. -/
theorem C64_integers (hd : flag = false ∨ alpha = 0) (hw : ∀ v < n, ∃ z : ℤ, w v = z) :
    ∃ res, ksatCall n k (K + 1) flag alpha (fin thr) order order' post pp sol t (listOf n (fun v => fin (w v))) = some res ∧
      ∃ B : ℕ, ∀ r : ℚ → Num, KeepsIntegers r B →
        Rounded.ksatCall r n k (K + 1) flag alpha (fin thr) order order' post pp sol t (listOf n (fun v => fin (w v))) = some res := by
  obtain ⟨res, h, F, h1, h2⟩ := C64_exact hf hk w flag alpha thr ho ho' post pp hs K (G := fun x => ∃ z : ℤ, x = z) ⟨0, by simp⟩
    (fun x ⟨z, hz⟩ => ⟨-z, by rw [hz]; push_cast; rfl⟩) (fun x y ⟨z, hz⟩ ⟨w, hw⟩ => ⟨z + w, by rw [hz, hw]; push_cast; rfl⟩)
    (fun h1 h2 => by rcases hd with hd | hd; · rw [hd] at h1; cases h1
                     · exact absurd hd h2) hw
  refine ⟨res, h, F.sup (fun x => x.num.natAbs), fun r hk => h2 r fun x hx => ?_⟩
  obtain ⟨z, rfl⟩ := h1 x hx
  refine hk z ?_
  have := Finset.le_sup (f := fun x : ℚ => x.num.natAbs) hx
  simp only [Rat.num_intCast] at this
  rw [Int.abs_eq_natAbs]
  exact_mod_cast this

/-- C64, small errors.  If no belief of the exact run equals the threshold, then every arithmetic that is accurate enough leads to the same
decisions, reports, flags and similarity, with and without post-processing, also for costs that are changed a little, and to beliefs as close to
the exact ones as desired. -/
theorem C64_call : ∃ (res : KsatResult) (b : ℕ → ℚ),
    ksatCall n k (K + 1) flag alpha (fin thr) order order' post pp sol t (listOf n (fun v => fin (w v))) = some res ∧
    res.beliefs = listOf n (fun v => fin (b v)) ∧
    ((∀ v < n, b v ≠ thr) → ∀ η > 0, ∃ M, ∃ ε > 0, ∀ (r : ℚ → Num) (w' : ℕ → ℚ), Accurate r M ε → (∀ v < n, |w v - w' v| ≤ ε) → ∃ b' : ℕ → ℚ,
      Rounded.ksatCall r n k (K + 1) flag alpha (fin thr) order order' post pp sol t (listOf n (fun v => fin (w' v))) =
        some { res with beliefs := listOf n (fun v => fin (b' v)) } ∧ ∀ v < n, |b v - b' v| ≤ η) := by
  obtain ⟨x, r, -, hb⟩ := Proofs.call_trace hf hk w flag alpha
  obtain ⟨b, hb⟩ : ∃ b : ℕ → ℚ, ksatBeliefs (K + 1) flag alpha (ksatObject n k t (listOf n (fun v => fin (w v)))) = some (listOf n (fun v => fin (b v))) :=
    ⟨_, hb K⟩
  obtain ⟨res, h1, h2, -⟩ := Proofs.call_of_beliefs hf ho ho' (thr := fin thr) (post := post) (pp := pp) hs hb (by simp [listOf])
  refine ⟨res, b, h1, h2, ?_⟩
  intro hne η hη
  have hfine := Proofs.fine_vars n w
  obtain ⟨B, g1, g2⟩ := Proofs.rel_ksatBeliefs hf (Proofs.calc_lim hfine) Proofs.picks_lim (Proofs.damps_lim hfine flag alpha) (K + 1)
    (w := fun v => fin (w v)) (W := fun i v => fin (i.2 v)) (fun v hv => Proofs.lim_vars hv) _ hb
  have hlen := g2.length
  have hlim : ∀ v < n, Proofs.Lim (Proofs.varsFilter n w) (fin (b v)) (fun i => (B i).getD v 0) := by
    intro v hv
    have := g2.data v (by simp [listOf]; exact hv)
    rwa [Proofs.listOf_getD hv] at this
  have g3 : ∀ᶠ i in Proofs.varsFilter n w, ∀ v ∈ Finset.range n, (∃ c, (B i).getD v 0 = fin c ∧ |b v - c| ≤ η) ∧
      Num.lt (fin thr) ((B i).getD v 0) = Num.lt (fin thr) (fin (b v)) := by
    rw [Filter.eventually_all_finset]
    intro v hv
    have hv := Finset.mem_range.mp hv
    exact ((hlim v hv).near hη).and (Proofs.Lim.lt (Proofs.Lim.refl (fin thr)) (hlim v hv) fun x hx hx' => hne v hv (by
      rw [Num.fin.injEq] at hx hx'; rw [hx, hx']))
  obtain ⟨M, ε, hε, key⟩ := g1.and (g3.and hlen)
  refine ⟨M, ε, hε, fun r w' hr hw' => ?_⟩
  obtain ⟨k1, k2, k3⟩ := key (r, w') ⟨hr, hw'⟩
  have hbv : ∀ v, ∃ c, v < n → (B (r, w')).getD v 0 = fin c ∧ |b v - c| ≤ η := by
    intro v
    by_cases hv : v < n
    · obtain ⟨⟨c, hc⟩, -⟩ := k2 v (Finset.mem_range.mpr hv)
      exact ⟨c, fun _ => hc⟩
    · exact ⟨0, fun h => absurd h hv⟩
  choose b' hb' using hbv
  have hlist : B (r, w') = listOf n (fun v => fin (b' v)) := by
    refine List.ext_getElem (by rw [k3]; simp [listOf]) fun v e1 e2 => ?_
    have hv : v < n := by simpa [listOf] using e2
    have := (hb' v hv).1
    rw [List.getD_eq_getElem _ _ e1] at this
    rw [this]
    simp [listOf]
  rw [hlist] at k1 k2
  refine ⟨b', Proofs.rounded_ksatCall h1 hb k1 ?_, fun v hv => (hb' v hv).2⟩
  simp only [hardDecisions, listOf, List.map_map]
  refine List.map_congr_left fun v hv => ?_
  have hv := List.mem_range.mp hv
  have := (k2 v (Finset.mem_range.mpr hv)).2
  rw [Proofs.listOf_getD hv] at this
  simp only [Function.comp, this]

end

/-- The formula of C52 is well formed, so the theorems apply to it. -/
example : ∃ B : ℕ, ∀ r, KeepsIntegers r B → (Rounded.ksatCall r 4 2 3 false 0 (fin (-1 / 10)) id id true 2 [] pathFormula
    (listOf 4 (fun v => fin (pathCost v)))).map (fun res => (res.beliefs, res.post.hard, res.post.flag)) =
      some ([fin 2, fin (-2), fin (-2), fin 2], [false, true, true, false], true) := by
  obtain ⟨res, h, B, hB⟩ := C64_integers (n := 4) (k := 2) (t := pathFormula) pathFormula_ok (by norm_num) pathCost false 0 (-1 / 10) (order := id)
    (order' := id) (fun _ => List.Perm.refl _) (fun _ => List.Perm.refl _) true 2 (sol := []) (Or.inl rfl) 2 (Or.inl rfl) (fun v hv => by
      have : ∀ v < 4, pathCost v = ((pathCost v).num : ℚ) := by decide +kernel
      exact ⟨_, this v hv⟩)
  refine ⟨B, fun r hr => ?_⟩
  rw [hB r hr, ← h]
  decide +kernel

/-- The hypotheses of `C64_call` hold for the same formula with damping 1/2: no belief equals the threshold. -/
example : ∃ M, ∃ ε > 0, ∀ (r : ℚ → Num) (w' : ℕ → ℚ), Accurate r M ε → (∀ v < 4, |pathCost v - w' v| ≤ ε) →
    (Rounded.ksatCall r 4 2 3 true (1 / 2) (fin (-1 / 10)) id id true 2 [] pathFormula (listOf 4 (fun v => fin (w' v)))).map
      (fun res => (res.post.hard, res.post.flag, res.requiredPP)) = some ([true, false, false, true], true, true) := by
  obtain ⟨res, b, h1, h2, h3⟩ := C64_call (n := 4) (k := 2) (t := pathFormula) pathFormula_ok (by norm_num) pathCost true (1 / 2) (-1 / 10) (order := id)
    (order' := id) (fun _ => List.Perm.refl _) (fun _ => List.Perm.refl _) true 2 (sol := []) (Or.inl rfl) 2
  have hex : (ksatCall 4 2 3 true (1 / 2) (fin (-1 / 10)) id id true 2 [] pathFormula (listOf 4 (fun v => fin (pathCost v)))).map
      (fun res => (res.beliefs, res.post.hard, res.post.flag, res.requiredPP)) =
      some ([fin (7 / 2), fin (-2), fin (1 / 8), fin (-1)], [true, false, false, true], true, true) := by decide +kernel
  rw [h1] at hex
  simp only [Option.map_some, Option.some.injEq, Prod.mk.injEq] at hex
  rw [h2] at hex
  have hb : ∀ v < 4, b v = [7 / 2, -2, 1 / 8, -1].getD v 0 := by
    have e := hex.1
    simp only [listOf, List.range_succ, List.range_zero] at e
    simp at e
    intro v hv
    interval_cases v <;> simp [e]
  obtain ⟨M, ε, hε, h4⟩ := h3 (fun v hv => by rw [hb v hv]; interval_cases v <;> norm_num) 1 one_pos
  refine ⟨M, ε, hε, fun r w' hr hw => ?_⟩
  obtain ⟨b', h5, -⟩ := h4 r w' hr hw
  rw [h5]
  simp only [Option.map_some, hex.2.1, hex.2.2.1, hex.2.2.2]

/-- In this example rounding to multiples of 1/3 is not accurate enough: one belief is only 9/40 away from the threshold. -/
example : (Rounded.ksatCall (fun q => fin (gridRound 3 q)) 4 2 3 true (1 / 2) (fin (-1 / 10)) id id true 2 [] pathFormula
    (listOf 4 (fun v => fin (pathCost v)))).map (fun res => (res.beliefs, res.post.hard)) =
    some ([fin (8 / 3), fin (-8 / 3), fin (-1), fin (-2 / 3)], [false, true, true, false]) := by decide +kernel

end Verif.Properties
