import Verif.Proofs.ExactKcRun
import Verif.Proofs.ExactKsatRun
import Verif.Proofs.Ieee
import Verif.Properties.KcRounding

/-! # C73: the assignment solver in single precision -/

namespace Verif.Properties
open Verif Num Spec Model

/-- The arrays that `iterate` returns on a well-formed problem. -/
theorem kcIteratePy_exact {r : ℚ → Num} {u : ℚ} {M : ℕ} (hr : KeepsMultiples r u M) (hu : 0 < u) {D T P : ℕ} {wf : ℕ → ℕ → ℕ} {cap : ℕ → ℕ} {w : ℕ → ℚ}
    {R : ℕ → ℕ → ℚ} (h : KcProblemOk D T P wf cap) {flag : Bool} {alpha : ℚ} (hd : flag = false ∨ alpha = 0) {B : ℕ}
    (hM : 4 * B * (2 * T + 1) * (T + 1) ≤ M) (hw : ∀ t < T, ∃ z : ℤ, |z| ≤ B ∧ w t = z * u) (hR : ∀ p < P, ∀ t < T, ∃ z : ℤ, |z| ≤ B ∧ R p t = z * u)
    (hl : ∃ z : ℤ, (1000000 : ℚ) = z * u) (K : ℕ) {x : List Num × Mat Num}
    (hx : kcIteratePy (K + 1) flag alpha (pythonTables D T P wf cap (fun t => fin (w t)) (fun p t => fin (R p t))) = some x) :
    Rounded.kcIteratePy r (K + 1) flag alpha (pythonTables D T P wf cap (fun t => fin (w t)) (fun p t => fin (R p t))) = some x := by
  obtain ⟨f, inp, A, hf, g1, g2, g3, g4, g5, g6, hok, hA⟩ := kc_decoded (w := w) (R := R) h flag alpha
  have hT : 0 < T := by
    obtain ⟨t, ht, -⟩ := h.used 0 (by have := h.departments; omega)
    omega
  obtain ⟨ext, intr, k1, k2, k3, k4⟩ := Proofs.exact_kcSolve hr hok (by rw [g5, g6]; exact hd) hu (B := B) (by rw [g3]; exact hT) (by rw [g3]; exact hM)
    (by rw [g3]; exact hw) (by rw [g3, g4]; exact hR) hl hA K
  rw [g3] at k3 k4
  have e3 : (pythonTables D T P wf cap (fun t => fin (w t)) (fun p t => fin (R p t))).maxState.length = D := Proofs.listOf_length
  have e4 : (pythonTables D T P wf cap (fun t => fin (w t)) (fun p t => fin (R p t))).numTeams = T := rfl
  have e5 : (pythonTables D T P wf cap (fun t => fin (w t)) (fun p t => fin (R p t))).numProjects = P := rfl
  have e6 : (pythonTables D T P wf cap (fun t => fin (w t)) (fun p t => fin (R p t))).reward = listOf T (fun t => fin (w t)) := rfl
  have hlen : ext.toList.length = T := by simp [Arr.toList, k3]
  have hsame : kcWrapper (K + 1) D T P flag alpha f (List.replicate T 0) (List.replicate (P * T) 0) =
      Rounded.kcWrapper r (K + 1) D T P flag alpha f (List.replicate T 0) (List.replicate (P * T) 0) := by
    simp only [kcWrapper, Rounded.kcWrapper, g1, k1, k2, Option.bind_eq_bind, Option.bind_some]
  simp only [kcIteratePy, hf, e3, e4, e5, e6, Option.bind_eq_bind, Option.bind_some, Option.bind_eq_some_iff] at hx
  obtain ⟨⟨L, I⟩, h1, m, h2, out, h3, h4⟩ := hx
  have hL : L = ext.toList := by
    simp only [kcWrapper, g1, k1, Option.bind_eq_bind, Option.bind_some] at h1
    rw [Proofs.slice_all hlen, Option.bind_some, if_pos (by rw [hlen, List.length_replicate]), Option.bind_some,
      List.drop_eq_nil_of_le (by rw [hlen, List.length_replicate]), List.append_nil] at h1
    simp only [Option.bind_eq_some_iff] at h1
    obtain ⟨_, -, _, -, h5⟩ := h1
    exact ((Prod.mk.inj (Option.some.inj h5)).1).symm
  have hadd : Rounded.npAdd r L (listOf T (fun t => fin (w t))) = npAdd L (listOf T (fun t => fin (w t))) := by
    rw [Rounded.npAdd, npAdd, if_pos (by rw [hL, hlen, Proofs.listOf_length]), if_pos (by rw [hL, hlen, Proofs.listOf_length])]
    congr 1
    refine Proofs.zipWith_congr_mem fun a ha b hb => ?_
    rw [hL, Arr.toList] at ha
    obtain ⟨t, ht, rfl⟩ := List.mem_map.mp ha
    obtain ⟨t', ht', rfl⟩ := List.mem_map.mp hb
    have s2 : Proofs.Small u B (fin (w t')) := by
      intro q hq
      rw [Num.fin.injEq] at hq
      obtain ⟨z, z1, z2⟩ := hw t' (List.mem_range.mp ht')
      exact ⟨z, by rw [← hq]; exact z2, by exact_mod_cast z1⟩
    refine ((k4 t (by rw [← k3]; exact List.mem_range.mp ht)).add s2).rn hr ?_
    have hMq : 4 * (B : ℚ) * (2 * T + 1) * (T + 1) ≤ M := by exact_mod_cast hM
    have h0 : (0 : ℚ) ≤ B * T := by positivity
    have h1 : (0 : ℚ) ≤ B * T * T := by positivity
    have h2 : (0 : ℚ) ≤ B := by positivity
    nlinarith
  simp only [Rounded.kcIteratePy, hf, e3, e4, e5, e6, Option.bind_eq_bind, Option.bind_some]
  rw [← hsame, h1]
  simp only [Option.bind_some, h2, hadd, h3, h4]

section
variable {d : TeamData} {caps types : List ℕ} {combos : List (ℕ × ℕ)} {count : ℕ × ℕ × ℕ → ℕ} (h : KcCallOk d caps types combos count)
  {P : ℕ} (hP : 0 < P) {L : List (ℕ × ℕ × ℕ)} (hL : L = teams combos types count) {w : ℕ → ℚ} {R : ℕ → ℕ → ℚ} {flag : Bool} {alpha : ℚ}
  (hd : flag = false ∨ alpha = 0) {q : ℚ} (hq : q ≤ 0) (post byTeams : Bool) (K : ℕ) {B : ℕ}
include h hP hL hd hq

/-- C73, small numbers.  Let the costs be whole multiples of `u`, at most `B` times `u`, let 10⁶ be a multiple of `u`, and let there be no damping.
With `T` teams, every arithmetic that is exact on the multiples of `u` up to `4 B (2 T + 1) (T + 1)` gives exactly the result of exact arithmetic, after
every number of iterations. -/
theorem C73_exact {r : ℚ → Num} {u : ℚ} {M : ℕ} (hu : 0 < u) (hr : KeepsMultiples r u M) (hl : ∃ z : ℤ, (1000000 : ℚ) = z * u)
    (hw : ∀ t < L.length, ∃ z : ℤ, |z| ≤ B ∧ w t = z * u) (hR : ∀ p < P, ∀ t < L.length, ∃ z : ℤ, |z| ≤ B ∧ R p t = z * u)
    (hM : 4 * B * (2 * L.length + 1) * (L.length + 1) ≤ M) :
    ∃ res, kcCall d (K + 1) flag alpha post (if byTeams then 2 else 1) (fin q) (inputFile caps types L.length P w R) = some res ∧
      Rounded.kcCall r d (K + 1) flag alpha post (if byTeams then 2 else 1) (fin q) (inputFile caps types L.length P w R) = some res := by
  obtain ⟨hprob, T, hgen, -, -, hinit⟩ := call_start (w := w) (R := R) h hP hL
  obtain ⟨a, raw, o, y, e, c, ht⟩ := C23_trace (w := w) (R := R) hprob flag alpha
  obtain ⟨res, h1, -⟩ := run_ends h hP hL w R flag alpha hq post byTeams K ht
  obtain ⟨m, hm, -⟩ := C23_call hprob flag alpha ht K
  have hm' := kcIteratePy_exact hr hu hprob hd hM hw hR hl K hm
  refine ⟨res, h1, ?_⟩
  rw [← h1]
  simp only [kcCall, Rounded.kcCall, hinit, hm, hm', Option.bind_eq_bind, Option.bind_some]

/-- C73, formats with `p` bits.  If all costs are whole multiples of `2 ^ e` and so is 10⁶, and if the bound is at most `2 ^ p`, then the format gives
exactly the result of exact arithmetic, after every number of iterations.  `float` has `p = 24` and `double` has `p = 53`. -/
theorem C73_ieee {p emax : ℕ} (hp : 1 ≤ p) {e : ℤ} (he6 : e ≤ 6) (he : e + p ≤ emax) (he' : 2 - (emax : ℤ) - p ≤ e)
    (hw : ∀ t < L.length, ∃ z : ℤ, |z| ≤ B ∧ w t = z * 2 ^ e) (hR : ∀ p < P, ∀ t < L.length, ∃ z : ℤ, |z| ≤ B ∧ R p t = z * 2 ^ e)
    (hM : 4 * B * (2 * L.length + 1) * (L.length + 1) ≤ 2 ^ p) :
    ∃ res, kcCall d (K + 1) flag alpha post (if byTeams then 2 else 1) (fin q) (inputFile caps types L.length P w R) = some res ∧
      Rounded.kcCall (ieee p emax) d (K + 1) flag alpha post (if byTeams then 2 else 1) (fin q) (inputFile caps types L.length P w R) = some res := by
  refine C73_exact h hP hL hd hq post byTeams K (zpow_pos two_pos e) (Proofs.ieee_keeps hp he he') ?_ hw hR hM
  obtain ⟨n, hn⟩ : ∃ n : ℕ, (6 : ℤ) - e = n := ⟨(6 - e).toNat, by omega⟩
  refine ⟨15625 * 2 ^ n, ?_⟩
  push_cast
  rw [← zpow_natCast (2 : ℚ) n, ← hn, mul_assoc, ← zpow_add₀ (by norm_num : (2 : ℚ) ≠ 0), sub_add_cancel]
  norm_num

end

/-- The problem of C54 has four teams and costs up to 14, so single precision is exact after every number of iterations.  After five of them the teams
0 and 3 are kept. -/
example : (∀ K, ∃ res, kcCall flatData (K + 1) false 0 true 1 (fin 0) c54Load = some res ∧
      Rounded.kcCall single flatData (K + 1) false 0 true 1 (fin 0) c54Load = some res) ∧
    (Rounded.kcCall single flatData 5 false 0 true 1 (fin 0) c54Load).map (fun r => (r.beliefs, r.kept)) =
      some ([fin (-11), fin 15, fin 17, fin (-13)], [0, 3]) := by
  have key : ∀ K, ∃ res, kcCall flatData (K + 1) false 0 true 1 (fin 0) c54Load = some res ∧
      Rounded.kcCall single flatData (K + 1) false 0 true 1 (fin 0) c54Load = some res := by
    intro K
    exact C73_ieee c54_ok (P := 3) (by norm_num) (L := [(1, 1, 2), (1, 2, 2), (1, 2, 2), (2, 2, 2)]) (by decide) (w := fun _ => -3) (R := c65Pairs)
      (flag := false) (alpha := 0) (Or.inl rfl) (q := 0) le_rfl true false K (B := 14) (p := 24) (emax := 127) (by norm_num) (e := 0) (by norm_num)
      (by norm_num) (by norm_num) (fun t _ => ⟨-3, by norm_num, by norm_num⟩) (fun p hp t ht => by
        have : ∀ p < 3, ∀ t < 4, |(c65Pairs p t).num| ≤ 14 ∧ c65Pairs p t = ((c65Pairs p t).num : ℚ) := by decide +kernel
        exact ⟨_, (this p hp t ht).1, by simpa using (this p hp t ht).2⟩) (by norm_num)
  refine ⟨key, ?_⟩
  obtain ⟨res, h1, h2⟩ := key 4
  rw [h2, ← h1]
  decide +kernel

/-- The bound is needed: with costs that are multiples of `2 ^ -24` up to 3, single precision keeps other teams after three iterations. -/
example : ((kcCall flatData 3 false 0 true 1 (fin 0) (inputFile [2, 2] [2] 4 3 (fun t => [-1, -1 / 2 ^ 24, -1 / 2 ^ 24, -1].getD t 0)
      (fun p t => ([[-1, -3, 1, -1 / 2 ^ 24], [1, 1 / 2 ^ 23, -1, -3], [1 / 2 ^ 23, 1 / 2 ^ 23, -3, 1 / 2 ^ 23]].getD p []).getD t 0))).map (fun r => r.kept),
    (Rounded.kcCall single flatData 3 false 0 true 1 (fin 0) (inputFile [2, 2] [2] 4 3 (fun t => [-1, -1 / 2 ^ 24, -1 / 2 ^ 24, -1].getD t 0)
      (fun p t => ([[-1, -3, 1, -1 / 2 ^ 24], [1, 1 / 2 ^ 23, -1, -3], [1 / 2 ^ 23, 1 / 2 ^ 23, -3, 1 / 2 ^ 23]].getD p []).getD t 0))).map (fun r => r.kept)) =
    (some [1, 2], some [2]) := by decide +kernel

end Verif.Properties
