import Mathlib.Algebra.Group.Subgroup.ZPowers.Basic
import Mathlib.Tactic.Positivity
import Verif.Proofs.ExactKcStages
import Verif.Proofs.KcBounds
import Verif.Proofs.KcRun

/-! Whole runs of the assignment solver on small multiples of a unit. -/

namespace Verif.Proofs
open Verif Num Spec Model

theorem small_of_mem {u : ℚ} (hu : 0 < u) {c v : ℚ} {x : Num} (hx : x = fin v) (hv : v ∈ AddSubgroup.zmultiples u) (h : |v| ≤ c * u) : Small u c x := by
  intro q hq
  rw [hx, Num.fin.injEq] at hq
  obtain ⟨z, hz⟩ := AddSubgroup.mem_zmultiples_iff.mp hv
  rw [zsmul_eq_mul] at hz
  refine ⟨z, by rw [hz, hq], ?_⟩
  rw [← hz, abs_mul, abs_of_pos hu] at h
  exact le_of_mul_le_mul_right h hu

section
variable {r : ℚ → Num} {u : ℚ} {M : ℕ} (hr : KeepsMultiples r u M) {inp : KcInputs} {wf : ℕ → ℕ → ℕ} {cap : ℕ → ℕ} {w : ℕ → ℚ} {R : ℕ → ℕ → ℚ}
  (h : KcOk inp wf cap w R) (hd : inp.flag = false ∨ inp.alpha = 0)
include hr h hd

/-- All departments of one iteration. -/
theorem exact_kcDepts {j : ℕ} {A : ℚ} (hA : 0 ≤ A) {a : Mat Num} (ha : ∀ d < inp.numDepartments, ∀ t < inp.numTeams, wf d t ≠ 0 → Small u A (a.data d t))
    (hM : (4 * inp.numTeams + 2 : ℚ) * A ≤ M) (s : Mat Num × Mat Num × Mat Num) :
    Same (fun _ => True) (loopUp inp.numDepartments (kcDept inp j a) s) (loopUp inp.numDepartments (Rounded.kcDept r inp j a) s) := by
  refine Same.loopUp (fun _ _ => True) trivial fun d hdD s _ => Same.read fun cp _ => Same.read fun nz hnz => Same.read fun sz hsz =>
    Same.read fun wt hwt => Same.read fun m hm => Same.read fun out _ => ?_
  obtain ⟨-, rfl⟩ := mat_rdRow hwt
  obtain ⟨-, rfl⟩ := mat_rdRow hm
  rw [KcOk.getD h hdD, Option.some.injEq] at hnz
  subst hnz
  rw [(arr_rd hsz).2]
  have hdept := h.dept d hdD
  have hszT : inp.sizes.data d ≤ inp.numTeams := by
    rw [hdept.size]
    have hnd : (inp.nzs.getD d []).Nodup := hdept.sorted.imp fun hh => Nat.ne_of_lt hh
    rw [← List.toFinset_card_of_nodup hnd]
    refine (Finset.card_le_card (t := Finset.range inp.numTeams) fun t ht => ?_).trans (by simp)
    exact Finset.mem_range.mpr ((hdept.mem t).mp (List.mem_toFinset.mp ht)).1
  have hszq : (inp.sizes.data d : ℚ) ≤ inp.numTeams := by exact_mod_cast hszT
  refine (exact_knapMessages hr hA (fun t ht x hx => ?_) ?_ (fun t wt' hwt' hne x hx => ?_) _).bind fun row _ => Same.read fun dm _ => ?_
  · rw [(arr_rd hx).2]
    have := (hdept.mem t).mp ht
    exact ha d hdD t this.1 this.2
  · refine le_trans (mul_le_mul_of_nonneg_right ?_ hA) hM
    linarith
  · rw [(arr_rd hx).2]
    have h1 := (arr_rd hwt').1
    have h2 := hdept.w_size
    have h3 : t < inp.numTeams := by rw [← h2]; exact h1
    refine ha d hdD t h3 ?_
    rw [← hdept.w_data t h3, ← (arr_rd hwt').2]; exact hne
  · rw [filterAt_undamped hd]
    exact Same.of fun _ _ => trivial

/-- One iteration. -/
theorem exact_kcIter {j : ℕ} {s s' : KcState} (e : kcIter inp j s = some s') (hs : KcInv inp wf R j s) (hs' : KcInv inp wf R (j + 1) s') {B X A O : ℚ}
    (hB : 0 ≤ B) (hX : 0 ≤ X) (hA : 0 ≤ A) (hM : (4 * inp.numTeams + 2 : ℚ) * A ≤ M) (hM1 : 4 * X + 6 * B ≤ M) (hM2 : O + 3 * B ≤ M)
    (hw : ∀ t < inp.numTeams, Small u B (fin (w t))) (hR : ∀ p < inp.numProjects, ∀ t < inp.numTeams, Small u B (fin (R p t)))
    (ha : ∀ d < inp.numDepartments, ∀ t < inp.numTeams, wf d t ≠ 0 → Small u A (s.a.data d t))
    (he : ∀ p < inp.numProjects, ∀ t < inp.numTeams, Small u (3 * B) (s.e2o.data p t))
    (hx : ∀ d < inp.numDepartments, ∀ t < inp.numTeams, wf d t ≠ 0 → Small u X (s'.ext.data d t))
    (ho : ∀ p < inp.numProjects, ∀ t < inp.numTeams, Small u O (s'.o2e.data p t))
    (hy : ∀ p < inp.numProjects, ∀ t < inp.numTeams, Small u (2 * B) (s'.p2e.data p t))
    (hc : ∀ t < inp.numTeams, Small u (3 * B) (s'.o2t.data t)) (hz : AllSmall u (4 * X + 6 * B) s.e2p) :
    Rounded.kcIter r inp j s = some s' ∧ AllSmall u (4 * X + 6 * B) s'.e2p := by
  simp only [kcIter, Option.bind_eq_bind, Option.bind_eq_some_iff] at e
  obtain ⟨⟨dummy, ext, old⟩, a1, t2o, a2, ⟨o2e, e2p⟩, a3, p2e, a4, e2o, a5, o2t, a6, mwm, a7, a, a8, a9⟩ := e
  obtain rfl := Option.some.inj a9
  simp only at a2 a3 a4 a5 a6 a7 a8 hx ho hy hc ⊢
  have hext := hs'.ext
  have hoff := hs'.ext_off
  have hp2e := hs'.p2e
  have ho2t := hs'.o2t
  simp only at hext hoff hp2e ho2t
  have hw' : ∀ t < inp.numTeams, Small u B (inp.reward.data t) := fun t ht => by rw [h.reward.2 t ht]; exact hw t ht
  have hR' : ∀ p < inp.numProjects, ∀ t < inp.numTeams, Small u B (inp.rewardProject.data p t) := fun p hp t ht => by
    rw [h.rewardProject.2.2 p hp t ht]; exact hR p hp t ht
  have hx' : ∀ d < inp.numDepartments, ∀ t < inp.numTeams, Small u (if wf d t ≠ 0 then X else 0) (ext.data d t) := fun d hdD t ht => by
    split
    · next hne => exact hx d hdD t ht hne
    · next hne =>
      rw [hext.2.2 d hdD t ht, hoff d hdD t ht (by simpa using hne)]
      exact Small.zero le_rfl
  have hsum : ∀ t < inp.numTeams, ∑ d ∈ Finset.range ext.rows, (if wf d t ≠ 0 then X else 0) ≤ 2 * X := fun t ht => by
    rw [hext.1, ← Finset.sum_filter, Finset.sum_const, nsmul_eq_mul]
    have : ((depts inp.numDepartments wf t).card : ℚ) ≤ 2 := by exact_mod_cast h.two t ht
    exact mul_le_mul_of_nonneg_right this hX
  have b1 := (exact_kcDepts hr h hd hA ha hM (j := j) (s.dummy, s.ext, s.extOld) _ a1).1
  obtain ⟨b2, b2'⟩ := exact_teamToOric hr (b := fun d t => if wf d t ≠ 0 then X else 0) (B := B) (X := 2 * X) hext.2.1
    (fun d _ t _ => by split; exacts [hX, le_rfl]) (fun d hdD t ht => hx' d (by rw [← hext.1]; exact hdD) t ht) hsum hw' hB (by linarith) _ a2
  obtain ⟨b3, b3'⟩ := exact_oric hr (E := 3 * B) (Y := 2 * X + B) (B := B) (by linarith) (by linarith) hB (by linarith) he b2' hR' (hz.mono (by linarith)) _ a3
  have b3' : AllSmall u (4 * X + 6 * B) e2p := AllSmall.mono b3' (by linarith)
  have b4 := (exact_project hr (Z := 4 * X + 6 * B) (by linarith) hM1 inp.numTeams b3' _ a4).1
  have b5 := (exact_projectToOric hr (c := 3 * B) (by linarith) (fun p hp t ht =>
    ((hy p (by rw [← hp2e.1]; exact hp) t (by rw [← hp2e.2.1]; exact ht)).add (hR' p (by rw [← hp2e.1]; exact hp) t (by rw [← hp2e.2.1]; exact ht))).mono
      (by linarith)) _ a5).1
  have b7 := (exact_kcIntrinsic hr (T := inp.numTeams) (a := O) (b := 2 * B) (c := B) (by linarith) hB (by linarith)
    (fun p hp t ht => ho p (by rw [← h.rewardProject.1]; exact hp) t (by rw [← h.rewardProject.2.1]; exact ht))
    (fun p hp t ht => hy p (by rw [← h.rewardProject.1]; exact hp) t (by rw [← h.rewardProject.2.1]; exact ht))
    (fun p hp t ht => hR' p (by rw [← h.rewardProject.1]; exact hp) t (by rw [← h.rewardProject.2.1]; exact ht)) s.outMwm _ a7).1
  have b8 := (exact_teamToKnapsack hr (B := B) (X := X) (C := 3 * B) hX (by linarith) (by linarith)
    (fun t ht => hw' t (by rw [← h.reward.1]; exact ht))
    (fun d hdD t ht => (hx' d (by rw [← hext.1]; exact hdD) t (by rw [← hext.2.1]; exact ht)).mono (by split; exacts [le_rfl, hX]))
    (fun t ht => hc t (by rw [← ho2t.1]; exact ht)) _ a8).1
  refine ⟨?_, b3'⟩
  simp only [Rounded.kcIter, b1, b2, b3, b4, b5, a6, b7, b8, Option.bind_eq_bind, Option.bind_some]

variable (hu : 0 < u) {B : ℕ} (hT : 0 < inp.numTeams) (hM : 4 * B * (2 * inp.numTeams + 1) * (inp.numTeams + 1) ≤ M)
  (hw : ∀ t < inp.numTeams, ∃ z : ℤ, |z| ≤ B ∧ w t = z * u) (hR : ∀ p < inp.numProjects, ∀ t < inp.numTeams, ∃ z : ℤ, |z| ≤ B ∧ R p t = z * u)
  (hl : ∃ z : ℤ, (1000000 : ℚ) = z * u) {A0 : Mat Num} (hA0 : A0.Is inp.numDepartments inp.numTeams (fun d t => if wf d t ≠ 0 then w t else 0))
include hu hT hM hw hR hl hA0

theorem exact_kcSolve (K : ℕ) : ∃ ext intr, kcSolve inp A0 (K + 1) = some (ext, intr) ∧ Rounded.kcSolve r inp A0 (K + 1) = some (ext, intr) ∧
    ext.size = inp.numTeams ∧ ∀ t < inp.numTeams, Small u (B * (4 * inp.numTeams - 1)) (ext.data t) := by
  obtain ⟨st, h0, hst⟩ := loop_trace (body := kcIter inp) (s0 := kcInit inp A0) (KcInv inp wf R) (KcStep inp wf cap w R)
    (kcInit_inv hA0) (fun k s hk => kcIter_step h hk)
  have hiter : ∀ k, kcIter inp k (st k) = some (st (k + 1)) := by
    intro k
    have h1 := (hst (k + 1)).1
    rw [loopUp, (hst k).1] at h1
    exact h1
  have hdo : ∀ k, ∀ d < inp.numDepartments, ∀ t < inp.numTeams, (st (k + 1)).ext.val d t = (st (k + 1)).dummy.val d t := by
    intro k d hdD t ht
    rw [(hst k).2.2.damp d hdD t ht, dampStep, if_neg]
    rintro ⟨h1, h2⟩
    rcases hd with h | h
    · rw [h] at h1; cases h1
    · exact h2 h
  have hdamp : ∀ k, ∀ t < inp.numTeams, ∀ S : Finset ℕ, S ⊆ depts inp.numDepartments wf t → ∑ d ∈ S, (st (k + 1)).ext.val d t =
      ∑ d ∈ S, damped inp.flag inp.alpha (fun i => (st (i + 1)).dummy.val d t) k := by
    intro k t ht S hS
    refine Finset.sum_congr rfl fun d hh => ?_
    rw [damped_off hd]
    exact hdo k d (mem_depts.mp (hS hh)).1 t ht
  have htr : IsKcTrace inp.numDepartments inp.numTeams inp.numProjects wf cap w R inp.flag inp.alpha (some 1000000)
      (fun d t => if wf d t ≠ 0 then w t else 0) (fun k => (st k).a.val) (fun k => (st (k + 1)).dummy.val) (fun k => (st (k + 1)).o2e.val)
      (fun k => (st (k + 1)).p2e.val) (fun k => (st k).e2o.val) (fun k => (st (k + 1)).o2t.val) := by
    refine ⟨?_, ?_, ?_, ?_, ?_, ?_, ?_, ?_⟩
    · intro d hd t ht
      show (st 0).a.val d t = _
      rw [h0]; exact hA0.val hd ht
    · intro k d hd t ht hw; exact (hst k).2.2.dept d hd t ht hw
    · intro p hp t ht
      show (st 0).e2o.val p t = _
      rw [h0]; rfl
    · intro k p hp t ht
      have := (hst k).2.2.coupling p hp t ht
      rw [hdamp k t ht _ subset_rfl] at this; exact this
    · intro k p hp t ht; exact (hst k).2.2.project p hp t ht
    · intro k p hp t ht; exact (hst k).2.2.edge p hp t ht
    · intro k t ht
      have := (hst k).2.2.team t ht
      rw [hdamp k t ht _ subset_rfl] at this; exact this
    · intro k d hd t ht hw
      have := (hst k).2.2.next d hd t ht hw
      rw [hdamp k t ht _ (Finset.erase_subset _ _)] at this; exact this
  -- bounds
  have hB0 : (0 : ℚ) ≤ B := by positivity
  have hBu : (0 : ℚ) ≤ B * u := mul_nonneg hB0 hu.le
  have hT1 : (1 : ℚ) ≤ inp.numTeams := by exact_mod_cast hT
  have hMq : 4 * (B : ℚ) * (2 * inp.numTeams + 1) * (inp.numTeams + 1) ≤ M := by exact_mod_cast hM
  have abs_of : ∀ {z : ℤ} {q : ℚ}, |z| ≤ (B : ℤ) → q = z * u → |q| ≤ B * u := fun {z q} h1 h2 => by
    rw [h2, abs_mul, abs_of_pos hu]
    exact mul_le_mul_of_nonneg_right (by exact_mod_cast h1) hu.le
  have mem_of : ∀ {z : ℤ} {q : ℚ}, q = z * u → q ∈ AddSubgroup.zmultiples u := fun {z q} h2 => by
    rw [h2]; exact AddSubgroup.mem_zmultiples_iff.mpr ⟨z, by rw [zsmul_eq_mul]⟩
  have wB : ∀ t < inp.numTeams, |w t| ≤ B * u := fun t ht => by obtain ⟨z, h1, h2⟩ := hw t ht; exact abs_of h1 h2
  have RB : ∀ p < inp.numProjects, ∀ t < inp.numTeams, |R p t| ≤ B * u := fun p hp t ht => by obtain ⟨z, h1, h2⟩ := hR p hp t ht; exact abs_of h1 h2
  have wG : ∀ t < inp.numTeams, w t ∈ AddSubgroup.zmultiples u := fun t ht => by obtain ⟨z, h1, h2⟩ := hw t ht; exact mem_of h2
  have RG : ∀ p < inp.numProjects, ∀ t < inp.numTeams, R p t ∈ AddSubgroup.zmultiples u := fun p hp t ht => by
    obtain ⟨z, h1, h2⟩ := hR p hp t ht; exact mem_of h2
  have lG : ∀ l : ℚ, some (1000000 : ℚ) = some l → l ∈ AddSubgroup.zmultiples u := fun l hl' => by
    obtain ⟨z, hz⟩ := hl; rw [← Option.some.inj hl']; exact mem_of hz
  have hal : inp.flag = true → 0 ≤ (0 : ℚ) := fun _ => le_rfl
  have hG := kc_trace_mem htr hd (AddSubgroup.zmultiples u) wG RG lG (fun d hdD t ht hne => by rw [if_pos hne]; exact wG t ht)
  -- damping does not matter
  have htr0 : IsKcTrace inp.numDepartments inp.numTeams inp.numProjects wf cap w R false 0 (some 1000000)
      (fun d t => if wf d t ≠ 0 then w t else 0) (fun k => (st k).a.val) (fun k => (st (k + 1)).dummy.val) (fun k => (st (k + 1)).o2e.val)
      (fun k => (st (k + 1)).p2e.val) (fun k => (st k).e2o.val) (fun k => (st (k + 1)).o2t.val) := by
    have off : ∀ (x : ℕ → ℚ) k, damped inp.flag inp.alpha x k = damped false 0 x k := fun x k => by rw [damped_off hd, damped_off (Or.inl rfl)]
    refine ⟨htr.init, htr.dept, htr.edge_init, fun k p hp t ht => ?_, htr.project, htr.edge, fun k t ht => ?_, fun k d hd t ht hw => ?_⟩
    · simpa only [off] using htr.coupling k p hp t ht
    · simpa only [off] using htr.team k t ht
    · simpa only [off] using htr.next k d hd t ht hw
  have hal : false = true → 0 ≤ (0 : ℚ) ∧ (0 : ℚ) ≤ 1 := fun h => by cases h
  have hlim : ∀ l : ℚ, some (1000000 : ℚ) = some l → 0 ≤ l := fun l hl' => by rw [← Option.some.inj hl']; norm_num
  have hstart : ∀ d < inp.numDepartments, ∀ t < inp.numTeams, wf d t ≠ 0 → -(2 * (B * u)) ≤ (if wf d t ≠ 0 then w t else 0) := fun d _ t ht hne => by
    rw [if_pos hne]; have := (abs_le.mp (wB t ht)).1; linarith
  have bin := kc_in_B htr0 hal wB RB h.projects hlim hstart
  have broom := kc_room_B htr0 hal wB RB h.projects hlim hstart
  have bteam := kc_team_B htr0 hal wB RB h.projects hlim
  have bedge := kc_edge_B htr0 hal wB RB
  have bproj := kc_project_B htr0 hal wB RB
  have bpair := kc_pair_B htr0 hal wB RB h.projects hlim hstart h.two
  -- the entries as small multiples
  have sw : ∀ t < inp.numTeams, Small u B (fin (w t)) := fun t ht => small_of_mem hu rfl (wG t ht) (wB t ht)
  have sR : ∀ p < inp.numProjects, ∀ t < inp.numTeams, Small u B (fin (R p t)) := fun p hp t ht => small_of_mem hu rfl (RG p hp t ht) (RB p hp t ht)
  have sx : ∀ k, ∀ d < inp.numDepartments, ∀ t < inp.numTeams, wf d t ≠ 0 → Small u (2 * B * (inp.numTeams - 1)) ((st (k + 1)).ext.data d t) :=
    fun k d hdD t ht hne => small_of_mem hu ((hst (k + 1)).2.1.ext.2.2 d hdD t ht) (by rw [hdo k d hdD t ht]; exact ((hG k).1 d hdD t ht hne).2) (by
      rw [hdo k d hdD t ht, abs_of_nonneg (broom k hdD ht hne).1]
      refine (broom k hdD ht hne).2.trans (le_of_eq (by ring)))
  have sa : ∀ k, ∀ d < inp.numDepartments, ∀ t < inp.numTeams, wf d t ≠ 0 → Small u (2 * B * (inp.numTeams + 1)) ((st k).a.data d t) := by
    intro k d hdD t ht hne
    refine small_of_mem hu ((hst k).2.1.a.2.2 d hdD t ht) ((hG k).1 d hdD t ht hne).1 ?_
    have hlow := bin k hdD ht hne
    have w1 := abs_le.mp (wB t ht)
    have q1 : B * u ≤ B * u * inp.numTeams := le_mul_of_one_le_right hBu hT1
    rw [abs_le]
    refine ⟨by nlinarith, ?_⟩
    cases k with
    | zero =>
      have := htr.init d hdD t ht
      rw [if_pos hne] at this
      rw [show (st 0).a.val d t = w t from this]
      nlinarith
    | succ k =>
      have hn := htr0.next k d hdD t ht hne
      rw [show (st (k + 1)).a.val d t = _ from hn]
      have c1 := (bteam k ht).2
      have hsum : ∑ d' ∈ (depts inp.numDepartments wf t).erase d, damped false 0 (fun i => (st (i + 1)).dummy.val d' t) k ≤ 2 * (B * u) * (inp.numTeams - 1) := by
        refine (Finset.sum_le_card_nsmul _ _ (2 * (B * u) * (inp.numTeams - 1)) fun d' hd' => ?_).trans ?_
        · have hd' := mem_depts.mp (Finset.mem_of_mem_erase hd')
          rw [damped_off (Or.inl rfl)]
          exact (broom k hd'.1 ht hd'.2).2
        · have hcard : ((depts inp.numDepartments wf t).erase d).card ≤ 1 := by
            rw [Finset.card_erase_of_mem (mem_depts.mpr ⟨hdD, hne⟩)]
            have := h.two t ht; omega
          have hcq : ((((depts inp.numDepartments wf t).erase d).card : ℕ) : ℚ) ≤ 1 := by exact_mod_cast hcard
          rw [nsmul_eq_mul]
          have : 0 ≤ 2 * (B * u) * ((inp.numTeams : ℚ) - 1) := mul_nonneg (by linarith) (by linarith)
          nlinarith
      nlinarith
  have se : ∀ k, ∀ p < inp.numProjects, ∀ t < inp.numTeams, Small u (3 * B) ((st k).e2o.data p t) := fun k p hp t ht =>
    small_of_mem hu ((hst k).2.1.e2o.2.2 p hp t ht) ((hG k).2 p hp t ht).1 (by
      have := bedge k hp ht
      rw [abs_le]; constructor <;> linarith)
  have so : ∀ k, ∀ p < inp.numProjects, ∀ t < inp.numTeams, Small u (B + 4 * B * (inp.numTeams - 1)) ((st (k + 1)).o2e.data p t) := fun k p hp t ht =>
    small_of_mem hu ((hst (k + 1)).2.1.o2e.2.2 p hp t ht) ((hG k).2 p hp t ht).2.1 (by
      have := bpair k hp ht
      have q1 : 0 ≤ B * u * ((inp.numTeams : ℚ) - 1) := mul_nonneg hBu (by linarith)
      rw [abs_le]; constructor <;> nlinarith)
  have sy : ∀ k, ∀ p < inp.numProjects, ∀ t < inp.numTeams, Small u (2 * B) ((st (k + 1)).p2e.data p t) := fun k p hp t ht =>
    small_of_mem hu ((hst (k + 1)).2.1.p2e.2.2 p hp t ht) ((hG k).2 p hp t ht).2.2 (by
      have := bproj k hp ht
      rw [abs_le]; constructor <;> linarith)
  have sc : ∀ k, ∀ t < inp.numTeams, Small u (3 * B) ((st (k + 1)).o2t.data t) := fun k t ht =>
    small_of_mem hu ((hst (k + 1)).2.1.o2t.2 t ht) (by
      obtain ⟨q, ⟨⟨p, hp, hq⟩, -⟩, e2⟩ := kc_team htr h.projects k ht
      have e2 : (st (k + 1)).o2t.val t = min 1000000 q := e2
      rw [e2]
      rcases min_choice (1000000 : ℚ) q with e3 | e3 <;> rw [e3]
      · exact lG _ rfl
      · rw [← hq]; exact ((hG (k + 1)).2 p hp t ht).1) (by
      have := bteam k ht
      rw [abs_le]; constructor <;> linarith)
  have q0 : 0 ≤ (B : ℚ) * (inp.numTeams - 1) := mul_nonneg hB0 (by linarith)
  have q1 : 0 ≤ (B : ℚ) * (inp.numTeams * (inp.numTeams - 1)) := mul_nonneg hB0 (mul_nonneg (by linarith) (by linarith))
  have key : ∀ k, loopUp k (Rounded.kcIter r inp) (kcInit inp A0) = some (st k) ∧ AllSmall u (4 * (2 * B * (inp.numTeams - 1)) + 6 * B) (st k).e2p := by
    intro k
    induction k with
    | zero => rw [h0]; exact ⟨rfl, fun _ _ => Small.zero (by linarith)⟩
    | succ k ih =>
      obtain ⟨h1, h2⟩ := exact_kcIter hr h hd (hiter k) (hst k).2.1 (hst (k + 1)).2.1 (B := B) (X := 2 * B * (inp.numTeams - 1)) (A := 2 * B * (inp.numTeams + 1))
        (O := B + 4 * B * (inp.numTeams - 1)) hB0 (by linarith) (by positivity) (by linarith) (by nlinarith) (by nlinarith) sw sR (sa k) (se k) (sx k) (so k) (sy k) (sc k) ih.2
      refine ⟨?_, h2⟩
      rw [loopUp, ih.1]
      exact h1
  have hend := hst (K + 1)
  have hext := hend.2.1.ext
  have ho2t := hend.2.1.o2t
  obtain ⟨ext, intr, hk⟩ : ∃ ext intr, kcSolve inp A0 (K + 1) = some (ext, intr) := by
    obtain ⟨_, _, _, _, _, _, -, -, hr⟩ := kc_run h hA0
    obtain ⟨ext, intr, h1, -⟩ := hr K
    exact ⟨ext, intr, h1⟩
  simp only [kcSolve, kcIterate, Option.bind_eq_bind, Option.bind_eq_some_iff, hend.1, Option.some.injEq, exists_eq_left', Prod.mk.injEq] at hk
  obtain ⟨s, ⟨out, k1, rfl⟩, k2, k3⟩ := hk
  simp only at k2 k3
  subst k2 k3
  have hbnd : ∀ t < inp.numTeams, 3 * (B : ℚ) + ∑ d ∈ Finset.range inp.numDepartments, (if wf d t ≠ 0 then 2 * (B : ℚ) * (inp.numTeams - 1) else 0) ≤
      B * (4 * inp.numTeams - 1) := fun t ht => by
    rw [← Finset.sum_filter, Finset.sum_const, nsmul_eq_mul]
    have : ((depts inp.numDepartments wf t).card : ℚ) ≤ 2 := by exact_mod_cast h.two t ht
    have := mul_le_mul_of_nonneg_right this (by linarith : 0 ≤ 2 * (B : ℚ) * (inp.numTeams - 1))
    unfold depts at this
    linarith
  have hout : Same (fun o => o.size = inp.numTeams ∧ ∀ t < inp.numTeams, Small u (B * (4 * inp.numTeams - 1)) (o.data t))
      (kcExtrinsic (st (K + 1)).ext (st (K + 1)).o2t (st (K + 1)).outTeam) (Rounded.kcExtrinsic r (st (K + 1)).ext (st (K + 1)).o2t (st (K + 1)).outTeam) := by
    refine Same.read fun acc hacc => ?_
    have hacc' : acc.size = inp.numTeams ∧ ∀ t < inp.numTeams, acc.data t = (st (K + 1)).o2t.data t := by
      unfold Arr.copyTo at hacc
      split at hacc
      · rw [← Option.some.inj hacc]
        refine ⟨hend.2.1.outTeam, fun t ht => ?_⟩
        simp only
        rw [if_pos (by rw [ho2t.1]; exact ht)]
      · cases hacc
    refine (exact_addRowsL hr (z := fun _ => 3 * (B : ℚ)) (b := fun d t => if wf d t ≠ 0 then 2 * (B : ℚ) * (inp.numTeams - 1) else 0) (fun d _ t _ => ?_)
      (fun d hdD t ht => ?_) (fun t ht => ?_) fun t ht => ?_).mono fun o ho' => ⟨by rw [ho'.1, hacc'.1], fun t ht => ?_⟩
    · split
      · linarith
      · exact le_rfl
    · rw [hext.1] at hdD
      rw [hext.2.1] at ht
      split
      · next hne => exact sx K d hdD t ht hne
      · next hne =>
        rw [hext.2.2 d hdD t ht, hend.2.1.ext_off d hdD t ht (by simpa using hne)]
        exact Small.zero le_rfl
    · rw [hext.2.1] at ht
      rw [hacc'.2 t ht]; exact sc K t ht
    · rw [hext.2.1] at ht
      rw [hext.1]
      refine (hbnd t ht).trans ?_
      nlinarith
    · have := ho'.2 t (by rw [hext.2.1]; exact ht)
      rw [hext.1] at this
      exact this.mono (hbnd t ht)
  obtain ⟨c1, c2⟩ := hout _ k1
  refine ⟨out, (st (K + 1)).outMwm, ?_, ?_, c2⟩
  · simp only [kcSolve, kcIterate, hend.1, k1, Option.bind_eq_bind, Option.bind_some]
  · simp only [Rounded.kcSolve, (key (K + 1)).1, c1, Option.bind_eq_bind, Option.bind_some]

end

end Verif.Proofs
