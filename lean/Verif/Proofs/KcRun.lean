import Verif.Spec.KcTables
import Verif.Proofs.Runs
import Verif.Proofs.KnapsackOut
import Verif.Proofs.TeamKnapsack
import Verif.Proofs.Equality
import Verif.Properties.KcMwmFactors

/-! # Whole runs of the assignment solver -/

namespace Verif.Proofs
open Verif Num Spec Model

theorem mem_depts {D : ℕ} {wf : ℕ → ℕ → ℕ} {t d : ℕ} : d ∈ depts D wf t ↔ d < D ∧ wf d t ≠ 0 := by simp [depts]

section
variable {inp : KcInputs} {wf : ℕ → ℕ → ℕ} {cap : ℕ → ℕ} {w : ℕ → ℚ} {R : ℕ → ℕ → ℚ}


theorem KcOk.getD (h : KcOk inp wf cap w R) {d : ℕ} (hd : d < inp.numDepartments) : inp.nzs[d]? = some (inp.nzs.getD d []) := by
  have : d < inp.nzs.length := by rw [h.nzs_length]; exact hd
  simp [this]

theorem KcOk.mem (h : KcOk inp wf cap w R) {d : ℕ} (hd : d < inp.numDepartments) {t : ℕ} : t ∈ inp.nzs.getD d [] ↔ t < inp.numTeams ∧ wf d t ≠ 0 :=
  (h.dept d hd).mem t

/-- One department of an iteration. -/
theorem kcDept_spec (h : KcOk inp wf cap w R) {j d : ℕ} (hd : d < inp.numDepartments) {A : Mat Num} {x : ℕ → ℕ → ℚ} (hA : A.Is inp.numDepartments inp.numTeams x)
    {s : Mat Num × Mat Num × Mat Num} (h1 : s.1.rows = inp.numDepartments) (h2 : s.1.cols = inp.numTeams) (h3 : s.2.1.rows = inp.numDepartments) (h4 : s.2.1.cols = inp.numTeams)
    (h5 : s.2.2.rows = inp.numDepartments) (h6 : s.2.2.cols = inp.numTeams) {p : ℕ → ℚ}
    (hp : j ≠ 0 → inp.flag = true ∧ inp.alpha ≠ 0 → ∀ t < inp.numTeams, s.2.2.data d t = fin (p t)) :
    ∃ s' : Mat Num × Mat Num × Mat Num, kcDept inp j A d s = some s' ∧ s'.1.rows = inp.numDepartments ∧ s'.1.cols = inp.numTeams ∧
      s'.2.1.rows = inp.numDepartments ∧ s'.2.1.cols = inp.numTeams ∧ s'.2.2.rows = inp.numDepartments ∧ s'.2.2.cols = inp.numTeams ∧
      (∀ t < inp.numTeams, ∃ q, s'.1.data d t = fin q ∧ (wf d t ≠ 0 → IsMessage (users (wf d) 0 inp.numTeams) (Fits (wf d) (cap d)) (x d) t (fin q)) ∧
        (wf d t = 0 → q = 0) ∧ s'.2.1.data d t = fin (dampStep inp.flag inp.alpha j q (p t)) ∧
        (inp.flag = true ∧ inp.alpha ≠ 0 → s'.2.2.data d t = s'.2.1.data d t)) ∧
      ∀ k, k ≠ d → ∀ t, s'.1.data k t = s.1.data k t ∧ s'.2.1.data k t = s.2.1.data k t ∧ s'.2.2.data k t = s.2.2.data k t := by
  have hrow : (⟨A.cols, A.data d⟩ : Arr Num).Is inp.numTeams (x d) := ⟨hA.2.1, fun t ht => hA.2.2 d hd t ht⟩
  obtain ⟨r, r1, r2, r3⟩ := knapMessages_spec (h.dept d hd) hrow (out := ⟨s.1.cols, s.1.data d⟩) h2
  obtain ⟨⟨u, o⟩, f1, f2, f3, f4, f5, f6, f7, f8⟩ := filterAt_spec (flag := inp.flag) (alpha := inp.alpha) (iter := j) (e := d)
    (dummy := ⟨s.1.rows, s.1.cols, fun k l => if k = d then r.data l else s.1.data k l⟩) (s := (s.2.1, s.2.2)) (n := inp.numTeams)
    (by show d < s.1.rows; omega) (by show d < s.2.1.rows; omega) (by show d < s.2.2.rows; omega) h2 h4 h6
  simp only at f2 f3 f4 f5 f6 f7 f8
  refine ⟨(⟨s.1.rows, s.1.cols, fun k l => if k = d then r.data l else s.1.data k l⟩, u, o), ?_, h1, h2, f2.trans h3, f3,
    f4.trans h5, f5, ?_, ?_⟩
  · have e1 : inp.maxState.rd d = some (cap d) := by
      rw [Arr.rd_of_lt (by rw [h.cap_size]; exact hd), h.cap_data d hd]
    simp only [kcDept, e1, KcOk.getD h hd, Arr.rd_of_lt (show d < inp.sizes.size by rw [h.sizes_size]; exact hd),
      Mat.rdRow_of_lt (show d < inp.weights.rows by rw [h.weights_rows]; exact hd),
      Mat.rdRow_of_lt (show d < A.rows by rw [hA.1]; exact hd), Mat.rdRow_of_lt (show d < s.1.rows by omega), r1,
      Mat.wrRow_of_lt (show d < s.1.rows by omega) (show r.size = s.1.cols by omega), f1, Option.bind_eq_bind, Option.bind_some]
  · intro t ht
    have hfin : ∃ q, r.data t = fin q := by
      by_cases hw : wf d t = 0
      · exact ⟨0, by rw [(r3 t ht).2 hw]; rfl⟩
      · exact knap_message_fin ht hw ((h.dept d hd).fits t ((KcOk.mem h hd).mpr ⟨ht, hw⟩)) ((r3 t ht).1 hw)
    obtain ⟨q, hq⟩ := hfin
    refine ⟨q, by simp [hq], fun hw => by rw [← hq]; exact (r3 t ht).1 hw, fun hw => ?_, ?_, fun hf => ?_⟩
    · have := (r3 t ht).2 hw; rw [hq] at this; exact Num.fin.inj this
    · rw [f6 t ht]; simp only [if_true, hq]
      exact filterVal_step fun hj hf => hp hj hf t ht
    · show o.data d t = u.data d t
      rw [f7 t ht, if_pos hf, f6 t ht]
  · intro k hk t
    exact ⟨by simp [hk], (f8 k hk t).1, (f8 k hk t).2⟩

/-- All departments of an iteration. -/
theorem kcDepts_spec (h : KcOk inp wf cap w R) {j : ℕ} {A : Mat Num} {x : ℕ → ℕ → ℚ} (hA : A.Is inp.numDepartments inp.numTeams x)
    {s : Mat Num × Mat Num × Mat Num} (h1 : s.1.rows = inp.numDepartments) (h2 : s.1.cols = inp.numTeams) (h3 : s.2.1.rows = inp.numDepartments) (h4 : s.2.1.cols = inp.numTeams)
    (h5 : s.2.2.rows = inp.numDepartments) (h6 : s.2.2.cols = inp.numTeams) {p : ℕ → ℕ → ℚ}
    (hp : j ≠ 0 → inp.flag = true ∧ inp.alpha ≠ 0 → ∀ d < inp.numDepartments, ∀ t < inp.numTeams, s.2.2.data d t = fin (p d t)) :
    ∃ s' : Mat Num × Mat Num × Mat Num, loopUp inp.numDepartments (kcDept inp j A) s = some s' ∧ s'.1.rows = inp.numDepartments ∧ s'.1.cols = inp.numTeams ∧
      s'.2.1.rows = inp.numDepartments ∧ s'.2.1.cols = inp.numTeams ∧ s'.2.2.rows = inp.numDepartments ∧ s'.2.2.cols = inp.numTeams ∧
      ∀ d < inp.numDepartments, ∀ t < inp.numTeams, ∃ q, s'.1.data d t = fin q ∧
        (wf d t ≠ 0 → IsMessage (users (wf d) 0 inp.numTeams) (Fits (wf d) (cap d)) (x d) t (fin q)) ∧
        (wf d t = 0 → q = 0) ∧ s'.2.1.data d t = fin (dampStep inp.flag inp.alpha j q (p d t)) ∧
        (inp.flag = true ∧ inp.alpha ≠ 0 → s'.2.2.data d t = s'.2.1.data d t) := by
  obtain ⟨s', a1, ⟨a2, a3, a4, a5, a6, a7⟩, a8, -⟩ := loopUp_inv (n := inp.numDepartments) (body := kcDept inp j A) (s := s)
    (fun k s' => (s'.1.rows = inp.numDepartments ∧ s'.1.cols = inp.numTeams ∧ s'.2.1.rows = inp.numDepartments ∧ s'.2.1.cols = inp.numTeams ∧ s'.2.2.rows = inp.numDepartments ∧ s'.2.2.cols = inp.numTeams) ∧
      (∀ d < k, ∀ t < inp.numTeams, ∃ q, s'.1.data d t = fin q ∧
        (wf d t ≠ 0 → IsMessage (users (wf d) 0 inp.numTeams) (Fits (wf d) (cap d)) (x d) t (fin q)) ∧
        (wf d t = 0 → q = 0) ∧ s'.2.1.data d t = fin (dampStep inp.flag inp.alpha j q (p d t)) ∧
        (inp.flag = true ∧ inp.alpha ≠ 0 → s'.2.2.data d t = s'.2.1.data d t)) ∧
      ∀ d, k ≤ d → ∀ t, s'.2.2.data d t = s.2.2.data d t)
    ⟨⟨h1, h2, h3, h4, h5, h6⟩, fun d hd => by omega, fun _ _ _ => rfl⟩
    (by
      rintro k hk t ⟨⟨b1, b2, b3, b4, b5, b6⟩, b7, b8⟩
      obtain ⟨t', c1, c2, c3, c4, c5, c6, c7, c8, c9⟩ := kcDept_spec h (j := j) hk hA b1 b2 b3 b4 b5 b6 (p := p k)
        (fun hj hf u hu => by rw [b8 k le_rfl]; exact hp hj hf k hk u hu)
      refine ⟨t', c1, ⟨c2, c3, c4, c5, c6, c7⟩, fun d hd u hu => ?_, fun d hd u => ?_⟩
      · by_cases e : d = k
        · subst e; exact c8 u hu
        · obtain ⟨q, q1, q2, q3, q4, q5⟩ := b7 d (by omega) u hu
          obtain ⟨z1, z2, z3⟩ := c9 d e u
          exact ⟨q, by rw [z1]; exact q1, q2, q3, by rw [z2]; exact q4, fun hf => by rw [z3, z2]; exact q5 hf⟩
      · rw [(c9 d (by omega) u).2.2]; exact b8 d (by omega) u)
  exact ⟨s', a1, a2, a3, a4, a5, a6, a7, a8⟩

theorem kcIntrinsic_is {o y r : Mat Num} {of yf rf : ℕ → ℕ → ℚ} {P T : ℕ} (ho : o.Is P T of) (hy : y.Is P T yf) (hr : r.Is P T rf)
    {out : Arr Num} (hs : out.size = P * T) :
    ∃ out', kcIntrinsic T o y r out = some out' ∧ out'.size = P * T ∧
      ∀ p < P, ∀ t < T, out'.data (p * T + t) = fin (of p t + yf p t + rf p t) := by
  have idx : ∀ p t, t < T → p + t + p * (T - 1) = p * T + t := by
    intro p t ht
    obtain ⟨k, rfl⟩ : ∃ k, T = k + 1 := ⟨T - 1, by omega⟩
    simp; ring
  have inj : ∀ {p t p' t'}, t < T → t' < T → p * T + t = p' * T + t' → p = p' ∧ t = t' := by
    intro p t p' t' ht ht' e
    have h0 : 0 < T := by omega
    have e1 : (p * T + t) / T = p := by rw [Nat.add_comm, Nat.add_mul_div_right _ _ h0, Nat.div_eq_of_lt ht, Nat.zero_add]
    have e2 : (p' * T + t') / T = p' := by rw [Nat.add_comm, Nat.add_mul_div_right _ _ h0, Nat.div_eq_of_lt ht', Nat.zero_add]
    have : p = p' := by rw [← e1, ← e2, e]
    subst this
    exact ⟨rfl, by omega⟩
  obtain ⟨out', a1, a2, a3⟩ := loopUp_inv (n := r.rows) (body := fun p (out : Arr Num) => loopUp r.cols (fun t out => do
      let o ← o.rd p t
      let y ← y.rd p t
      let r ← r.rd p t
      out.wr (p + t + p * (T - 1)) (o + y + r)) out) (s := out)
    (fun k out => out.size = P * T ∧ ∀ p < k, ∀ t < T, out.data (p * T + t) = fin (of p t + yf p t + rf p t))
    ⟨hs, fun p hp => by omega⟩
    (by
      rintro p hp out ⟨b1, b2⟩
      rw [hr.1] at hp
      obtain ⟨out', c1, c2, c3, c4⟩ := loopUp_inv (n := r.cols) (body := fun t (out : Arr Num) => do
          let o ← o.rd p t
          let y ← y.rd p t
          let r ← r.rd p t
          out.wr (p + t + p * (T - 1)) (o + y + r)) (s := out)
        (fun k out => out.size = P * T ∧ (∀ p' < p, ∀ t < T, out.data (p' * T + t) = fin (of p' t + yf p' t + rf p' t)) ∧
          ∀ t < k, out.data (p * T + t) = fin (of p t + yf p t + rf p t))
        ⟨b1, b2, fun p hp => by omega⟩
        (by
          rintro t ht out ⟨d1, d2, d3⟩
          rw [hr.2.1] at ht
          have hlt : p * T + t < out.size := by
            rw [d1]
            calc p * T + t < p * T + T := by omega
              _ = (p + 1) * T := by ring
              _ ≤ P * T := Nat.mul_le_mul_right T hp
          refine ⟨⟨out.size, fun k => if k = p * T + t then fin (of p t + yf p t + rf p t) else out.data k⟩, ?_, d1, ?_, ?_⟩
          · simp only [ho.rd hp ht, hy.rd hp ht, hr.rd hp ht, Option.bind_eq_bind, Option.bind_some, idx p t ht, fin_add]
            exact Arr.wr_of_lt hlt
          · intro p' hp' t' ht'
            have : p' * T + t' ≠ p * T + t := fun e => by have := (inj ht' ht e).1; omega
            simp only [if_neg this]; exact d2 p' hp' t' ht'
          · intro t' ht'
            by_cases e : t' = t
            · simp [e]
            · have : p * T + t' ≠ p * T + t := by omega
              simp only [if_neg this]; exact d3 t' (by omega))
      refine ⟨out', c1, c2, fun p' hp' t ht => ?_⟩
      by_cases e : p' = p
      · subst e; exact c4 t (by rw [hr.2.1]; exact ht)
      · exact c3 p' (by omega) t ht)
  rw [hr.1] at a3
  exact ⟨out', a1, a2, a3⟩

/-- What holds at the start of iteration `j`. -/
structure KcInv (inp : KcInputs) (wf : ℕ → ℕ → ℕ) (R : ℕ → ℕ → ℚ) (j : ℕ) (s : KcState) : Prop where
  a : s.a.Is inp.numDepartments inp.numTeams s.a.val
  dummy_rows : s.dummy.rows = inp.numDepartments
  dummy_cols : s.dummy.cols = inp.numTeams
  ext : s.ext.Is inp.numDepartments inp.numTeams s.ext.val
  ext_off : ∀ d < inp.numDepartments, ∀ t < inp.numTeams, wf d t = 0 → s.ext.val d t = 0
  old_rows : s.extOld.rows = inp.numDepartments
  old_cols : s.extOld.cols = inp.numTeams
  old : j ≠ 0 → inp.flag = true ∧ inp.alpha ≠ 0 → ∀ d < inp.numDepartments, ∀ t < inp.numTeams, s.extOld.data d t = fin (s.ext.val d t)
  t2o : s.t2o.size = inp.numTeams
  e2o : s.e2o.Is inp.numProjects inp.numTeams s.e2o.val
  o2e : s.o2e.Is inp.numProjects inp.numTeams s.o2e.val
  e2p_rows : s.e2p.rows = inp.numProjects
  e2p_cols : s.e2p.cols = inp.numTeams
  p2e : s.p2e.Is inp.numProjects inp.numTeams s.p2e.val
  o2t : s.o2t.Is inp.numTeams s.o2t.val
  outTeam : s.outTeam.size = inp.numTeams
  outMwm : s.outMwm.size = inp.numProjects * inp.numTeams
  mwm : j ≠ 0 → ∀ p < inp.numProjects, ∀ t < inp.numTeams, s.outMwm.data (p * inp.numTeams + t) = fin (s.o2e.val p t + s.p2e.val p t + R p t)

/-- What one iteration does. -/
structure KcStep (inp : KcInputs) (wf : ℕ → ℕ → ℕ) (cap : ℕ → ℕ) (w : ℕ → ℚ) (R : ℕ → ℕ → ℚ) (j : ℕ) (s s' : KcState) : Prop where
  dept : ∀ d < inp.numDepartments, ∀ t < inp.numTeams, wf d t ≠ 0 → IsMessage (users (wf d) 0 inp.numTeams) (Fits (wf d) (cap d)) (s.a.val d) t (fin (s'.dummy.val d t))
  damp : ∀ d < inp.numDepartments, ∀ t < inp.numTeams, s'.ext.val d t = dampStep inp.flag inp.alpha j (s'.dummy.val d t) (s.ext.val d t)
  coupling : ∀ p < inp.numProjects, ∀ t < inp.numTeams, IsMessage (couplingVars inp.numProjects) Coupled
    (couplingIn (w t + ∑ d ∈ depts inp.numDepartments wf t, s'.ext.val d t) (fun p => s.e2o.val p t)) (some p) (fin (s'.o2e.val p t))
  project : ∀ p < inp.numProjects, ∀ t < inp.numTeams, IsMessage (Finset.range inp.numTeams) AtMostOne (fun t => s'.o2e.val p t + R p t) t (fin (s'.p2e.val p t))
  edge : ∀ p < inp.numProjects, ∀ t < inp.numTeams, s'.e2o.val p t = R p t + s'.p2e.val p t
  team : ∀ t < inp.numTeams, ∃ v, IsMessage (couplingVars inp.numProjects) Coupled
    (couplingIn (w t + ∑ d ∈ depts inp.numDepartments wf t, s'.ext.val d t) (fun p => s'.e2o.val p t)) none (fin v) ∧
    s'.o2t.val t = min 1000000 v
  next : ∀ d < inp.numDepartments, ∀ t < inp.numTeams, wf d t ≠ 0 → s'.a.val d t = w t + s'.o2t.val t + ∑ d' ∈ (depts inp.numDepartments wf t).erase d, s'.ext.val d' t

theorem depts_sum {f : ℕ → ℚ} {t : ℕ} (h : ∀ d < inp.numDepartments, wf d t = 0 → f d = 0) :
    ∑ d ∈ Finset.range inp.numDepartments, f d = ∑ d ∈ depts inp.numDepartments wf t, f d := by
  rw [depts, Finset.sum_filter]
  refine Finset.sum_congr rfl fun d hd => ?_
  by_cases hw : wf d t = 0
  · rw [if_neg (by simpa using hw), h d (Finset.mem_range.mp hd) hw]
  · rw [if_pos hw]

theorem otherDepts_eq (h : KcOk inp wf cap w R) {d t : ℕ} (ht : t < inp.numTeams) : otherDepts inp.numDepartments inp.nzs d t = (depts inp.numDepartments wf t).erase d := by
  ext k
  simp only [otherDepts, Finset.mem_filter, Finset.mem_range, Finset.mem_erase, mem_depts]
  constructor
  · rintro ⟨h1, h2, h3⟩
    exact ⟨h2, h1, ((KcOk.mem h h1).mp h3).2⟩
  · rintro ⟨h1, h2, h3⟩
    exact ⟨h2, h1, (KcOk.mem h h2).mpr ⟨ht, h3⟩⟩

theorem exists_least (f : ℕ → ℚ) {n : ℕ} (hn : 0 < n) : ∃ v, IsLeast {q | ∃ p < n, f p = q} v := by
  have hne : ((Finset.range n).image f).Nonempty := ⟨f 0, Finset.mem_image_of_mem _ (Finset.mem_range.mpr hn)⟩
  refine ⟨((Finset.range n).image f).min' hne, ?_, ?_⟩
  · obtain ⟨p, hp, e⟩ := Finset.mem_image.mp (Finset.min'_mem _ hne)
    exact ⟨p, Finset.mem_range.mp hp, e⟩
  · rintro q ⟨p, hp, rfl⟩
    exact Finset.min'_le _ _ (Finset.mem_image_of_mem _ (Finset.mem_range.mpr hp))

theorem kcIter_step (h : KcOk inp wf cap w R) {j : ℕ} {s : KcState} (hs : KcInv inp wf R j s) :
    ∃ s', kcIter inp j s = some s' ∧ KcInv inp wf R (j + 1) s' ∧ KcStep inp wf cap w R j s s' := by
  obtain ⟨⟨dummy, ext, old⟩, a1, a2, a3, a4, a5, a6, a7, a8⟩ := kcDepts_spec h (j := j) hs.a (s := (s.dummy, s.ext, s.extOld))
    hs.dummy_rows hs.dummy_cols hs.ext.1 hs.ext.2.1 hs.old_rows hs.old_cols hs.old
  simp only at a2 a3 a4 a5 a6 a7 a8
  have hdv : ∀ d < inp.numDepartments, ∀ t < inp.numTeams, dummy.data d t = fin (dummy.val d t) := fun d hd t ht => by
    obtain ⟨q, hq, -⟩ := a8 d hd t ht; rw [Mat.val, hq]; rfl
  have hext : ext.Is inp.numDepartments inp.numTeams ext.val := Mat.isFin a4 a5 fun d hd t ht => by
    obtain ⟨q, -, -, -, hq, -⟩ := a8 d hd t ht; exact ⟨_, hq⟩
  have hdamp : ∀ d < inp.numDepartments, ∀ t < inp.numTeams, ext.val d t = dampStep inp.flag inp.alpha j (dummy.val d t) (s.ext.val d t) := by
    intro d hd t ht
    obtain ⟨q, h1, -, -, h2, -⟩ := a8 d hd t ht
    rw [Mat.val, h2, show dummy.val d t = q by rw [Mat.val, h1]; rfl]; rfl
  have hoff : ∀ d < inp.numDepartments, ∀ t < inp.numTeams, wf d t = 0 → ext.val d t = 0 := by
    intro d hd t ht hw
    obtain ⟨q, h1, -, h3, h2, -⟩ := a8 d hd t ht
    rw [Mat.val, h2, h3 hw, hs.ext_off d hd t ht hw]
    simp [dampStep]
  obtain ⟨t2o, b1, b2⟩ := teamToOric_is hext hs.t2o h.reward
  have b3 : t2o.Is inp.numTeams (fun t => w t + ∑ d ∈ depts inp.numDepartments wf t, ext.val d t) := b2.congr fun t ht => by
    rw [depts_sum (fun d hd hw => hoff d hd t ht hw)]
  obtain ⟨o2e, e2p, c1, c2, c3, c4, c5, c6⟩ := Properties.C02_coupling_messages_exact hs.e2o b3 h.rewardProject hs.o2e.1 hs.o2e.2.1
    hs.e2p_rows hs.e2p_cols
  have ho2e : o2e.Is inp.numProjects inp.numTeams o2e.val := Mat.isFin c2 c3 fun p hp t ht => by
    obtain ⟨v, hv, -⟩ := c6 p hp t ht; exact ⟨v, hv⟩
  have he2p : e2p.Is inp.numProjects inp.numTeams (fun p t => o2e.val p t + R p t) := ⟨c4, c5, fun p hp t ht => by
    obtain ⟨v, hv, -, hq⟩ := c6 p hp t ht; rw [hq]; show _ = fin (o2e.val p t + R p t); rw [show o2e.val p t = v by rw [Mat.val, hv]; rfl]⟩
  obtain ⟨p2e, d1, d2, d3, d4⟩ := Properties.C01_project_messages_exact he2p hs.p2e.1 hs.p2e.2.1
  have hp2e : p2e.Is inp.numProjects inp.numTeams p2e.val := Mat.isFin d2 d3 fun p hp t ht => by
    obtain ⟨-, q, hq, -⟩ := d4 p hp t ht; exact ⟨q, hq⟩
  obtain ⟨e2o, g1, g2⟩ := projectToOric_is hp2e hs.e2o.1 hs.e2o.2.1 h.rewardProject
  obtain ⟨o2t, k1, k2, k3⟩ := oricToTeamUpdate_eq g2 hs.o2t.1
  have ho2t : o2t.Is inp.numTeams o2t.val := Arr.isFin k2 fun t ht => by
    obtain ⟨v, -, hv⟩ := k3 t ht; exact ⟨v, hv⟩
  obtain ⟨mwm, l1, l2, l3⟩ := kcIntrinsic_is ho2e hp2e h.rewardProject hs.outMwm
  obtain ⟨a, m1, m2, m3, m4⟩ := teamToKnapsack_is h.reward ho2t hext h.nzs_length
    (fun d hd => ((h.dept d hd).sorted).imp (fun hh => Nat.ne_of_lt hh))
    (fun d hd t ht => ((KcOk.mem h hd).mp ht).1)
    (by
      intro d hd t ht k hk k' hk'
      have htT := ((KcOk.mem h hd).mp ht)
      rw [otherDepts_eq h htT.1] at hk hk'
      have hc : ((depts inp.numDepartments wf t).erase d).card ≤ 1 := by
        rw [Finset.card_erase_of_mem (mem_depts.mpr ⟨hd, htT.2⟩)]
        have := h.two t htT.1; omega
      exact Finset.card_le_one.mp hc k hk k' hk') hs.a.1 hs.a.2.1
  have ha : a.Is inp.numDepartments inp.numTeams a.val := Mat.isFin m2 m3 fun d hd t ht => by
    rw [m4]
    by_cases hc : d < inp.numDepartments ∧ t ∈ inp.nzs.getD d []
    · rw [if_pos hc]; exact ⟨_, rfl⟩
    · rw [if_neg hc]; exact ⟨_, hs.a.2.2 d hd t ht⟩
  refine ⟨⟨a, dummy, ext, old, t2o, e2o, o2e, e2p, p2e, o2t, s.outTeam, mwm⟩, ?_,
    ⟨ha, a2, a3, hext, hoff, a6, a7, ?_, b2.1, g2.self, ho2e, c4, c5, hp2e, ho2t, hs.outTeam, l2, fun _ => l3⟩,
    ⟨?_, hdamp, ?_, ?_, fun p hp t ht => g2.val hp ht, ?_, ?_⟩⟩
  · simp only [kcIter, a1, b1, c1, d1, g1, k1, l1, m1, Option.bind_eq_bind, Option.bind_some]
  · intro _ hf d hd t ht
    obtain ⟨q, -, -, -, h2, h3⟩ := a8 d hd t ht
    show old.data d t = _
    rw [h3 hf]; exact hext.2.2 d hd t ht
  · intro d hd t ht hw
    obtain ⟨q, h1, h2, -⟩ := a8 d hd t ht
    show IsMessage _ _ _ _ (fin (dummy.val d t))
    rw [← hdv d hd t ht, h1]; exact h2 hw
  · intro p hp t ht
    obtain ⟨v, hv, hm, -⟩ := c6 p hp t ht
    show IsMessage _ _ _ _ (fin (o2e.val p t))
    rw [← ho2e.2.2 p hp t ht, hv]; exact hm
  · intro p hp t ht
    show IsMessage _ _ _ _ (fin (p2e.val p t))
    rw [← hp2e.2.2 p hp t ht]; exact (d4 p hp t ht).1
  · intro t ht
    obtain ⟨v, hv⟩ := exists_least (fun p => e2o.val p t) h.projects
    refine ⟨v, coupling_team_message hv, ?_⟩
    obtain ⟨z, hz, he⟩ := k3 t ht
    show (o2t.data t).val = _
    rw [he, Num.val_fin]
    have hv' : IsLeast {q | ∃ p < inp.numProjects, R p t + p2e.val p t = q} v := by
      have : {q | ∃ p < inp.numProjects, R p t + p2e.val p t = q} = {q | ∃ p < inp.numProjects, e2o.val p t = q} := by
        ext q
        constructor
        · rintro ⟨p, hp, e⟩; exact ⟨p, hp, by rw [g2.val hp ht]; exact e⟩
        · rintro ⟨p, hp, e⟩; exact ⟨p, hp, by rw [g2.val hp ht] at e; exact e⟩
      rw [this]; exact hv
    refine hz.unique ⟨?_, ?_⟩
    · rcases min_choice (1000000 : ℚ) v with e | e <;> rw [e]
      · exact Or.inl rfl
      · exact Or.inr hv'.1
    · rintro q (rfl | hq)
      · exact min_le_left _ _
      · exact (min_le_right _ _).trans (hv'.2 hq)
  · intro d hd t ht hw
    show (a.data d t).val = _
    rw [m4, if_pos ⟨hd, (KcOk.mem h hd).mpr ⟨ht, hw⟩⟩, otherDepts_eq h ht, Num.val_fin]

theorem kcInit_inv {A : Mat Num} {a0 : ℕ → ℕ → ℚ} (hA : A.Is inp.numDepartments inp.numTeams a0) : KcInv inp wf R 0 (kcInit inp A) where
  a := hA.self
  dummy_rows := rfl
  dummy_cols := rfl
  ext := ⟨rfl, rfl, fun _ _ _ _ => rfl⟩
  ext_off := fun _ _ _ _ _ => rfl
  old_rows := rfl
  old_cols := rfl
  old := fun hh => absurd rfl hh
  t2o := rfl
  e2o := ⟨rfl, rfl, fun _ _ _ _ => rfl⟩
  o2e := ⟨rfl, rfl, fun _ _ _ _ => rfl⟩
  e2p_rows := rfl
  e2p_cols := rfl
  p2e := ⟨rfl, rfl, fun _ _ _ _ => rfl⟩
  o2t := ⟨rfl, fun _ _ => rfl⟩
  outTeam := rfl
  outMwm := rfl
  mwm := fun hh => absurd rfl hh

theorem kcExtrinsic_is {D T : ℕ} {ext : Mat Num} {x : ℕ → ℕ → ℚ} {o out : Arr Num} {y : ℕ → ℚ} (hx : ext.Is D T x) (ho : o.Is T y)
    (hs : out.size = T) : ∃ r, kcExtrinsic ext o out = some r ∧ r.Is T (fun t => y t + ∑ d ∈ Finset.range D, x d t) := by
  have hc : o.copyTo out = some ⟨out.size, fun i => if i < o.size then o.data i else out.data i⟩ := if_pos (by rw [ho.1, hs])
  obtain ⟨r, r1, r2⟩ := addRowsL_is (acc := ⟨out.size, fun i => if i < o.size then o.data i else out.data i⟩) (y := y) hx
    ⟨hs, fun i hi => by simp only [ho.1, if_pos hi]; exact ho.2 i hi⟩
  exact ⟨r, by simp only [kcExtrinsic, hc, Option.bind_eq_bind, Option.bind_some, r1], r2⟩

/-- Value of the team messages with the code's limit. -/
theorem kc_run (h : KcOk inp wf cap w R) {A : Mat Num} {a0 : ℕ → ℕ → ℚ} (hA : A.Is inp.numDepartments inp.numTeams a0) :
    ∃ a raw o y e c, IsKcTrace inp.numDepartments inp.numTeams inp.numProjects wf cap w R inp.flag inp.alpha (some 1000000) a0 a raw o y e c ∧
      (∃ ext intr, kcSolve inp A 0 = some (ext, intr) ∧ ext.Is inp.numTeams (fun _ => 0) ∧ intr.Is (inp.numProjects * inp.numTeams) (fun _ => 0)) ∧
      ∀ K, ∃ ext intr, kcSolve inp A (K + 1) = some (ext, intr) ∧
        ext.Is inp.numTeams (fun t => c K t + ∑ d ∈ depts inp.numDepartments wf t, damped inp.flag inp.alpha (fun i => raw i d t) K) ∧
        intr.size = inp.numProjects * inp.numTeams ∧ ∀ p < inp.numProjects, ∀ t < inp.numTeams, intr.data (p * inp.numTeams + t) = fin (o K p t + y K p t + R p t) := by
  obtain ⟨st, h0, hst⟩ := loop_trace (body := kcIter inp) (s0 := kcInit inp A) (KcInv inp wf R) (KcStep inp wf cap w R)
    (kcInit_inv hA) (fun k s hk => kcIter_step h hk)
  have hd : ∀ k, ∀ d < inp.numDepartments, ∀ t < inp.numTeams, (st (k + 1)).ext.val d t =
      damped inp.flag inp.alpha (fun i => (st (i + 1)).dummy.val d t) k := by
    intro k d hd t ht
    refine damped_of_step (r := fun i => (st (i + 1)).dummy.val d t) (d := fun k => (st (k + 1)).ext.val d t) ?_ ?_ k
    · intro p
      have := (hst 0).2.2.damp d hd t ht
      simp only [dampStep] at this ⊢
      simpa using this
    · intro k; exact (hst (k + 1)).2.2.damp d hd t ht
  have hsum : ∀ k, ∀ t < inp.numTeams, ∀ S : Finset ℕ, S ⊆ depts inp.numDepartments wf t → ∑ d ∈ S, (st (k + 1)).ext.val d t =
      ∑ d ∈ S, damped inp.flag inp.alpha (fun i => (st (i + 1)).dummy.val d t) k := by
    intro k t ht S hS
    exact Finset.sum_congr rfl fun d hh => hd k d (mem_depts.mp (hS hh)).1 t ht
  refine ⟨fun k => (st k).a.val, fun k => (st (k + 1)).dummy.val, fun k => (st (k + 1)).o2e.val, fun k => (st (k + 1)).p2e.val,
    fun k => (st k).e2o.val, fun k => (st (k + 1)).o2t.val, ⟨?_, ?_, ?_, ?_, ?_, ?_, ?_, ?_⟩, ?_, ?_⟩
  · intro d hd t ht
    show (st 0).a.val d t = _
    rw [h0]; exact hA.val hd ht
  · intro k d hd t ht hw; exact (hst k).2.2.dept d hd t ht hw
  · intro p hp t ht
    show (st 0).e2o.val p t = _
    rw [h0]; rfl
  · intro k p hp t ht
    have := (hst k).2.2.coupling p hp t ht
    rw [hsum k t ht _ subset_rfl] at this; exact this
  · intro k p hp t ht; exact (hst k).2.2.project p hp t ht
  · intro k p hp t ht; exact (hst k).2.2.edge p hp t ht
  · intro k t ht
    have := (hst k).2.2.team t ht
    rw [hsum k t ht _ subset_rfl] at this; exact this
  · intro k d hd t ht hw
    have := (hst k).2.2.next d hd t ht hw
    rw [hsum k t ht _ (Finset.erase_subset _ _)] at this; exact this
  · obtain ⟨r, r1, r2⟩ := kcExtrinsic_is (hst 0).2.1.ext (hst 0).2.1.o2t (hst 0).2.1.outTeam
    refine ⟨r, (st 0).outMwm, by simp only [kcSolve, kcIterate, (hst 0).1, r1, Option.bind_eq_bind, Option.bind_some], ?_, ?_⟩
    · refine r2.congr fun t ht => ?_
      rw [h0]
      simp [kcInit, Mat.val, Arr.val, Mat.fill, Arr.fill, show (0 : Num) = fin 0 from rfl]
    · rw [h0]; exact ⟨rfl, fun _ _ => rfl⟩
  · intro K
    obtain ⟨r, r1, r2⟩ := kcExtrinsic_is (hst (K + 1)).2.1.ext (hst (K + 1)).2.1.o2t (hst (K + 1)).2.1.outTeam
    refine ⟨r, (st (K + 1)).outMwm, by simp only [kcSolve, kcIterate, (hst (K + 1)).1, r1, Option.bind_eq_bind, Option.bind_some],
      r2.congr fun t ht => ?_, (hst (K + 1)).2.1.outMwm, (hst (K + 1)).2.1.mwm (Nat.succ_ne_zero K)⟩
    rw [depts_sum (fun d hd hw => (hst (K + 1)).2.1.ext_off d hd t ht hw), hsum K t ht _ subset_rfl]

end

section
variable {D T P : ℕ} {wf : ℕ → ℕ → ℕ} {cap : ℕ → ℕ} {w : ℕ → ℚ} {R : ℕ → ℕ → ℚ} {flag : Bool} {alpha : ℚ} {limit : Option ℚ}
  {a0 : ℕ → ℕ → ℚ} {a raw o y e a' raw' o' y' e' : ℕ → ℕ → ℕ → ℚ} {c c' : ℕ → ℕ → ℚ}

theorem mem_users0 {wf : ℕ → ℕ} {t : ℕ} : t ∈ users wf 0 T ↔ t < T ∧ wf t ≠ 0 := by simp [users]

theorem kcTrace_unique (h : IsKcTrace D T P wf cap w R flag alpha limit a0 a raw o y e c)
    (h' : IsKcTrace D T P wf cap w R flag alpha limit a0 a' raw' o' y' e' c') (j : ℕ) :
    (∀ d < D, ∀ t < T, wf d t ≠ 0 → a j d t = a' j d t ∧ raw j d t = raw' j d t) ∧
    (∀ p < P, ∀ t < T, e j p t = e' j p t ∧ o j p t = o' j p t ∧ y j p t = y' j p t) ∧ ∀ t < T, c j t = c' j t := by
  induction j using Nat.strong_induction_on with
  | _ j ih =>
    have ha : ∀ d < D, ∀ t < T, wf d t ≠ 0 → a j d t = a' j d t := by
      intro d hd t ht hw
      cases j with
      | zero => rw [h.init d hd t ht, h'.init d hd t ht]
      | succ j =>
        rw [h.next j d hd t ht hw, h'.next j d hd t ht hw, (ih j (by omega)).2.2 t ht]
        congr 1
        refine Finset.sum_congr rfl fun k hk => damped_congr fun i hi => ?_
        have := mem_depts.mp (Finset.mem_of_mem_erase hk)
        exact ((ih i (by omega)).1 k this.1 t ht this.2).2
    have hraw : ∀ d < D, ∀ t < T, wf d t ≠ 0 → raw j d t = raw' j d t := by
      intro d hd t ht hw
      refine Num.fin.inj ((h.dept j d hd t ht hw).unique ((h'.dept j d hd t ht hw).congr_in (fun u hu => ?_) (mem_users0.mpr ⟨ht, hw⟩)))
      have := mem_users0.mp hu
      exact (ha d hd u this.1 this.2).symm
    have hsum : ∀ t < T, ∑ d ∈ depts D wf t, damped flag alpha (fun i => raw i d t) j =
        ∑ d ∈ depts D wf t, damped flag alpha (fun i => raw' i d t) j := by
      intro t ht
      refine Finset.sum_congr rfl fun k hk => damped_congr fun i hi => ?_
      have := mem_depts.mp hk
      rcases Nat.lt_or_eq_of_le hi with hi | rfl
      · exact ((ih i hi).1 k this.1 t ht this.2).2
      · exact hraw k this.1 t ht this.2
    have he : ∀ p < P, ∀ t < T, e j p t = e' j p t := by
      intro p hp t ht
      cases j with
      | zero => rw [h.edge_init p hp t ht, h'.edge_init p hp t ht]
      | succ j => rw [h.edge j p hp t ht, h'.edge j p hp t ht, ((ih j (by omega)).2.1 p hp t ht).2.2]
    have hcv : ∀ p < P, some p ∈ couplingVars P := fun p hp => by simp [couplingVars, hp]
    have hcong : ∀ (m : ℚ) (f g : ℕ → ℚ), (∀ p < P, f p = g p) → ∀ i ∈ couplingVars P, couplingIn m f i = couplingIn m g i := by
      intro m f g hfg i hi
      cases i with
      | none => rfl
      | some p => exact hfg p (by simpa [couplingVars] using hi)
    have ho : ∀ p < P, ∀ t < T, o j p t = o' j p t := by
      intro p hp t ht
      have h2 := h'.coupling j p hp t ht
      rw [← hsum t ht] at h2
      exact Num.fin.inj ((h.coupling j p hp t ht).unique (h2.congr_in (hcong _ _ _ fun p hp => (he p hp t ht).symm) (hcv p hp)))
    have hy : ∀ p < P, ∀ t < T, y j p t = y' j p t := by
      intro p hp t ht
      refine Num.fin.inj ((h.project j p hp t ht).unique ((h'.project j p hp t ht).congr_in (fun u hu => ?_)
        (Finset.mem_range.mpr ht)))
      simp only [ho p hp u (Finset.mem_range.mp hu)]
    refine ⟨fun d hd t ht hw => ⟨ha d hd t ht hw, hraw d hd t ht hw⟩, fun p hp t ht => ⟨he p hp t ht, ho p hp t ht, hy p hp t ht⟩,
      fun t ht => ?_⟩
    obtain ⟨v, hv, e1⟩ := h.team j t ht
    obtain ⟨v', hv', e2⟩ := h'.team j t ht
    rw [← hsum t ht] at hv'
    have : v = v' := Num.fin.inj (hv.unique (hv'.congr_in (hcong _ _ _ fun p hp => by
      rw [h.edge j p hp t ht, h'.edge j p hp t ht, hy p hp t ht]) (by simp [couplingVars])))
    rw [e1, e2, this]

end
end Verif.Proofs
