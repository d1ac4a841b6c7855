import Verif.Proofs.Knapsack

/-! # The knapsack messages to the teams -/

namespace Verif.Proofs
open Verif Num Spec Model

theorem minElement_append {l : List Num} {v x : Num} (h : minElement l = some v) :
    minElement (l ++ [x]) = some (cmin v x) := by
  cases l with
  | nil => simp [minElement] at h
  | cons a l => simp only [minElement, Option.some.injEq] at h; simp [minElement, h]

/-- Union over `i < n` with `c i` of the sets `A i`. -/
def unionUpTo (c : ℕ → Prop) (A : ℕ → Set ℚ) (n : ℕ) : Set ℚ := {q | ∃ i < n, c i ∧ q ∈ A i}

theorem unionUpTo_succ_pos {c : ℕ → Prop} {A : ℕ → Set ℚ} {n : ℕ} (h : c n) :
    unionUpTo c A (n + 1) = unionUpTo c A n ∪ A n := by
  ext q
  simp only [unionUpTo, Set.mem_ofPred_eq, Set.mem_union]
  constructor
  · rintro ⟨i, hi, hc, hq⟩
    rcases Nat.lt_or_eq_of_le (Nat.le_of_lt_succ hi) with h' | rfl
    · exact Or.inl ⟨i, h', hc, hq⟩
    · exact Or.inr hq
  · rintro (⟨i, hi, hc, hq⟩ | hq)
    · exact ⟨i, by omega, hc, hq⟩
    · exact ⟨n, by omega, h, hq⟩

theorem unionUpTo_succ_neg {c : ℕ → Prop} {A : ℕ → Set ℚ} {n : ℕ} (h : ¬ c n) :
    unionUpTo c A (n + 1) = unionUpTo c A n := by
  ext q
  simp only [unionUpTo, Set.mem_ofPred_eq]
  constructor
  · rintro ⟨i, hi, hc, hq⟩
    rcases Nat.lt_or_eq_of_le (Nat.le_of_lt_succ hi) with h' | rfl
    · exact ⟨i, h', hc, hq⟩
    · exact absurd hc h
  · rintro ⟨i, hi, hc, hq⟩; exact ⟨i, by omega, hc, hq⟩

theorem unionUpTo_zero {c : ℕ → Prop} {A : ℕ → Set ℚ} : unionUpTo c A 0 = ∅ := by
  ext q; simp [unionUpTo]

section out
variable {T cap sz : ℕ} {nz : List ℕ} {w : Arr ℕ} {wf : ℕ → ℕ} {m : Arr Num} {mf : ℕ → ℚ}

theorem users_split {t : ℕ} (hT : t < T) (hne : wf t ≠ 0) :
    users wf 0 T = insert t (users wf 0 t ∪ users wf (t + 1) T) := by
  ext s
  simp only [Finset.mem_insert, Finset.mem_union, mem_users]
  constructor
  · rintro ⟨_, h1, h2⟩
    rcases Nat.lt_trichotomy s t with h | h | h
    · exact Or.inr (Or.inl ⟨by omega, h, h2⟩)
    · exact Or.inl h
    · exact Or.inr (Or.inr ⟨h, h1, h2⟩)
  · rintro (rfl | ⟨_, h1, h2⟩ | ⟨h0, h1, h2⟩)
    · exact ⟨by omega, hT, hne⟩
    · exact ⟨by omega, by omega, h2⟩
    · exact ⟨by omega, h1, h2⟩

theorem users_disj {t : ℕ} : Disjoint (users wf 0 t) (users wf (t + 1) T) := by
  rw [Finset.disjoint_left]; intro s; rw [mem_users, mem_users]; omega

theorem users_notMem_mid {t : ℕ} : t ∉ users wf 0 t ∪ users wf (t + 1) T := by
  rw [Finset.mem_union, mem_users, mem_users]; omega

/-- Subsets of the other users, split by the weight used by the earlier ones. -/
theorem split_sums (t c : ℕ) :
    sums (users wf 0 t ∪ users wf (t + 1) T) (fun S => S.sum wf + c ≤ cap) mf =
      unionUpTo (fun i => i + c ≤ cap) (fun i => addSet (Fset wf mf t i) (Bset wf mf T cap (t + 1) (i + c))) (cap + 1) := by
  ext q
  rw [sums_union users_disj]
  simp only [unionUpTo, Set.mem_ofPred_eq, addSet, Fset, Bset, sums]
  constructor
  · rintro ⟨L, R, hL, hR, hok, rfl⟩
    have e : (L ∪ R).sum wf = L.sum wf + R.sum wf := Finset.sum_union (users_disj.mono hL hR)
    exact ⟨L.sum wf, by omega, by omega, _, ⟨L, hL, rfl, rfl⟩, _, ⟨R, hR, by omega, rfl⟩, rfl⟩
  · rintro ⟨i, hi, hic, _, ⟨L, hL, hLi, rfl⟩, _, ⟨R, hR, hRi, rfl⟩, rfl⟩
    refine ⟨L, R, hL, hR, ?_, rfl⟩
    have e : (L ∪ R).sum wf = L.sum wf + R.sum wf := Finset.sum_union (users_disj.mono hL hR)
    omega

/-- Assignments with team `t`. -/
theorem costs_with {t : ℕ} (hT : t < T) (hne : wf t ≠ 0) :
    costs (users wf 0 T) (Fits wf cap) mf (fun S => t ∈ S) =
      addSet (sums (users wf 0 t ∪ users wf (t + 1) T) (fun S => S.sum wf + wf t ≤ cap) mf) {mf t} := by
  ext q
  simp only [costs, addSet, sums, Set.mem_ofPred_eq, Set.mem_singleton_iff, Fits]
  rw [users_split hT hne]
  constructor
  · rintro ⟨S, hS, hok, ht, rfl⟩
    refine ⟨cost mf (S.erase t), ⟨S.erase t, ?_, ?_, rfl⟩, mf t, rfl, cost_erase ht⟩
    · intro j hj
      rw [Finset.mem_erase] at hj
      exact (Finset.mem_insert.mp (hS hj.2)).resolve_left hj.1
    · rw [Finset.sum_erase_add _ _ ht]; exact hok
  · rintro ⟨_, ⟨S, hS, hok, rfl⟩, _, rfl, rfl⟩
    have ht : t ∉ S := fun h => users_notMem_mid (hS h)
    refine ⟨insert t S, Finset.insert_subset_insert _ hS, ?_, Finset.mem_insert_self _ _, cost_insert ht⟩
    have e : (insert t S).sum wf = wf t + S.sum wf := Finset.sum_insert ht
    omega

/-- Assignments without team `t`. -/
theorem costs_without {t : ℕ} (hT : t < T) (hne : wf t ≠ 0) :
    costs (users wf 0 T) (Fits wf cap) mf (fun S => t ∉ S) =
      sums (users wf 0 t ∪ users wf (t + 1) T) (fun S => S.sum wf + 0 ≤ cap) mf := by
  ext q
  simp only [costs, sums, Set.mem_ofPred_eq, Fits]
  rw [users_split hT hne]
  constructor
  · rintro ⟨S, hS, hok, ht, rfl⟩
    refine ⟨S, fun j hj => ?_, hok, rfl⟩
    exact (Finset.mem_insert.mp (hS hj)).resolve_left (fun e => ht (e ▸ hj))
  · rintro ⟨S, hS, hok, rfl⟩
    exact ⟨S, hS.trans (Finset.subset_insert _ _), hok, fun h => users_notMem_mid (hS h), rfl⟩

theorem addSet_unionUpTo (c : ℕ → Prop) (A : ℕ → Set ℚ) (n : ℕ) (x : ℚ) :
    addSet (unionUpTo c A n) {x} = unionUpTo c (fun i => addSet (A i) {x}) n := by
  ext q
  simp only [unionUpTo, addSet, Set.mem_ofPred_eq, Set.mem_singleton_iff]
  constructor
  · rintro ⟨a, ⟨i, hi, hc, ha⟩, b, rfl, rfl⟩; exact ⟨i, hi, hc, a, ha, _, rfl, rfl⟩
  · rintro ⟨i, hi, hc, a, ha, b, rfl, rfl⟩; exact ⟨a, ⟨i, hi, hc, ha⟩, _, rfl, rfl⟩

theorem knapPaths_spec {t : ℕ} (hT : t < T) (hfit : wf t ≤ cap) {F B : Mat Num}
    (hFr : F.rows = T + 1) (hFc : F.cols = cap + 1) (hBr : B.rows = T + 1) (hBc : B.cols = cap + 1)
    (hF : ∀ j ≤ T, ∀ a ≤ cap, IsMin (Fset wf mf j a) (F.data j a))
    (hB : ∀ j, 0 < j → j ≤ T → ∀ a ≤ cap, IsMin (Bset wf mf T cap j a) (B.data j a)) :
    ∃ solid dash s d, loopUp (cap + 1) (knapPaths cap (wf t) (fin (mf t)) t F B) ([], []) = some (solid, dash) ∧
      minElement solid = some s ∧ minElement dash = some d ∧
      IsMin (unionUpTo (fun i => i + wf t ≤ cap)
        (fun i => addSet (addSet (Fset wf mf t i) (Bset wf mf T cap (t + 1) (i + wf t))) {mf t}) (cap + 1)) s ∧
      IsMin (unionUpTo (fun i => i + 0 ≤ cap)
        (fun i => addSet (Fset wf mf t i) (Bset wf mf T cap (t + 1) (i + 0))) (cap + 1)) d := by
  obtain ⟨⟨solid, dash⟩, h1, -, h2⟩ := loopUp_inv (n := cap + 1)
    (body := knapPaths cap (wf t) (fin (mf t)) t F B) (s := ([], []))
    (fun n p => (n = 0 → p = ([], [])) ∧ (0 < n → ∃ s d, minElement p.1 = some s ∧ minElement p.2 = some d ∧
      IsMin (unionUpTo (fun i => i + wf t ≤ cap)
        (fun i => addSet (addSet (Fset wf mf t i) (Bset wf mf T cap (t + 1) (i + wf t))) {mf t}) n) s ∧
      IsMin (unionUpTo (fun i => i + 0 ≤ cap)
        (fun i => addSet (Fset wf mf t i) (Bset wf mf T cap (t + 1) (i + 0))) n) d))
    ⟨fun _ => rfl, fun h => absurd h (by omega)⟩
    (by
      rintro n hn ⟨so, da⟩ ⟨p0, p1⟩
      have hd : IsMin (addSet (Fset wf mf t n) (Bset wf mf T cap (t + 1) (n + 0))) (F.data t n + B.data (t + 1) n) :=
        isMin_add (hF t (by omega) n (by omega)) (hB (t + 1) (by omega) (by omega) n (by omega))
      have hs : n + wf t ≤ cap → IsMin (addSet (addSet (Fset wf mf t n) (Bset wf mf T cap (t + 1) (n + wf t))) {mf t})
          (F.data t n + B.data (t + 1) (n + wf t) + fin (mf t)) := fun h =>
        isMin_add_fin (isMin_add (hF t (by omega) n (by omega)) (hB (t + 1) (by omega) (by omega) _ h)) _
      by_cases h : n + wf t ≤ cap
      · refine ⟨(so ++ [F.data t n + B.data (t + 1) (n + wf t) + fin (mf t)], da ++ [F.data t n + B.data (t + 1) n]),
          ?_, fun e => absurd e (by omega), fun _ => ?_⟩
        · simp only [knapPaths, if_pos h, Mat.rd_of_lt (show t < F.rows by omega) (show n < F.cols by omega),
            Mat.rd_of_lt (show t + 1 < B.rows by omega) (show n < B.cols by omega),
            Mat.rd_of_lt (show t + 1 < B.rows by omega) (show n + wf t < B.cols by omega),
            Option.bind_eq_bind, Option.bind_some]
        · simp only
          rw [unionUpTo_succ_pos (c := fun i => i + wf t ≤ cap) h, unionUpTo_succ_pos (c := fun i => i + 0 ≤ cap) (n := n) (by omega)]
          rcases Nat.eq_zero_or_pos n with e | e
          · subst e
            obtain ⟨rfl, rfl⟩ := Prod.mk.inj (p0 rfl)
            rw [unionUpTo_zero, unionUpTo_zero, Set.empty_union, Set.empty_union]
            exact ⟨_, _, rfl, rfl, hs h, hd⟩
          · obtain ⟨s, d, e1, e2, e3, e4⟩ := p1 e
            exact ⟨_, _, minElement_append e1, minElement_append e2, e3.union (hs h), e4.union hd⟩
      · refine ⟨(so, da ++ [F.data t n + B.data (t + 1) n]), ?_, fun e => absurd e (by omega), fun _ => ?_⟩
        · simp only [knapPaths, if_neg h, Mat.rd_of_lt (show t < F.rows by omega) (show n < F.cols by omega),
            Mat.rd_of_lt (show t + 1 < B.rows by omega) (show n < B.cols by omega),
            Option.bind_eq_bind, Option.bind_some]
        · simp only
          rw [unionUpTo_succ_neg (c := fun i => i + wf t ≤ cap) h, unionUpTo_succ_pos (c := fun i => i + 0 ≤ cap) (n := n) (by omega)]
          obtain ⟨s, d, e1, e2, e3, e4⟩ := p1 (by omega)
          exact ⟨_, _, e1, minElement_append e2, e3, e4.union hd⟩)
  obtain ⟨s, d, e1, e2, e3, e4⟩ := h2 (by omega)
  exact ⟨solid, dash, s, d, h1, e1, e2, e3, e4⟩

/-- The value written for a team that uses the department is the message of the capacity constraint. -/
theorem knapOut_spec (ok : DeptOk T cap nz sz w wf) (hm : m.Is T mf) {t : ℕ} (hT : t < T) {F B : Mat Num}
    (hFr : F.rows = T + 1) (hFc : F.cols = cap + 1) (hBr : B.rows = T + 1) (hBc : B.cols = cap + 1)
    (hF : ∀ j ≤ T, ∀ a ≤ cap, IsMin (Fset wf mf j a) (F.data j a))
    (hB : ∀ j, 0 < j → j ≤ T → ∀ a ≤ cap, IsMin (Bset wf mf T cap j a) (B.data j a))
    {out : Arr Num} (ho : out.size = T) :
    ∃ v, knapOut cap w m F B t out = some ⟨out.size, fun k => if k = t then v else out.data k⟩ ∧
      (wf t ≠ 0 → IsMessage (users wf 0 T) (Fits wf cap) mf t v) ∧ (wf t = 0 → v = 0) := by
  by_cases hne : wf t = 0
  · refine ⟨0, ?_, fun h => absurd hne h, fun _ => rfl⟩
    simp only [knapOut, Arr.rd_of_lt (show t < w.size by rw [ok.w_size]; exact hT), ok.w_data t hT,
      Option.bind_eq_bind, Option.bind_some, hne, ne_eq, not_true_eq_false, if_false,
      Arr.wr_of_lt (show t < out.size by omega)]
  · have hfit : wf t ≤ cap := ok.fits t ((ok.mem t).mpr ⟨hT, hne⟩)
    have key : ∃ solid dash s d, (if t = 0 then
          (F.rd t t).bind fun f => (B.rd (t + 1) (wf t)).bind fun b => (B.rd (t + 1) 0).bind fun b0 =>
            some ([f + b + fin (mf t)], [f + b0])
        else loopUp (cap + 1) (knapPaths cap (wf t) (fin (mf t)) t F B) ([], [])) = some (solid, dash) ∧
        minElement solid = some s ∧ minElement dash = some d ∧
        IsMin (costs (users wf 0 T) (Fits wf cap) mf (fun S => t ∈ S)) s ∧
        IsMin (costs (users wf 0 T) (Fits wf cap) mf (fun S => t ∉ S)) d := by
      rw [costs_with hT hne, costs_without hT hne, split_sums, split_sums, addSet_unionUpTo]
      by_cases h0 : t = 0
      · subst h0
        have hs : IsMin (addSet (addSet (Fset wf mf 0 0) (Bset wf mf T cap (0 + 1) (0 + wf 0))) {mf 0})
            (F.data 0 0 + B.data (0 + 1) (0 + wf 0) + fin (mf 0)) :=
          isMin_add_fin (isMin_add (hF 0 (by omega) 0 (by omega)) (hB _ (by omega) (by omega) _ (by omega))) _
        have hd : IsMin (addSet (Fset wf mf 0 0) (Bset wf mf T cap (0 + 1) (0 + 0))) (F.data 0 0 + B.data (0 + 1) (0 + 0)) :=
          isMin_add (hF 0 (by omega) 0 (by omega)) (hB _ (by omega) (by omega) _ (by omega))
        have red : ∀ (c : ℕ → Prop) (A : ℕ → Set ℚ), c 0 → (∀ i, i ≠ 0 → A i = ∅) → unionUpTo c A (cap + 1) = A 0 := by
          intro c A hc hA
          ext q
          simp only [unionUpTo, Set.mem_ofPred_eq]
          constructor
          · rintro ⟨i, _, _, hq⟩
            by_cases h : i = 0
            · rwa [h] at hq
            · rw [hA i h] at hq; exact absurd hq (by simp)
          · intro hq; exact ⟨0, by omega, hc, hq⟩
        have emp : ∀ i, i ≠ 0 → Fset wf mf 0 i = ∅ := fun i hi => by rw [Fset_zero, if_neg hi]
        have emp2 : ∀ X : Set ℚ, addSet ∅ X = ∅ := fun X => by ext q; simp [addSet]
        rw [red _ _ (by omega) (fun i hi => by rw [emp i hi, emp2, emp2]),
          red _ _ (by omega) (fun i hi => by rw [emp i hi, emp2])]
        simp only [Nat.zero_add, Nat.add_zero] at hs hd ⊢
        refine ⟨[F.data 0 0 + B.data 1 (wf 0) + fin (mf 0)], [F.data 0 0 + B.data 1 0], _, _, ?_, rfl, rfl, hs, hd⟩
        simp only [if_true, Mat.rd_of_lt (show 0 < F.rows by omega) (show 0 < F.cols by omega),
            Mat.rd_of_lt (show 1 < B.rows by omega) (show 0 < B.cols by omega),
            Mat.rd_of_lt (show 1 < B.rows by omega) (show wf 0 < B.cols by omega), Option.bind_some]
      · rw [if_neg h0]
        exact knapPaths_spec hT hfit hFr hFc hBr hBc hF hB
    obtain ⟨solid, dash, s, d, k1, k2, k3, k4, k5⟩ := key
    refine ⟨s - d - fin (mf t), ?_, fun _ => ⟨s, d, k4, k5, rfl⟩, fun h => absurd h hne⟩
    simp only [knapOut, Arr.rd_of_lt (show t < w.size by rw [ok.w_size]; exact hT), ok.w_data t hT,
      Option.bind_eq_bind, Option.bind_some, ne_eq, hne, not_false_eq_true, if_true, hm.rd hT]
    by_cases h0 : t = 0
    · rw [if_pos h0] at k1 ⊢
      simp only [Option.bind_eq_some_iff] at k1
      obtain ⟨f, hf, b, hb, b0, hb0, e⟩ := k1
      obtain ⟨rfl, rfl⟩ := Prod.mk.inj (Option.some.inj e)
      simp only [hf, hb, hb0, Option.bind_some, k2, k3, Arr.wr_of_lt (show t < out.size by omega)]
    · rw [if_neg h0] at k1 ⊢
      simp only [k1, Option.bind_some, k2, k3, Arr.wr_of_lt (show t < out.size by omega)]

/-- The three passes together. -/
theorem knapMessages_spec (ok : DeptOk T cap nz sz w wf) (hm : m.Is T mf) {out : Arr Num} (ho : out.size = T) :
    ∃ r, knapMessages T cap nz sz w m out = some r ∧ r.size = T ∧
      ∀ t < T, (wf t ≠ 0 → IsMessage (users wf 0 T) (Fits wf cap) mf t (r.data t)) ∧ (wf t = 0 → r.data t = 0) := by
  obtain ⟨F, f1, f2, f3, f4⟩ := knapForward_spec ok hm (st := Mat.fill (T + 1) (cap + 1) 0) rfl rfl
  obtain ⟨B, b1, b2, b3, b4⟩ := knapBackward_spec ok hm (st := Mat.fill (T + 1) (cap + 1) 0) rfl rfl
  obtain ⟨r, h1, h2, h3⟩ := loopUp_inv (n := T) (body := knapOut cap w m F B) (s := out)
    (fun n r => r.size = T ∧
      ∀ t < n, (wf t ≠ 0 → IsMessage (users wf 0 T) (Fits wf cap) mf t (r.data t)) ∧ (wf t = 0 → r.data t = 0))
    ⟨ho, fun t ht => absurd ht (by omega)⟩
    (by
      rintro n hn r ⟨r1, r2⟩
      obtain ⟨v, v1, v2, v3⟩ := knapOut_spec ok hm hn f2 f3 b2 b3 f4 b4 r1
      refine ⟨_, v1, r1, ?_⟩
      intro t ht
      by_cases e : t = n
      · subst e; simpa using ⟨v2, v3⟩
      · simp only [e, if_false]; exact r2 t (by omega))
  refine ⟨r, ?_, h2, h3⟩
  simp only [knapMessages, f1, b1, Option.bind_eq_bind, Option.bind_some, knapExtrinsic, ok.w_size]
  exact h1

/-- The empty set fits, so both minima of a message exist. -/
theorem knap_message_fin {t : ℕ} (hT : t < T) (hne : wf t ≠ 0) (hfit : wf t ≤ cap) {v : Num}
    (h : IsMessage (users wf 0 T) (Fits wf cap) mf t v) : ∃ q, v = fin q := by
  obtain ⟨a, b, ha, hb, rfl⟩ := h
  obtain ⟨qa, rfl, -⟩ := ha.exists_fin ⟨_, {t}, by simp [mem_users, hT, hne], by simpa [Fits] using hfit, by simp, rfl⟩
  obtain ⟨qb, rfl, -⟩ := hb.exists_fin ⟨_, ∅, by simp, by simp [Fits], by simp, rfl⟩
  exact ⟨_, by simp; rfl⟩

end out

end Verif.Proofs
