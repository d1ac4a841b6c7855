import Verif.Proofs.KsatSym
import Verif.Proofs.KsatConstraint

/-! Bounds on the messages of the k-SAT solver: direction and dependence on the costs. -/

namespace Verif.Proofs
open Verif Num Spec Model Properties

/-- A clause message in closed form. -/
theorem clause_closed {k : ℕ} {v : ℕ → ℕ} {ty : ℕ → ℤ} {m : ℕ → ℚ} (hinj : ∀ i < k, ∀ j < k, v i = v j → i = j)
    (hty : ∀ j < k, ty j = 1 ∨ ty j = -1) (hk : 2 ≤ k) {s : ℕ} (hs : s < k) {q : ℚ}
    (h : IsMessage (clauseVars k v) (ClauseSat k v ty) m (v s) (fin q)) :
    ∃ j < k, j ≠ s ∧ (∀ i < k, i ≠ s → m (v j) * (ty j : ℚ) ≤ m (v i) * (ty i : ℚ)) ∧ q = min (-(m (v j) * (ty j : ℚ))) 0 * (ty s : ℚ) := by
  have hne : ((Finset.range k).erase s).Nonempty := by
    rw [← Finset.card_pos, Finset.card_erase_of_mem (Finset.mem_range.mpr hs), Finset.card_range]; omega
  obtain ⟨j, hj, hmin⟩ := Finset.exists_min_image ((Finset.range k).erase s) (fun j => m (v j) * (ty j : ℚ)) hne
  simp only [Finset.mem_erase, Finset.mem_range] at hj hmin
  refine ⟨j, hj.2, hj.1, fun i hi hne => hmin i ⟨hne, hi⟩, ?_⟩
  have hmsg := atLeastOne_message (vars := Finset.range k) (x := fun j => m (v j) * (ty j : ℚ)) (t := s) (Finset.mem_range.mpr hs)
    (v := fin (m (v j) * (ty j : ℚ))) (Or.inr ⟨_, rfl, ⟨j, Finset.mem_range.mpr hj.2, hj.1, rfl⟩, by
      rintro c ⟨i, hi, hne, rfl⟩; exact hmin i ⟨hne, Finset.mem_range.mp hi⟩⟩)
  obtain ⟨a, b, ha, hb, e⟩ := hmsg
  have h2 := clause_lift hinj hty (fun j _ => rfl) hs ha hb
  have h3 := h.unique h2
  beta_reduce at h3 e
  rw [← e] at h3
  rw [show cmin (-(fin (m (v j) * (ty j : ℚ)))) (fin 0) = fin (min (-(m (v j) * (ty j : ℚ))) 0) by
    rw [show -(fin (m (v j) * (ty j : ℚ))) = fin (-(m (v j) * (ty j : ℚ))) from rfl]
    unfold cmin
    simp only [Num.lt]
    by_cases h : 0 < -(m (v j) * (ty j : ℚ))
    · simp [h, min_eq_right h.le]
    · simp [h, min_eq_left (not_lt.mp h)]] at h3
  simpa using Num.fin.inj h3

/-- The message to a variable changes by at most as much as the messages of the others. -/
theorem clause_lipschitz {k : ℕ} {v : ℕ → ℕ} {ty : ℕ → ℤ} {m m' : ℕ → ℚ} (hinj : ∀ i < k, ∀ j < k, v i = v j → i = j)
    (hty : ∀ j < k, ty j = 1 ∨ ty j = -1) (hk : 2 ≤ k) {s : ℕ} (hs : s < k) {q q' ε : ℚ}
    (h : IsMessage (clauseVars k v) (ClauseSat k v ty) m (v s) (fin q)) (h' : IsMessage (clauseVars k v) (ClauseSat k v ty) m' (v s) (fin q'))
    (hm : ∀ u ∈ clauseVars k v, |m u - m' u| ≤ ε) : |q - q'| ≤ ε := by
  obtain ⟨j, hj, hjs, hmin, rfl⟩ := clause_closed hinj hty hk hs h
  obtain ⟨i, hi, his, hmin', rfl⟩ := clause_closed hinj hty hk hs h'
  have hd : ∀ l < k, |m (v l) * (ty l : ℚ) - m' (v l) * (ty l : ℚ)| ≤ ε := by
    intro l hl
    have := hm (v l) (Finset.mem_image.mpr ⟨l, Finset.mem_range.mpr hl, rfl⟩)
    rcases hty l hl with e | e
    · simpa [e] using this
    · rw [e]; push_cast
      rw [show m (v l) * -1 - m' (v l) * -1 = -(m (v l) - m' (v l)) by ring, abs_neg]; exact this
  have h1 := hmin i hi his
  have h2 := hmin' j hj hjs
  have h3 := abs_le.mp (hd i hi)
  have h4 := abs_le.mp (hd j hj)
  generalize m (v j) * (ty j : ℚ) = a at *
  generalize m' (v i) * (ty i : ℚ) = b at *
  have h0 : 0 ≤ ε := (abs_nonneg _).trans (hd j hj)
  have key : |min (-a) 0 - min (-b) 0| ≤ ε := by
    rw [abs_le]
    rcases min_cases (-a) 0 with ⟨e1, e2⟩ | ⟨e1, e2⟩ <;> rcases min_cases (-b) 0 with ⟨e3, e4⟩ | ⟨e3, e4⟩ <;> rw [e1, e3] <;>
      constructor <;> linarith
  rw [← sub_mul, abs_mul]
  rcases hty s hs with e | e <;> simpa [e] using key

theorem damped_sub (flag : Bool) (alpha : ℚ) (r r' : ℕ → ℚ) (j : ℕ) :
    damped flag alpha r j - damped flag alpha r' j = damped flag alpha (fun i => r i - r' i) j := by
  unfold damped
  split
  · rw [← mul_sub, ← Finset.sum_sub_distrib]
    congr 1
    exact Finset.sum_congr rfl fun i _ => by ring
  · rfl

theorem damped_nonneg {flag : Bool} {alpha : ℚ} (ha : flag = true → 0 ≤ alpha ∧ alpha ≤ 1) {r : ℕ → ℚ} (hr : ∀ j, 0 ≤ r j) (k : ℕ) :
    0 ≤ damped flag alpha r k := by
  cases flag with
  | true =>
    unfold damped
    split
    · exact mul_nonneg (by linarith [(ha rfl).2]) (Finset.sum_nonneg fun j _ => mul_nonneg (pow_nonneg (ha rfl).1 _) (hr j))
    · exact hr k
  | false => simpa [damped] using hr k

theorem damped_nonpos {flag : Bool} {alpha : ℚ} (ha : flag = true → 0 ≤ alpha ∧ alpha ≤ 1) {r : ℕ → ℚ} (hr : ∀ j, r j ≤ 0) (k : ℕ) :
    damped flag alpha r k ≤ 0 := by
  have h := damped_nonneg ha (r := fun i => -1 * r i) (fun j => by linarith [hr j]) k
  rw [damped_smul] at h
  linarith

theorem damped_le {flag : Bool} {alpha : ℚ} (ha : flag = true → 0 ≤ alpha ∧ alpha ≤ 1) {r : ℕ → ℚ} {lo hi : ℚ} (hlo : lo ≤ 0)
    (hhi : 0 ≤ hi) {k : ℕ} (hr : ∀ j ≤ k, lo ≤ r j ∧ r j ≤ hi) : lo ≤ damped flag alpha r k ∧ damped flag alpha r k ≤ hi := by
  cases flag with
  | true => exact damped_range (ha rfl).1 (ha rfl).2 hlo hhi hr
  | false => simpa [damped] using hr k le_rfl

section
variable {n k : ℕ} {t : KsatTables} (hf : KFormula n k t.clauses t.used t.conns) (hk : 2 ≤ k) {flag : Bool} {alpha : ℚ}
include hf hk

/-- Clause messages never push a variable away from satisfying the clause. -/
theorem message_sign {w : ℕ → ℚ} {x0 : ℕ → ℕ → ℚ} {x r : ℕ → ℕ → ℕ → ℚ}
    (h : IsKsatTrace t.clauses.length k n ⟨t.clauses.length, k, litVar t⟩ ⟨t.clauses.length, k, litSign t⟩ w flag alpha x0 x r)
    (j : ℕ) {c : ℕ} (hc : c < t.clauses.length) {v : ℕ} {g : ℤ} (hl : (v, g) ∈ t.clauses.getD c []) :
    (g = 1 → r j c v ≤ 0) ∧ (g = -1 → 0 ≤ r j c v) := by
  obtain ⟨s, hs, e⟩ := mem_lit hf hc hl
  obtain ⟨rfl, rfl⟩ := Prod.mk.inj e
  have hm := h.clause j c hc (litVar t c s) (Finset.mem_image.mpr ⟨s, Finset.mem_range.mpr hs, rfl⟩)
  obtain ⟨i, -, -, -, hq⟩ := clause_closed (lit_inj hf hc) (fun _ hs => lit_sign hf hc hs) hk hs hm
  rw [hq]
  constructor
  · intro e; rw [e]; simp
  · intro e; rw [e]; simp

variable {w w' : ℕ → ℚ} {δ : ℚ} {D : ℕ} {x r x' r' : ℕ → ℕ → ℕ → ℚ} (hw : ∀ v ∈ t.used, |w v - w' v| ≤ δ) (h0 : 0 ≤ δ)
  (ha : flag = true → 0 ≤ alpha ∧ alpha ≤ 1)
  (hD : ∀ v ∈ t.used, (occurrences t.clauses.length k ⟨t.clauses.length, k, litVar t⟩ v).card ≤ D + 1)
  (h : IsKsatTrace t.clauses.length k n ⟨t.clauses.length, k, litVar t⟩ ⟨t.clauses.length, k, litSign t⟩ w flag alpha
        (fun c v => if ∃ s < k, litVar t c s = v then w v else 0) x r)
  (h' : IsKsatTrace t.clauses.length k n ⟨t.clauses.length, k, litVar t⟩ ⟨t.clauses.length, k, litSign t⟩ w' flag alpha
        (fun c v => if ∃ s < k, litVar t c s = v then w' v else 0) x' r')
include hw h0 ha hD h h'

theorem trace_stable (j : ℕ) : ∀ i ≤ j, ∀ c < t.clauses.length, ∀ v ∈ clauseVars k (litVar t c),
    |r i c v - r' i c v| ≤ δ * ∑ l ∈ Finset.range (j + 1), (D : ℚ) ^ l := by
  have hused : ∀ c < t.clauses.length, ∀ v ∈ clauseVars k (litVar t c), v ∈ t.used := fun c hc v hv =>
    vars_used hf hc (by rw [← clauseVars_eq hf hc]; exact hv)
  have hr : ∀ j (ε : ℚ), (∀ c < t.clauses.length, ∀ v ∈ clauseVars k (litVar t c), |x j c v - x' j c v| ≤ ε) →
      ∀ c < t.clauses.length, ∀ v ∈ clauseVars k (litVar t c), |r j c v - r' j c v| ≤ ε := by
    intro j ε hx c hc v hv
    obtain ⟨s, hs, rfl⟩ := Finset.mem_image.mp hv
    exact clause_lipschitz (lit_inj hf hc) (fun _ hs => lit_sign hf hc hs) hk (Finset.mem_range.mp hs) (h.clause j c hc _ hv) (h'.clause j c hc _ hv)
      (hx c hc)
  induction j with
  | zero =>
    intro i hi c hc v hv
    obtain rfl : i = 0 := by omega
    refine hr 0 _ (fun c hc v hv => ?_) c hc v hv
    have m1 : ∃ s < k, litVar t c s = v := by simpa [clauseVars] using hv
    have hu := hused c hc v hv
    rw [h.init c hc v (hf.tables.used_lt v hu), h'.init c hc v (hf.tables.used_lt v hu), if_pos m1, if_pos m1]
    simpa using hw v hu
  | succ j ih =>
    have hmono : δ * ∑ l ∈ Finset.range (j + 1), (D : ℚ) ^ l ≤ δ * ∑ l ∈ Finset.range (j + 1 + 1), (D : ℚ) ^ l := by
      refine mul_le_mul_of_nonneg_left ?_ h0
      rw [Finset.sum_range_succ _ (j + 1)]
      linarith [pow_nonneg (Nat.cast_nonneg (α := ℚ) D) (j + 1)]
    intro i hi c hc v hv
    rcases Nat.lt_or_ge i (j + 1) with hlt | hge
    · exact (ih i (by omega) c hc v hv).trans hmono
    · obtain rfl : i = j + 1 := by omega
      refine hr (j + 1) _ (fun c hc v hv => ?_) c hc v hv
      have hu := hused c hc v hv
      rw [h.var j c hc v hv, h'.var j c hc v hv]
      set O := (occurrences t.clauses.length k ⟨t.clauses.length, k, litVar t⟩ v).erase c with hO
      have hcO : c ∈ occurrences t.clauses.length k ⟨t.clauses.length, k, litVar t⟩ v := Finset.mem_filter.mpr ⟨Finset.mem_range.mpr hc, hv⟩
      have hcard : O.card ≤ D := by
        rw [hO, Finset.card_erase_of_mem hcO]
        have := hD v hu
        omega
      set ε := δ * ∑ l ∈ Finset.range (j + 1), (D : ℚ) ^ l with hε
      have hε0 : 0 ≤ ε := mul_nonneg h0 (Finset.sum_nonneg fun l _ => pow_nonneg (Nat.cast_nonneg (α := ℚ) D) l)
      have hsum : |∑ d ∈ O, damped flag alpha (fun i => r i d v) j - ∑ d ∈ O, damped flag alpha (fun i => r' i d v) j| ≤ D * ε := by
        rw [← Finset.sum_sub_distrib]
        refine (Finset.abs_sum_le_sum_abs _ _).trans ((Finset.sum_le_card_nsmul _ _ ε fun d hd => ?_).trans ?_)
        · have hm := Finset.mem_filter.mp (Finset.mem_of_mem_erase hd)
          rw [damped_sub]
          refine abs_le.mpr (damped_le ha (by linarith) hε0 fun i hi => abs_le.mp (ih i hi d (Finset.mem_range.mp hm.1) v hm.2))
        · rw [nsmul_eq_mul]
          exact mul_le_mul_of_nonneg_right (by exact_mod_cast hcard) hε0
      have hstep : δ + D * ε = δ * ∑ l ∈ Finset.range (j + 1 + 1), (D : ℚ) ^ l := by
        rw [Finset.sum_range_succ', hε, mul_add, Finset.mul_sum, Finset.mul_sum, Finset.mul_sum, pow_zero, mul_one, add_comm]
        congr 1
        exact Finset.sum_congr rfl fun l _ => by ring
      rw [← hstep]
      have := hw v hu
      rw [abs_le] at *
      constructor <;> linarith [this.1, this.2, hsum.1, hsum.2]

theorem belief_stable (K : ℕ) {v : ℕ} (hv : v ∈ t.used) :
    |((∑ c ∈ occurrences t.clauses.length k ⟨t.clauses.length, k, litVar t⟩ v, damped flag alpha (fun i => r i c v) K) + w v) -
      ((∑ c ∈ occurrences t.clauses.length k ⟨t.clauses.length, k, litVar t⟩ v, damped flag alpha (fun i => r' i c v) K) + w' v)| ≤
      δ * (1 + (D + 1) * ∑ l ∈ Finset.range (K + 1), (D : ℚ) ^ l) := by
  have ht := trace_stable hf hk hw h0 ha hD h h' K
  set ε := δ * ∑ l ∈ Finset.range (K + 1), (D : ℚ) ^ l with hε
  have hε0 : 0 ≤ ε := mul_nonneg h0 (Finset.sum_nonneg fun l _ => pow_nonneg (Nat.cast_nonneg (α := ℚ) D) l)
  set O := occurrences t.clauses.length k ⟨t.clauses.length, k, litVar t⟩ v with hO
  have hsum : |∑ d ∈ O, damped flag alpha (fun i => r i d v) K - ∑ d ∈ O, damped flag alpha (fun i => r' i d v) K| ≤ (D + 1) * ε := by
    rw [← Finset.sum_sub_distrib]
    refine (Finset.abs_sum_le_sum_abs _ _).trans ((Finset.sum_le_card_nsmul _ _ ε fun d hd => ?_).trans ?_)
    · have hm := Finset.mem_filter.mp hd
      rw [damped_sub]
      refine abs_le.mpr (damped_le ha (by linarith) hε0 fun i hi => abs_le.mp (ht i hi d (Finset.mem_range.mp hm.1) v hm.2))
    · rw [nsmul_eq_mul]
      exact mul_le_mul_of_nonneg_right (by exact_mod_cast hD v hv) hε0
  have e : δ * (1 + (D + 1) * ∑ l ∈ Finset.range (K + 1), (D : ℚ) ^ l) = δ + (D + 1) * ε := by rw [hε]; ring
  rw [e]
  have := hw v hv
  rw [abs_le] at *
  constructor <;> linarith [this.1, this.2, hsum.1, hsum.2]

end
end Verif.Proofs
