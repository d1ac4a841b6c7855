import Verif.Proofs.KcOptimal
import Verif.Properties.KcCall

/-! # C62: if all teams together fit their units, the assignment solver finds the cheapest assignment -/

namespace Verif.Properties
open Verif Num Spec Model

section
variable {D T P : ℕ} {wf : ℕ → ℕ → ℕ} {cap : ℕ → ℕ} {w : ℕ → ℚ} {R : ℕ → ℕ → ℚ} {flag : Bool} {alpha : ℚ}
  {limit : Option ℚ} {a0 : ℕ → ℕ → ℚ} {a raw o y e : ℕ → ℕ → ℕ → ℚ} {c : ℕ → ℕ → ℚ} {m : ℕ → Option ℕ} {gap B q : ℚ}

/-- C62, the algorithm.  If all teams together fit and every other assignment costs at least `gap` more than `m`, then after enough
iterations (the bound is explicit) the beliefs of the pairs of `m` are at most `-2 gap / (T + 1)` and those of all other pairs at least
`gap / (T + 1)`; `B` bounds the costs of the teams and of the pairs of `m`.  This holds with and without damping and with and without the limit on team messages. -/
theorem C62_beliefs (ht : IsKcTrace D T P wf cap w R flag alpha limit a0 a raw o y e c) (hfit : AllFit D T wf cap) (hg : 0 < gap)
    (hb : BestBy gap T P (fun t p => w t + R p t) m) (hw : ∀ t < T, |w t| ≤ B) (hR : ∀ t < T, ∀ p, m t = some p → |R p t| ≤ B)
    {K : ℕ} (hK : (T + 1) * B + gap ≤ K * gap) :
    ∀ t < T, ∀ p < P, (m t = some p → o K p t + y K p t + R p t ≤ -(2 * (gap / (T + 1)))) ∧
      (m t ≠ some p → gap / (T + 1) ≤ o K p t + y K p t + R p t) := by
  obtain ⟨u, v, hp⟩ := Proofs.exists_prices hg hb
  have hT : (0 : ℚ) < T + 1 := by positivity
  refine Proofs.pair_beliefs ht hfit hp (div_pos hg hT).le hw hR ?_
  rw [← sub_nonneg] at hK ⊢
  have : (K : ℚ) * (gap / (T + 1)) - (B + gap / (T + 1)) = (K * gap - ((T + 1) * B + gap)) / (T + 1) := by field_simp
  rw [this]
  exact div_nonneg hK hT.le

/-- C62, how to recognise the hypothesis.  An assignment is cheaper than all others if and only if there are prices for teams and projects
that pay exactly for its pairs and, with a positive rest, for no other pair. -/
theorem C62_certificate {C : ℕ → ℕ → ℚ} : (∃ gap > 0, BestBy gap T P C m) ↔ ∃ (u v : ℕ → ℚ) (δ : ℚ), 0 < δ ∧ Prices T P C m u v δ := by
  constructor
  · rintro ⟨gap, hg, hb⟩
    obtain ⟨u, v, h⟩ := Proofs.exists_prices hg hb
    exact ⟨u, v, _, div_pos hg (by positivity), h⟩
  · rintro ⟨u, v, δ, h0, h⟩
    exact ⟨δ, h0, Proofs.best_of_prices h0.le h⟩

/-- C62, the native solver: the returned beliefs tell the pairs of the cheapest assignment from all others. -/
theorem C62_solver {inp : KcInputs} (h : KcOk inp wf cap w R) {A : Mat Num} (hA : A.Is inp.numDepartments inp.numTeams a0)
    (hfit : AllFit inp.numDepartments inp.numTeams wf cap) (hg : 0 < gap)
    (hb : BestBy gap inp.numTeams inp.numProjects (fun t p => w t + R p t) m) (hw : ∀ t < inp.numTeams, |w t| ≤ B)
    (hR : ∀ t < inp.numTeams, ∀ p, m t = some p → |R p t| ≤ B) {K : ℕ} (hK : (inp.numTeams + 1) * B + gap ≤ K * gap)
    (hq0 : q < gap / (inp.numTeams + 1)) (hq : -(2 * (gap / (inp.numTeams + 1))) < q) :
    ∃ ext intr, kcSolve inp A (K + 1) = some (ext, intr) ∧ intr.size = inp.numProjects * inp.numTeams ∧
      ∀ p < inp.numProjects, ∀ t < inp.numTeams, ∃ b : ℚ, intr.data (p * inp.numTeams + t) = fin b ∧ (b < q ↔ m t = some p) := by
  obtain ⟨⟨a, raw, o, y, e, c, ht⟩, hrun⟩ := C11_run h hA
  obtain ⟨ext, intr, h1, -, h3, h4⟩ := hrun a raw o y e c ht (K + 1)
  refine ⟨ext, intr, h1, h3, fun p hp t htT => ⟨_, h4 p hp t htT, ?_⟩⟩
  have hbel := C62_beliefs ht hfit hg hb hw hR hK t htT p hp
  constructor
  · intro hlt
    by_contra hne
    exact absurd ((hbel.2 hne).trans hlt.le) (not_le.mpr hq0)
  · intro he
    exact (hbel.1 he).trans_lt hq

end

section
variable {d : TeamData} {caps types : List ℕ} {combos : List (ℕ × ℕ)} {count : ℕ × ℕ × ℕ → ℕ} {P : ℕ} {w : ℕ → ℚ} {R : ℕ → ℕ → ℚ}
  {flag : Bool} {alpha : ℚ} {m : ℕ → Option ℕ} {gap B q : ℚ}

/-- If the pairs with a belief below the threshold are those of an assignment whose teams respect all capacities, then the call reports this
assignment. -/
theorem report_assignment (h : KcCallOk d caps types combos count) (hP : 0 < P) {L : List (ℕ × ℕ × ℕ)} (hL : L = teams combos types count)
    {a raw o y e : ℕ → ℕ → ℕ → ℚ} {c : ℕ → ℕ → ℚ} (ht : TeamTrace caps L P w R flag alpha a raw o y e c) {K : ℕ} (hq0 : q ≤ 0)
    (hm : Assignment L.length P m) (hiff : ∀ p < P, ∀ t < L.length, (pairBelief R o y K p t < q ↔ m t = some p))
    (hfit : ∀ x < caps.length, ∑ t ∈ (Finset.range L.length).filter (fun t => m t ≠ none), weightOf L x t ≤ caps.getD x 0) (post byTeams : Bool) :
    ∃ r, kcCall d (K + 1) flag alpha post (if byTeams then 2 else 1) (fin q) (inputFile caps types L.length P w R) = some r ∧
      r.kept.Pairwise (· < ·) ∧ (∀ t, t ∈ r.kept ↔ t < L.length ∧ m t ≠ none) ∧
      r.entries = r.kept.map (fun t => (((L.getD t (0, 0, 0)).1, (L.getD t (0, 0, 0)).2.1), (L.getD t (0, 0, 0)).2.2,
        [t + 1], [(m t).getD 0 + 1])) := by
  have hmatch : IsMatching P L.length (fun p t => pairBelief R o y K p t < q) := by
    constructor
    · rintro ⟨p, t⟩ h1 ⟨p', t'⟩ h2 he
      simp only [chosen, Finset.mem_filter, Finset.mem_product, Finset.mem_range, decide_eq_true_eq] at h1 h2 he
      subst he
      have e1 := (hiff p h1.1.1 t h1.1.2).mp h1.2
      have e2 := (hiff p h2.1.1 t' h2.1.2).mp h2.2
      rw [hm.inj t h1.1.2 t' h2.1.2 p e1 e2]
    · rintro ⟨p, t⟩ h1 ⟨p', t'⟩ h2 he
      simp only [chosen, Finset.mem_filter, Finset.mem_product, Finset.mem_range, decide_eq_true_eq] at h1 h2 he
      subst he
      have e1 := (hiff p h1.1.1 t h1.1.2).mp h1.2
      have e2 := (hiff p' h2.1.1 t h2.1.2).mp h2.2
      rw [e1] at e2
      rw [Option.some.inj e2]
  let sel := (List.range L.length).filter (fun t => m t ≠ none)
  have hselm : ∀ t, t ∈ sel ↔ t < L.length ∧ m t ≠ none := by intro t; simp [sel]
  have hsel : ∀ t, t ∈ sel ↔ t < L.length ∧ ∃ p < P, pairBelief R o y K p t < q := by
    intro t
    rw [hselm]
    refine and_congr_right fun htT => ⟨fun hne => ?_, ?_⟩
    · obtain ⟨p, hp⟩ := Option.ne_none_iff_exists'.mp hne
      exact ⟨p, hm.lt t htT p hp, (hiff p (hm.lt t htT p hp) t htT).mpr hp⟩
    · rintro ⟨p, hp, hlt⟩
      rw [(hiff p hp t htT).mp hlt]; simp
  have hasc : sel.Pairwise (· < ·) := (List.pairwise_lt_range).filter _
  have hover : ∀ u, ¬ Over caps L sel u := by
    rintro u ⟨h1, h2, h3⟩
    have h4 := hfit (u - 1) (by omega)
    have h5 : load L sel u = ∑ t ∈ (Finset.range L.length).filter (fun t => m t ≠ none), weightOf L (u - 1) t := by
      unfold load
      rw [← List.sum_toFinset _ (hasc.imp fun h => h.ne)]
      have : ∀ t, need (L.getD t (0, 0, 0)) u = weightOf L (u - 1) t := fun t => by rw [weightOf, show u - 1 + 1 = u by omega]
      simp only [this]
      refine Finset.sum_congr ?_ fun _ _ => rfl
      ext t
      rw [List.mem_toFinset, hselm, Finset.mem_filter, Finset.mem_range]
    omega
  obtain ⟨r, r1, r2, r3, r4⟩ := C54_matching h hP hL ht K hq0 hmatch hasc hsel hover post byTeams
  refine ⟨r, r1, by rw [r2]; exact hasc, fun t => by rw [r2]; exact hselm t, ?_⟩
  rw [r2]
  refine List.ext_getElem? fun n => ?_
  by_cases hn : n < sel.length
  · have hg' : sel[n]? = some sel[n] := List.getElem?_eq_getElem hn
    obtain ⟨p, hp, hlt, he⟩ := r4 n _ hg'
    have htT := ((hselm _).mp (List.getElem_mem hn)).1
    rw [he, List.getElem?_map, hg', Option.map_some, (hiff p hp _ htT).mp hlt]
    rfl
  · rw [List.getElem?_eq_none (by omega), List.getElem?_eq_none (by rw [List.length_map]; omega)]

/-- C62, the whole run of main_kc_mwm.  If all generated teams together fit their units and one assignment is cheaper than all others, then
from an explicit number of iterations on the run reports exactly this assignment, with and without post-processing: the kept teams are
those with a project, and each is reported with its units, its type and its project (numbered from 1). -/
theorem C62_call (h : KcCallOk d caps types combos count) (hP : 0 < P) {L : List (ℕ × ℕ × ℕ)} (hL : L = teams combos types count)
    (hfit : AllFit caps.length L.length (weightOf L) (fun d => caps.getD d 0)) (hg : 0 < gap)
    (hb : BestBy gap L.length P (fun t p => w t + R p t) m) (hw : ∀ t < L.length, |w t| ≤ B) (hR : ∀ t < L.length, ∀ p, m t = some p → |R p t| ≤ B)
    {K : ℕ} (hK : (L.length + 1) * B + gap ≤ K * gap) (hq0 : q ≤ 0) (hq : -(2 * (gap / (L.length + 1))) < q) (post byTeams : Bool) :
    ∃ r, kcCall d (K + 1) flag alpha post (if byTeams then 2 else 1) (fin q) (inputFile caps types L.length P w R) = some r ∧
      r.kept.Pairwise (· < ·) ∧ (∀ t, t ∈ r.kept ↔ t < L.length ∧ m t ≠ none) ∧
      r.entries = r.kept.map (fun t => (((L.getD t (0, 0, 0)).1, (L.getD t (0, 0, 0)).2.1), (L.getD t (0, 0, 0)).2.2,
        [t + 1], [(m t).getD 0 + 1])) := by
  obtain ⟨a, raw, o, y, e, c, ht⟩ := (C54_call (w := w) (R := R) (flag := flag) (alpha := alpha) h hP hL).1
  have hbel := C62_beliefs ht hfit hg hb hw hR hK
  have hT : (0 : ℚ) < L.length + 1 := by positivity
  have hδ : 0 < gap / (L.length + 1) := div_pos hg hT
  have hiff : ∀ p < P, ∀ t < L.length, (pairBelief R o y K p t < q ↔ m t = some p) := by
    intro p hp t htT
    have := hbel t htT p hp
    constructor
    · intro hlt
      by_contra hne
      have h1 := this.2 hne
      have h2 : pairBelief R o y K p t < q := hlt
      unfold pairBelief at h2
      linarith
    · intro he
      exact (this.1 he).trans_lt hq
  refine report_assignment h hP hL ht hq0 hb.1 hiff (fun x hx => le_trans ?_ (hfit x hx)) post byTeams
  exact Finset.sum_le_sum_of_subset (Finset.filter_subset _ _)

/-- C62, when the hypothesis on the capacities holds: with a single type of teams without weasels (type 1 or 3), all generated teams
together always fit. -/
theorem C62_one_type (h : KcCallOk d caps types combos count) {L : List (ℕ × ℕ × ℕ)} (hL : L = teams combos types count)
    (ht : types = [1] ∨ types = [3]) : AllFit caps.length L.length (weightOf L) (fun d => caps.getD d 0) := by
  obtain ⟨l, hl, hnd, -⟩ := C41_pruned h.known
  obtain rfl : l = combos := by rw [h.pruned] at hl; exact (Option.some.inj hl).symm
  obtain ⟨t, hty, hcrew, ht1⟩ : ∃ t, types = [t] ∧ (crew t).2 = 0 ∧ t ∈ types := by
    rcases ht with rfl | rfl
    · exact ⟨1, rfl, rfl, by simp⟩
    · exact ⟨3, rfl, rfl, by simp⟩
  intro x hx
  -- the total weight, kind by kind
  have h1 : ∑ i ∈ Finset.range L.length, weightOf L x i = (L.map (fun k => need k (x + 1))).sum := by
    rw [Finset.sum_range, ← List.sum_ofFn]
    congr 1
    refine List.ext_getElem (by simp) fun i h1 h2 => ?_
    simp only [List.length_ofFn] at h1
    simp [weightOf, h1]
  have h2 : (L.map (fun k => need k (x + 1))).sum = (l.map (fun c => count (c.1, c.2, t) * need (c.1, c.2, t) (x + 1))).sum := by
    rw [hL, hty]
    unfold teams
    clear hnd hl hL h1 h
    induction l with
    | nil => rfl
    | cons c l ih =>
      rw [List.flatMap_cons, List.map_append, List.sum_append, ih, List.map_cons, List.sum_cons]
      simp [List.map_replicate, List.sum_replicate]
  have hzero : ∀ c ∈ l, c ≠ (x + 1, x + 1) → count (c.1, c.2, t) * need (c.1, c.2, t) (x + 1) = 0 := by
    intro c hc hne
    have hcnt := h.counts c hc t ht1
    by_cases hr : RealKind (c.1, c.2, t)
    · have he : c.1 = c.2 := by
        rcases hr with hr | hr
        · exact absurd hcrew hr
        · exact hr
      have : x + 1 ≠ c.1 := fun e => hne (Prod.ext e.symm (by simp only; omega))
      unfold need
      rw [if_neg this, if_neg (by rw [← he]; exact this)]
      simp
    · rw [hcnt.2 hr, zero_mul]
  have hsum : ∀ l' : List (ℕ × ℕ), l'.Nodup → (∀ c ∈ l', c ∈ l) →
      (l'.map (fun c => count (c.1, c.2, t) * need (c.1, c.2, t) (x + 1))).sum ≤
        if (x + 1, x + 1) ∈ l' then count (x + 1, x + 1, t) * need (x + 1, x + 1, t) (x + 1) else 0 := by
    intro l'
    induction l' with
    | nil => intro _ _; simp
    | cons c l' ih =>
      intro hn hs
      obtain ⟨n1, n2⟩ := List.nodup_cons.mp hn
      have hi := ih n2 fun c hc => hs c (List.mem_cons_of_mem _ hc)
      rw [List.map_cons, List.sum_cons]
      by_cases hc : c = (x + 1, x + 1)
      · subst hc
        rw [if_neg n1] at hi
        rw [if_pos (by simp)]
        simp only at hi ⊢
        omega
      · rw [hzero c (hs c (by simp)) hc, zero_add]
        refine hi.trans ?_
        by_cases hm : (x + 1, x + 1) ∈ l'
        · rw [if_pos hm, if_pos (List.mem_cons_of_mem _ hm)]
        · rw [if_neg hm]; exact Nat.zero_le _
  rw [h1, h2]
  refine (hsum l hnd fun c hc => hc).trans ?_
  split
  · next hmem =>
    have hcnt := ((h.counts _ hmem t ht1).1 (Or.inr rfl)).1 (x + 1)
    simpa [unitCap] using hcnt
  · exact Nat.zero_le _
end

/-- Costs of three teams (one of unit 1, two of unit 2) for two projects; team 0 likes project 0 best, but must leave it to team 1. -/
def c62Cost (t p : ℕ) : ℚ := ([[-5, -4], [-4, -1], [2, -2]].getD t []).getD p 0

def c62Best (t : ℕ) : Option ℕ := [some 1, some 0, none].getD t none

theorem c62_prices : Prices 3 2 c62Cost c62Best (fun t => [-3 / 2, -1 / 4, 0].getD t 0) (fun p => [-15 / 4, -5 / 2].getD p 0) (1 / 4) := by
  refine ⟨⟨?_, ?_⟩, ?_, ?_, ?_, ?_, ?_, ?_⟩
  · intro t ht p h; interval_cases t <;> simp [c62Best] at h <;> omega
  · intro t ht t' ht' p h h'
    interval_cases t <;> simp [c62Best] at h <;> interval_cases t' <;> simp [c62Best] at h' <;> omega
  · intro t ht p h; interval_cases t <;> simp [c62Best] at h <;> subst h <;> norm_num [c62Cost]
  · intro t ht h; interval_cases t <;> simp [c62Best] at h <;> norm_num
  · intro t ht h; interval_cases t <;> simp [c62Best] at h <;> norm_num
  · intro t ht p h; interval_cases t <;> simp [c62Best] at h <;> subst h <;> norm_num
  · intro p hp h
    interval_cases p
    · exact absurd rfl (h 1 (by omega))
    · exact absurd rfl (h 0 (by omega))
  · intro t ht p hp h
    interval_cases t <;> interval_cases p <;> simp [c62Best] at h <;> norm_num [c62Cost]

theorem c62_best : BestBy (1 / 4) 3 2 (fun t p => (fun _ => (0 : ℚ)) t + (fun p t => c62Cost t p) p t) c62Best := by
  have h := Proofs.best_of_prices (by norm_num) c62_prices
  simpa using h

/-- The teams of two units with capacities 1 and 2, of type 1. -/
theorem c62_ok : KcCallOk flatData [1, 2] [1] [(1, 1), (1, 2), (2, 2)] (fun k => if k.1 = k.2.1 then k.1 else 0) := by
  have hneed : ∀ (u v x : ℕ), need (u, v, 1) x = (if x = u then 1 else 0) + (if x = v then 0 else 0) := by intro u v x; rfl
  have hreal : ∀ c ∈ [(1, 1), (1, 2), (2, 2)], RealKind (c.1, c.2, 1) → c = (1, 1) ∨ c = (2, 2) := by
    intro c hc hr
    simp only [List.mem_cons, List.not_mem_nil, or_false] at hc
    rcases hc with rfl | rfl | rfl
    · exact Or.inl rfl
    · rcases hr with hr | hr
      · exact absurd rfl hr
      · simp at hr
    · exact Or.inr rfl
  refine ⟨by decide, by decide, by decide +kernel, by unfold TypesOk; decide, by decide, fun c hc t ht hr x => ?_, fun c hc t ht => ?_⟩
  · obtain rfl := List.mem_singleton.mp ht
    rw [hneed]
    rcases hreal c hc hr with rfl | rfl
    · by_cases hx : x = 1
      · subst hx; decide
      · simp [hx]
    · by_cases hx : x = 2
      · subst hx; decide
      · simp [hx]
  · obtain rfl := List.mem_singleton.mp ht
    refine ⟨fun hr => ?_, fun hr => ?_⟩
    · rcases hreal c hc hr with rfl | rfl
      · refine ⟨fun x => ?_, fun m hm => ?_⟩
        · by_cases hx : x = 1
          · subst hx; decide
          · rw [hneed]; simp [hx]
        · have h1 := hm 1
          rw [hneed] at h1; simp [unitCap] at h1 ⊢; omega
      · refine ⟨fun x => ?_, fun m hm => ?_⟩
        · by_cases hx : x = 2
          · subst hx; decide
          · rw [hneed]; simp [hx]
        · have h1 := hm 2
          rw [hneed] at h1; simp [unitCap] at h1 ⊢; omega
    · simp only [List.mem_cons, List.not_mem_nil, or_false] at hc
      rcases hc with rfl | rfl | rfl
      · exact absurd (Or.inr rfl) hr
      · rfl
      · exact absurd (Or.inr rfl) hr

/-- The hypotheses of C62_call hold here, so 82 iterations are enough for every damping and either order of post-processing. -/
example (flag : Bool) (alpha : ℚ) (post byTeams : Bool) :
    ∃ r, kcCall flatData 82 flag alpha post (if byTeams then 2 else 1) (fin 0) (inputFile [1, 2] [1] 3 2 (fun _ => 0) (fun p t => c62Cost t p)) = some r ∧
      r.kept.Pairwise (· < ·) ∧ (∀ t, t ∈ r.kept ↔ t < 3 ∧ c62Best t ≠ none) := by
  have hL : [(1, 1, 1), (2, 2, 1), (2, 2, 1)] = teams [(1, 1), (1, 2), (2, 2)] [1] (fun k => if k.1 = k.2.1 then k.1 else 0) := by decide
  obtain ⟨r, h1, h2, h3, -⟩ := C62_call (w := fun _ => 0) (R := fun p t => c62Cost t p) (flag := flag) (alpha := alpha) (K := 81) (B := 5) (q := 0)
    c62_ok (by norm_num : 0 < 2) hL (C62_one_type c62_ok hL (Or.inl rfl)) (by norm_num) c62_best (fun t _ => by norm_num)
    (fun t ht p hp => by
      simp only [List.length_cons, List.length_nil] at ht
      interval_cases t <;> simp [c62Best] at hp <;> subst hp <;> norm_num [c62Cost, abs_le]) (by norm_num) le_rfl (by norm_num) post byTeams
  exact ⟨r, h1, h2, h3⟩

set_option synthInstance.maxSize 1000 in
/-- Evaluated: already nine iterations are enough. -/
example : (kcCall flatData 9 false 0 true 1 (fin 0) (inputFile [1, 2] [1] 3 2 (fun _ => 0) (fun p t => c62Cost t p))).map
    (fun r => (r.kept, r.entries.map (fun e => (e.1, e.2.1)), r.entries.map (fun e => e.2.2))) =
    some ([0, 1], [((1, 1), 1), ((2, 2), 1)], [([1], [2]), ([2], [1])]) := by decide +kernel

set_option synthInstance.maxSize 1000 in
/-- After one iteration both teams still ask for project 0. -/
example : (kcCall flatData 1 false 0 false 1 (fin 0) (inputFile [1, 2] [1] 3 2 (fun _ => 0) (fun p t => c62Cost t p))).map
    (fun r => (r.kept, r.entries.map (fun e => (e.1, e.2.1)), r.entries.map (fun e => e.2.2))) ≠
    some ([0, 1], [((1, 1), 1), ((2, 2), 1)], [([1], [2]), ([2], [1])]) := by decide +kernel

end Verif.Properties
