import Verif.Proofs.TspStable
import Verif.Proofs.KsatStable
import Verif.Spec.Growth
import Mathlib.Data.List.GetD

/-! How messages grow. -/

namespace Verif.Proofs
open Verif Num Spec Model

/-- The magnitude of the messages of the rules after `j` iterations. -/
def level (c : ℚ) (d j : ℕ) : ℚ := c * ∑ l ∈ Finset.range (j + 1), (d : ℚ) ^ l

theorem level_succ (c : ℚ) (d j : ℕ) : level c d (j + 1) = c + d * level c d j := by
  unfold level
  rw [Finset.sum_range_succ' _ (j + 1)]
  simp only [pow_succ, pow_zero]
  rw [← Finset.sum_mul]
  ring

theorem level_nonneg {c : ℚ} (hc : 0 ≤ c) (d j : ℕ) : 0 ≤ level c d j :=
  mul_nonneg hc (Finset.sum_nonneg fun _ _ => by positivity)

section
variable {n k : ℕ} {t : KsatTables} (hf : KFormula n k t.clauses t.used t.conns) (hk : 2 ≤ k) {flag : Bool} {alpha : ℚ} {w : ℕ → ℚ}
  {x r : ℕ → ℕ → ℕ → ℚ}
include hf hk

/-- Without costs there are no messages. -/
theorem zero_trace (h : IsKsatTrace t.clauses.length k n ⟨t.clauses.length, k, litVar t⟩ ⟨t.clauses.length, k, litSign t⟩ (fun _ => 0) flag alpha
      (fun c v => if ∃ s < k, litVar t c s = v then 0 else 0) x r) (j : ℕ) :
    ∀ i ≤ j, ∀ c < t.clauses.length, ∀ v ∈ clauseVars k (litVar t c), x i c v = 0 ∧ r i c v = 0 := by
  have hr : ∀ i, (∀ c < t.clauses.length, ∀ v ∈ clauseVars k (litVar t c), x i c v = 0) →
      ∀ c < t.clauses.length, ∀ v ∈ clauseVars k (litVar t c), r i c v = 0 := by
    intro i hx c hc v hv
    have hmem : ∀ s < k, litVar t c s ∈ clauseVars k (litVar t c) := fun s hs => Finset.mem_image.mpr ⟨s, Finset.mem_range.mpr hs, rfl⟩
    obtain ⟨s, hs, rfl⟩ := Finset.mem_image.mp hv
    obtain ⟨u, hu, -, -, e⟩ := clause_closed (lit_inj hf hc) (fun _ hs => lit_sign hf hc hs) hk (Finset.mem_range.mp hs) (h.clause i c hc _ hv)
    rw [e, hx c hc _ (hmem u hu)]
    simp
  induction j with
  | zero =>
    intro i hi
    obtain rfl : i = 0 := by omega
    have hx : ∀ c < t.clauses.length, ∀ v ∈ clauseVars k (litVar t c), x 0 c v = 0 := by
      intro c hc v hv
      obtain ⟨s, hs, rfl⟩ := Finset.mem_image.mp hv
      rw [h.init c hc _ (lit_lt hf hc (Finset.mem_range.mp hs))]
      simp
    exact fun c hc v hv => ⟨hx c hc v hv, hr 0 hx c hc v hv⟩
  | succ j ih =>
    intro i hi
    rcases Nat.lt_or_ge i (j + 1) with hlt | hge
    · exact ih i (by omega)
    obtain rfl : i = j + 1 := by omega
    have hx : ∀ c < t.clauses.length, ∀ v ∈ clauseVars k (litVar t c), x (j + 1) c v = 0 := by
      intro c hc v hv
      rw [h.var j c hc v hv, zero_add]
      refine Finset.sum_eq_zero fun c' hc' => ?_
      have hm := Finset.mem_filter.mp (Finset.mem_of_mem_erase hc')
      unfold damped
      have hz : ∀ i ≤ j, r i c' v = 0 := fun i hi => (ih i hi c' (Finset.mem_range.mp hm.1) v hm.2).2
      split_ifs
      · rw [Finset.sum_eq_zero, mul_zero]
        intro i hi
        beta_reduce
        rw [hz i (by have := Finset.mem_range.mp hi; omega), mul_zero]
      · exact hz j le_rfl
    exact fun c hc v hv => ⟨hx c hc v hv, hr _ hx c hc v hv⟩

/-- The messages of formulas that consist of rules. -/
theorem rules_trace {d : ℕ} {c : ℚ} (hc0 : 0 ≤ c) (hR : Rules t.clauses t.used d) (hoff : flag = false ∨ alpha = 0)
    (h : IsKsatTrace t.clauses.length k n ⟨t.clauses.length, k, litVar t⟩ ⟨t.clauses.length, k, litSign t⟩ (fun _ => -c) flag alpha
      (fun c' v => if ∃ s < k, litVar t c' s = v then -c else 0) x r) (j : ℕ) :
    (∀ i < t.clauses.length, ∀ v, ((v, 1) ∈ t.clauses.getD i [] → x j i v ≤ 0 ∧ r j i v = -level c d j) ∧
      ((v, -1) ∈ t.clauses.getD i [] → x j i v = -level c d j ∧ r j i v = 0)) := by
  have hpos : ∀ {i v z}, i < t.clauses.length → (v, z) ∈ t.clauses.getD i [] → ∃ s < k, litVar t i s = v ∧ litSign t i s = z := by
    intro i v z hi hm
    obtain ⟨s, hs, e⟩ := List.mem_iff_getElem.mp hm
    have hk' := (hf.clause _ (getD_mem hf hi)).1
    have e' : (t.clauses.getD i []).getD s (0, 0) = (v, z) := by rw [List.getD_eq_getElem _ _ hs, e]
    exact ⟨s, by rw [← hk']; exact hs, by unfold litVar; rw [e'], by unfold litSign; rw [e']⟩
  have hmem : ∀ i, ∀ s < k, litVar t i s ∈ clauseVars k (litVar t i) := fun i s hs => Finset.mem_image.mpr ⟨s, Finset.mem_range.mpr hs, rfl⟩
  -- the messages from clauses follow from those to clauses
  have hr : ∀ j, (∀ i < t.clauses.length, ∀ v, ((v, 1) ∈ t.clauses.getD i [] → x j i v ≤ 0) ∧
      ((v, -1) ∈ t.clauses.getD i [] → x j i v = -level c d j)) → ∀ i < t.clauses.length, ∀ v,
      ((v, 1) ∈ t.clauses.getD i [] → r j i v = -level c d j) ∧ ((v, -1) ∈ t.clauses.getD i [] → r j i v = 0) := by
    intro j hx i hi v
    obtain ⟨a, ha1, ha2⟩ := hR.head _ (getD_mem hf hi)
    constructor
    · intro hv
      obtain ⟨s, hs, rfl, hz⟩ := hpos hi hv
      obtain ⟨u, hu, hne, -, e⟩ := clause_closed (lit_inj hf hi) (fun _ hs => lit_sign hf hi hs) hk hs (h.clause j i hi _ (hmem i s hs))
      have hu1 := lit_mem hf hi hu
      have hz' : litSign t i u = -1 := by
        rcases lit_sign hf hi hu with h1 | h1
        · rw [h1] at hu1
          exact absurd (lit_inj hf hi u hu s hs ((ha2 _ hu1).trans (ha2 _ hv).symm)) hne
        · exact h1
      rw [hz'] at hu1
      have hlev := level_nonneg hc0 d j
      rw [e]
      show min (-(x j i (litVar t i u) * (litSign t i u : ℚ))) 0 * (litSign t i s : ℚ) = _
      rw [(hx i hi _).2 hu1, hz, hz']
      push_cast
      rw [min_eq_left (by linarith)]
      ring
    · intro hv
      obtain ⟨s, hs, rfl, hz⟩ := hpos hi hv
      obtain ⟨s', hs', rfl, hz'⟩ := hpos hi ha1
      have hne : s' ≠ s := by rintro rfl; rw [hz] at hz'; norm_num at hz'
      obtain ⟨u, hu, -, hmin, e⟩ := clause_closed (lit_inj hf hi) (fun _ hs => lit_sign hf hi hs) hk hs (h.clause j i hi _ (hmem i s hs))
      have h1 : x j i (litVar t i u) * (litSign t i u : ℚ) ≤ x j i (litVar t i s') * (litSign t i s' : ℚ) := hmin s' hs' hne
      have h2 := (hx i hi _).1 ha1
      rw [hz'] at h1
      rw [e]
      show min (-(x j i (litVar t i u) * (litSign t i u : ℚ))) 0 * (litSign t i s : ℚ) = _
      push_cast at h1
      rw [min_eq_right (by linarith), zero_mul]
  -- and these from the previous ones
  have hx : ∀ j, ∀ i < t.clauses.length, ∀ v, ((v, 1) ∈ t.clauses.getD i [] → x j i v ≤ 0) ∧
      ((v, -1) ∈ t.clauses.getD i [] → x j i v = -level c d j) := by
    intro j
    induction j with
    | zero =>
      intro i hi v
      have h0 : ∀ z, (v, z) ∈ t.clauses.getD i [] → x 0 i v = -c := by
        intro z hv
        obtain ⟨s, hs, rfl, -⟩ := hpos hi hv
        rw [h.init i hi _ (lit_lt hf hi hs), if_pos ⟨s, hs, rfl⟩]
      exact ⟨fun hv => by rw [h0 _ hv]; linarith, fun hv => by rw [h0 _ hv]; simp [level]⟩
    | succ j ih =>
      have hrj := hr j ih
      have hlev := level_nonneg hc0 d j
      have hocc : ∀ v, ∀ i ∈ occurrences t.clauses.length k ⟨t.clauses.length, k, litVar t⟩ v,
          i < t.clauses.length ∧ ((v, 1) ∈ t.clauses.getD i [] ∨ (v, -1) ∈ t.clauses.getD i []) := by
        intro v i hi
        obtain ⟨h1, h2⟩ := Finset.mem_filter.mp hi
        have h1 := Finset.mem_range.mp h1
        refine ⟨h1, ?_⟩
        obtain ⟨s, hs, e⟩ := Finset.mem_image.mp h2
        have h3 := lit_mem hf h1 (Finset.mem_range.mp hs)
        have e : litVar t i s = v := e
        rw [e] at h3
        rcases lit_sign hf h1 (Finset.mem_range.mp hs) with h4 | h4 <;> rw [h4] at h3
        · exact Or.inl h3
        · exact Or.inr h3
      intro i hi v
      constructor
      · intro hv
        obtain ⟨s, hs, rfl, -⟩ := hpos hi hv
        rw [h.var j i hi _ (hmem i s hs)]
        have : ∑ c' ∈ (occurrences t.clauses.length k ⟨t.clauses.length, k, litVar t⟩ (litVar t i s)).erase i,
            damped flag alpha (fun i' => r i' c' (litVar t i s)) j ≤ 0 := by
          refine Finset.sum_nonpos fun c' hc' => ?_
          rw [undamped hoff]
          obtain ⟨h1, h2⟩ := hocc _ _ (Finset.mem_of_mem_erase hc')
          rcases h2 with h2 | h2
          · rw [(hrj c' h1 _).1 h2]; linarith
          · rw [(hrj c' h1 _).2 h2]
        linarith
      · intro hv
        obtain ⟨s, hs, rfl, hz⟩ := hpos hi hv
        rw [h.var j i hi _ (hmem i s hs), level_succ]
        have hsum : ∑ c' ∈ (occurrences t.clauses.length k ⟨t.clauses.length, k, litVar t⟩ (litVar t i s)).erase i,
            damped flag alpha (fun i' => r i' c' (litVar t i s)) j = d * (-level c d j) := by
          have hcount := hR.count (litVar t i s) (hf.tables.used_mem _ (getD_mem hf hi) (litVar t i s, -1) hv)
          have hconst : (d : ℚ) * (-level c d j) =
              ∑ _c' ∈ (Finset.range t.clauses.length).filter (fun c => (litVar t i s, 1) ∈ t.clauses.getD c []), (-level c d j) := by
            rw [Finset.sum_const, hcount, nsmul_eq_mul]
          rw [hconst]
          symm
          refine Finset.sum_subset_zero_on_sdiff (fun c' hc' => ?_) (fun c' hc' => ?_) (fun c' hc' => ?_)
          · obtain ⟨h1, h2⟩ := Finset.mem_filter.mp hc'
            have h1 := Finset.mem_range.mp h1
            refine Finset.mem_erase.mpr ⟨?_, Finset.mem_filter.mpr ⟨Finset.mem_range.mpr h1, ?_⟩⟩
            · rintro rfl
              obtain ⟨s', hs', e1, e2⟩ := hpos h1 h2
              obtain rfl := lit_inj hf h1 s' hs' s hs e1
              rw [hz] at e2; norm_num at e2
            · obtain ⟨s', hs', e1, e2⟩ := hpos h1 h2
              show litVar t i s ∈ clauseVars k (litVar t c')
              rw [← e1]; exact hmem c' s' hs'
          · obtain ⟨h1, h2⟩ := Finset.mem_sdiff.mp hc'
            obtain ⟨h3, h4⟩ := hocc _ _ (Finset.mem_of_mem_erase h1)
            rw [undamped hoff]
            rcases h4 with h4 | h4
            · exact absurd (Finset.mem_filter.mpr ⟨Finset.mem_range.mpr h3, h4⟩) h2
            · exact (hrj c' h3 _).2 h4
          · obtain ⟨h1, h2⟩ := Finset.mem_filter.mp hc'
            rw [undamped hoff, (hrj c' (Finset.mem_range.mp h1) _).1 h2]
        rw [hsum]; ring
  intro i hi v
  exact ⟨fun hv => ⟨(hx j i hi v).1 hv, (hr j (hx j) i hi v).1 hv⟩, fun hv => ⟨(hx j i hi v).2 hv, (hr j (hx j) i hi v).2 hv⟩⟩

/-- The messages to one variable together. -/
theorem rules_sum {d : ℕ} {c : ℚ} (hc0 : 0 ≤ c) (hR : Rules t.clauses t.used d) (hoff : flag = false ∨ alpha = 0)
    (h : IsKsatTrace t.clauses.length k n ⟨t.clauses.length, k, litVar t⟩ ⟨t.clauses.length, k, litSign t⟩ (fun _ => -c) flag alpha
      (fun c' v => if ∃ s < k, litVar t c' s = v then -c else 0) x r) (j : ℕ) {v : ℕ} (hv : v ∈ t.used) :
    ∑ c' ∈ occurrences t.clauses.length k ⟨t.clauses.length, k, litVar t⟩ v, damped flag alpha (fun i => r i c' v) j = -(d * level c d j) := by
  have hrj := rules_trace hf hk hc0 hR hoff h j
  have hconst : -((d : ℚ) * level c d j) =
      ∑ _c' ∈ (Finset.range t.clauses.length).filter (fun c => (v, 1) ∈ t.clauses.getD c []), (-level c d j) := by
    rw [Finset.sum_const, hR.count v hv, nsmul_eq_mul]; ring
  rw [hconst]
  symm
  refine Finset.sum_subset_zero_on_sdiff (fun c' hc' => ?_) (fun c' hc' => ?_) (fun c' hc' => ?_)
  · obtain ⟨h1, h2⟩ := Finset.mem_filter.mp hc'
    refine Finset.mem_filter.mpr ⟨h1, ?_⟩
    show v ∈ clauseVars k (litVar t c')
    rw [clauseVars_eq hf (Finset.mem_range.mp h1)]
    exact List.mem_toFinset.mpr (List.mem_map.mpr ⟨_, h2, rfl⟩)
  · obtain ⟨h1, h2⟩ := Finset.mem_sdiff.mp hc'
    obtain ⟨h3, h4⟩ := Finset.mem_filter.mp h1
    have h4 : v ∈ clauseVars k (litVar t c') := h4
    rw [undamped hoff]
    rw [clauseVars_eq hf (Finset.mem_range.mp h3)] at h4
    obtain ⟨⟨u, z⟩, hl, e⟩ := List.mem_map.mp (List.mem_toFinset.mp h4)
    obtain rfl : u = v := e
    rcases (hf.clause _ (getD_mem hf (Finset.mem_range.mp h3))).2.2 _ hl with h5 | h5
    · obtain rfl : z = 1 := h5
      exact absurd (Finset.mem_filter.mpr ⟨h3, hl⟩) h2
    · obtain rfl : z = -1 := h5
      exact ((hrj c' (Finset.mem_range.mp h3) u).2 hl).2
  · obtain ⟨h1, h2⟩ := Finset.mem_filter.mp hc'
    rw [undamped hoff]
    exact (((hrj c' (Finset.mem_range.mp h1) v).1 h2).2).symm

end

section
variable {n : ℕ} {edges : List (ℕ × ℕ)} {w : ℕ → ℚ} {c x0 s0 : ℕ → ℕ → ℚ} {flag : Bool} {alpha B : ℚ} {x r y q : ℕ → ℕ → ℕ → ℚ}

/-- Messages of the relaxed TSP grow at most linearly. -/
theorem relaxed_bound (hok : EdgesOk n edges) (ha : flag = true → 0 ≤ alpha ∧ alpha ≤ 1)
    (hc : ∀ e < edges.length, ∀ v, v = src edges e ∨ v = dst edges e → |c e v| ≤ B)
    (hx : ∀ e < edges.length, ∀ v, v = src edges e ∨ v = dst edges e → |x0 e v| ≤ B)
    (ht : IsTspTrace n edges [] w c flag alpha x0 s0 x r y q) (j : ℕ) :
    ∀ i ≤ j, ∀ e < edges.length, ∀ v, v = src edges e ∨ v = dst edges e → |x i e v| ≤ (j + 1) * B ∧ |r i e v| ≤ (j + 1) * B := by
  have hcl : ∀ {S : Finset ℕ} {f : ℕ → ℚ} {e : ℕ} {m M : ℚ}, e ∈ S → (∀ a ∈ S, |f a| ≤ M) → IsMessage S ExactlyOne f e (fin m) → |m| ≤ M := by
    intro S f e m M he hf h
    obtain ⟨a, ha, -, e1⟩ := (exactlyOne_fin he h).1
    have := hf a ha
    rw [e1, abs_neg] at this
    exact this
  have hr : ∀ i M, (∀ e < edges.length, ∀ v, v = src edges e ∨ v = dst edges e → |x i e v| ≤ M) →
      ∀ e < edges.length, ∀ v, v = src edges e ∨ v = dst edges e → |r i e v| ≤ M := by
    rintro i M hx e he v (rfl | rfl)
    · have hm : e ∈ outEdges edges (src edges e) := mem_out.mpr ⟨he, rfl⟩
      exact hcl hm (fun a ha => hx a (mem_out.mp ha).1 _ (Or.inl (mem_out.mp ha).2.symm)) (ht.out i _ (src_lt hok he) e hm)
    · have hm : e ∈ inEdges edges (dst edges e) := mem_in.mpr ⟨he, rfl⟩
      exact hcl hm (fun a ha => hx a (mem_in.mp ha).1 _ (Or.inr (mem_in.mp ha).2.symm)) (ht.inn i _ (dst_lt hok he) e hm)
  induction j with
  | zero =>
    intro i hi
    obtain rfl : i = 0 := by omega
    have h0 : ∀ e < edges.length, ∀ v, v = src edges e ∨ v = dst edges e → |x 0 e v| ≤ ((0 : ℕ) + 1) * B := by
      rintro e he v (rfl | rfl)
      · rw [ht.init_src e he]; simpa using hx e he _ (Or.inl rfl)
      · rw [ht.init_dst e he]; simpa using hx e he _ (Or.inr rfl)
    exact fun e he v hv => ⟨h0 e he v hv, hr 0 _ h0 e he v hv⟩
  | succ j ih =>
    have hd : ∀ e < edges.length, ∀ v, v = src edges e ∨ v = dst edges e → |damped flag alpha (fun i => r i e v) j| ≤ (j + 1) * B := by
      intro e he v hv
      have h1 : ∀ i ≤ j, |r i e v| ≤ (j + 1) * B := fun i hi => (ih i hi e he v hv).2
      have h0 : 0 ≤ (j + 1) * B := (abs_nonneg _).trans (h1 j le_rfl)
      exact abs_le.mpr (damped_le ha (by linarith) h0 fun i hi => abs_le.mp (h1 i hi))
    have h1 : ∀ e < edges.length, ∀ v, v = src edges e ∨ v = dst edges e → |x (j + 1) e v| ≤ ((j + 1 : ℕ) + 1) * B := by
      rintro e he v (rfl | rfl)
      · rw [ht.var_src j e he]
        have k1 := abs_le.mp (hc e he _ (Or.inl rfl))
        have k2 := abs_le.mp (hd e he _ (Or.inr rfl))
        simp only [cuts, List.length_nil, Finset.range_zero, Finset.filter_empty, Finset.sum_empty, add_zero]
        push_cast
        exact abs_le.mpr ⟨by linarith [k1.1, k2.1], by linarith [k1.2, k2.2]⟩
      · rw [ht.var_dst j e he]
        have k1 := abs_le.mp (hc e he _ (Or.inr rfl))
        have k2 := abs_le.mp (hd e he _ (Or.inl rfl))
        simp only [cuts, List.length_nil, Finset.range_zero, Finset.filter_empty, Finset.sum_empty, add_zero]
        push_cast
        exact abs_le.mpr ⟨by linarith [k1.1, k2.1], by linarith [k1.2, k2.2]⟩
    intro i hi e he v hv
    rcases Nat.lt_or_ge i (j + 1) with hlt | hge
    · have hB : 0 ≤ B := (abs_nonneg _).trans (hc e he v hv)
      have := ih i (by omega) e he v hv
      push_cast
      exact ⟨by linarith [this.1], by linarith [this.2]⟩
    · obtain rfl : i = j + 1 := by omega
      exact ⟨h1 e he v hv, hr _ _ h1 e he v hv⟩

/-- The part of the messages that alternates. -/
def swing (p g : ℚ) (j : ℕ) : ℚ := if j % 2 = 0 then 2 * p + g else 0

theorem swing_succ (p g : ℚ) (j : ℕ) : swing p g (j + 1) = 2 * p + g - swing p g j := by
  unfold swing
  rcases Nat.mod_two_eq_zero_or_one j with h | h
  · rw [if_neg (by omega), if_pos h]; ring
  · rw [if_pos (by omega), if_neg (by omega)]; ring

/-- The messages if the edges of disjoint cycles cost `p` and all others `p + g`. -/
theorem rounds_trace {good : Finset ℕ} {p g : ℚ} (hg : 0 ≤ g) (hok : EdgesOk n edges) (hR : Rounds n edges good) (hoff : flag = false ∨ alpha = 0)
    (hc : ∀ e < edges.length, ∀ v, v = src edges e ∨ v = dst edges e → c e v = if e ∈ good then p else p + g)
    (hx : ∀ e < edges.length, ∀ v, v = src edges e ∨ v = dst edges e → x0 e v = if e ∈ good then p else p + g)
    (ht : IsTspTrace n edges [] w c flag alpha x0 s0 x r y q) (j : ℕ) :
    ∀ e < edges.length, ∀ v, v = src edges e ∨ v = dst edges e →
      r j e v = if e ∈ good then -((swing p g j + (j + 1) * g) / 2) else -((swing p g j - (j + 1) * g) / 2) := by
  have hcl : ∀ {j : ℕ} {S : Finset ℕ} {f : ℕ → ℚ} {e : ℕ} {m : ℚ}, e ∈ S → (∃ a ∈ S, a ∈ good ∧ ∀ b ∈ S, b ∈ good → b = a) →
      (∀ a ∈ S, f a = if a ∈ good then (swing p g j - (j + 1) * g) / 2 else (swing p g j + (j + 1) * g) / 2) → IsMessage S ExactlyOne f e (fin m) →
      m = if e ∈ good then -((swing p g j + (j + 1) * g) / 2) else -((swing p g j - (j + 1) * g) / 2) := by
    rintro j S f e m he ⟨a, haS, hag, huniq⟩ hf h
    obtain ⟨⟨b, hb, hne, e1⟩, hmin⟩ := exactlyOne_fin he h
    have p1 : 0 ≤ (j + 1) * g := mul_nonneg (by positivity) hg
    rw [hf b hb] at e1
    split_ifs with hge
    · have hbad : b ∉ good := fun hbg => hne ((huniq b hb hbg).trans (huniq e he hge).symm)
      rw [if_neg hbad] at e1
      linarith
    · have hle : -m ≤ f a := hmin ⟨a, haS, fun e2 => hge (e2 ▸ hag), rfl⟩
      rw [hf a haS, if_pos hag] at hle
      split_ifs at e1 <;> linarith
  have hr : ∀ j, (∀ e < edges.length, ∀ v, v = src edges e ∨ v = dst edges e →
      x j e v = if e ∈ good then (swing p g j - (j + 1) * g) / 2 else (swing p g j + (j + 1) * g) / 2) →
      ∀ e < edges.length, ∀ v, v = src edges e ∨ v = dst edges e →
        r j e v = if e ∈ good then -((swing p g j + (j + 1) * g) / 2) else -((swing p g j - (j + 1) * g) / 2) := by
    rintro j hx e he v (rfl | rfl)
    · have hm : e ∈ outEdges edges (src edges e) := mem_out.mpr ⟨he, rfl⟩
      exact hcl hm (hR.out _ (src_lt hok he)) (fun a ha => hx a (mem_out.mp ha).1 _ (Or.inl (mem_out.mp ha).2.symm)) (ht.out j _ (src_lt hok he) e hm)
    · have hm : e ∈ inEdges edges (dst edges e) := mem_in.mpr ⟨he, rfl⟩
      exact hcl hm (hR.inn _ (dst_lt hok he)) (fun a ha => hx a (mem_in.mp ha).1 _ (Or.inr (mem_in.mp ha).2.symm)) (ht.inn j _ (dst_lt hok he) e hm)
  have hstep : ∀ j, ∀ e < edges.length, ∀ v, v = src edges e ∨ v = dst edges e →
      x j e v = if e ∈ good then (swing p g j - (j + 1) * g) / 2 else (swing p g j + (j + 1) * g) / 2 := by
    intro j
    induction j with
    | zero =>
      have hs : swing p g 0 = 2 * p + g := rfl
      rintro e he v (rfl | rfl)
      · rw [ht.init_src e he, hx e he _ (Or.inl rfl), hs]; split_ifs <;> push_cast <;> ring
      · rw [ht.init_dst e he, hx e he _ (Or.inr rfl), hs]; split_ifs <;> push_cast <;> ring
    | succ j ih =>
      rintro e he v (rfl | rfl)
      · rw [ht.var_src j e he, hc e he _ (Or.inl rfl), undamped hoff, hr j ih e he _ (Or.inr rfl), swing_succ]
        simp only [cuts, List.length_nil, Finset.range_zero, Finset.filter_empty, Finset.sum_empty, add_zero]
        split_ifs <;> push_cast <;> ring
      · rw [ht.var_dst j e he, hc e he _ (Or.inr rfl), undamped hoff, hr j ih e he _ (Or.inl rfl), swing_succ]
        simp only [cuts, List.length_nil, Finset.range_zero, Finset.filter_empty, Finset.sum_empty, add_zero]
        split_ifs <;> push_cast <;> ring
  exact fun e he v hv => hr j (hstep j) e he v hv

end

end Verif.Proofs
