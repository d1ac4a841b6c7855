import Verif.Proofs.Cover
import Verif.Proofs.Filter
import Verif.Proofs.Degree
import Verif.Spec.TspRun
import Verif.Spec.TspPost
import Mathlib.Algebra.Order.Archimedean.Basic

/-! On the relaxed problem the beliefs of the edges of a unique cheapest cycle cover fall without bound and all others grow. -/

namespace Verif.Proofs
open Verif Num Spec

theorem exactlyOne_fin {ι : Type} [DecidableEq ι] {vars : Finset ι} {x : ι → ℚ} {t : ι} {m : ℚ} (ht : t ∈ vars)
    (h : IsMessage vars ExactlyOne x t (fin m)) : IsLeast (others vars x t) (-m) := by
  by_cases hne : (others vars x t).Nonempty
  · have hfin : (others vars x t).Finite := by
      apply (vars.image x).finite_toSet.subset
      rintro q ⟨s, hs, -, rfl⟩
      simp only [Finset.coe_image, Set.mem_image]
      exact ⟨s, hs, rfl⟩
    obtain ⟨q, hq, hmin⟩ := Set.exists_min_image _ id hfin hne
    have hl : IsLeast (others vars x t) q := ⟨hq, fun z hz => hmin z hz⟩
    have := h.unique (exactlyOne_message ht (isMin_fin hl))
    simp only [neg_fin, Num.fin.injEq] at this
    rwa [this, neg_neg]
  · have := h.unique (exactlyOne_message ht (v := pinf) (Or.inl ⟨Set.not_nonempty_iff_eq_empty.mp hne, rfl⟩))
    cases this

/-- The damping rate in effect. -/
def rate (flag : Bool) (alpha : ℚ) : ℚ := if flag ∧ alpha ≠ 0 then alpha else 0

theorem damped_rate (flag : Bool) (alpha : ℚ) (r : ℕ → ℚ) (k : ℕ) :
    damped flag alpha r (k + 1) = (1 - rate flag alpha) * r (k + 1) + rate flag alpha * damped flag alpha r k := by
  rw [damped_succ]; unfold rate
  split <;> ring

section
variable {n : ℕ} {edges : List (ℕ × ℕ)} {w : ℕ → ℚ} {c C x0 s0 : ℕ → ℕ → ℚ} {flag : Bool} {alpha : ℚ} {x r y q : ℕ → ℕ → ℕ → ℚ}
  {next : ℕ → ℕ} {u v : ℕ → ℚ} {δ : ℚ}

/-- Lower bounds on the (shifted, damped) degree messages of the edges outside of the cover, and upper bounds on the others. -/
def Spread (edges : List (ℕ × ℕ)) (flag : Bool) (alpha : ℚ) (r : ℕ → ℕ → ℕ → ℚ) (next : ℕ → ℕ) (u v : ℕ → ℚ) (t : ℕ) (a b : ℚ) : Prop :=
  ∀ e < edges.length,
    (dst edges e ≠ next (src edges e) →
      a ≤ damped flag alpha (fun i => r i e (src edges e)) t + u (src edges e) ∧
      a ≤ damped flag alpha (fun i => r i e (dst edges e)) t + v (dst edges e)) ∧
    (dst edges e = next (src edges e) →
      damped flag alpha (fun i => r i e (src edges e)) t + u (src edges e) ≤ -b ∧
      damped flag alpha (fun i => r i e (dst edges e)) t + v (dst edges e) ≤ -b)

theorem mem_out {e : ℕ} {z : ℕ} : e ∈ outEdges edges z ↔ e < edges.length ∧ src edges e = z := by
  rw [outEdges_dec]
  constructor
  · rintro ⟨h, e1⟩
    exact ⟨h, by simpa [src, List.getD, List.getElem?_eq_getElem h] using e1⟩
  · rintro ⟨h, e1⟩
    exact ⟨h, by simpa [src, List.getD, List.getElem?_eq_getElem h] using e1⟩

theorem mem_in {e : ℕ} {z : ℕ} : e ∈ inEdges edges z ↔ e < edges.length ∧ dst edges e = z := by
  rw [inEdges_dec]
  constructor
  · rintro ⟨h, e1⟩
    exact ⟨h, by simpa [dst, List.getD, List.getElem?_eq_getElem h] using e1⟩
  · rintro ⟨h, e1⟩
    exact ⟨h, by simpa [dst, List.getD, List.getElem?_eq_getElem h] using e1⟩

theorem src_dst {e : ℕ} (h : e < edges.length) : edges[e] = (src edges e, dst edges e) := by
  simp [src, dst, List.getD, List.getElem?_eq_getElem h]

theorem edge_of_mem {a b : ℕ} (h : (a, b) ∈ edges) : ∃ e < edges.length, src edges e = a ∧ dst edges e = b := by
  obtain ⟨e, he, h1⟩ := List.mem_iff_getElem.mp h
  rw [src_dst he] at h1
  simp only [Prod.mk.injEq] at h1
  exact ⟨e, he, h1⟩

theorem cover_surj (h : CycleCover n next) : ∀ j < n, ∃ k < n, next k = j := by
  let g : Fin n → Fin n := fun k => ⟨next k, h.lt k k.2⟩
  have hinj : Function.Injective g := by
    intro a b hab
    exact Fin.ext (h.inj a a.2 b b.2 (by simpa [g] using hab))
  intro j hj
  obtain ⟨k, hk⟩ := Finite.injective_iff_surjective.mp hinj ⟨j, hj⟩
  exact ⟨k, k.2, by simpa [g] using congrArg Fin.val hk⟩

/-- A cycle cover with a strict dual solution. -/
structure Dual (n : ℕ) (C : ℕ → ℕ → ℚ) (next : ℕ → ℕ) (u v : ℕ → ℚ) (δ : ℚ) : Prop where
  cover : CycleCover n next
  tight : ∀ i < n, C i (next i) = u i + v (next i)
  slack : ∀ i < n, ∀ j < n, j ≠ i → j ≠ next i → u i + v j + δ ≤ C i j

theorem spread_step (h : AllEdges n edges) (hd : Dual n C next u v δ)
    (hc : ∀ e < edges.length, c e (src edges e) = C (src edges e) (dst edges e) ∧ c e (dst edges e) = C (src edges e) (dst edges e))
    (ht : IsTspTrace n edges [] w c flag alpha x0 s0 x r y q) (h0 : 0 ≤ rate flag alpha) (h1 : rate flag alpha < 1) {t : ℕ} {a b : ℚ}
    (hs : Spread edges flag alpha r next u v t a b) :
    Spread edges flag alpha r next u v (t + 1) (rate flag alpha * a + (1 - rate flag alpha) * b)
      ((1 - rate flag alpha) * (δ + a) + rate flag alpha * b) := by
  have hlt : ∀ e < edges.length, src edges e < n ∧ dst edges e < n ∧ src edges e ≠ dst edges e := by
    intro e he
    have := h.2.1 _ (List.getElem_mem he)
    rw [src_dst he] at this
    exact this
  have hinj : ∀ e < edges.length, ∀ e' < edges.length, src edges e = src edges e' → dst edges e = dst edges e' → e = e' := by
    intro e he e' he' h2 h3
    refine (List.Nodup.getElem_inj_iff h.1 (hi := he) (hj := he')).mp ?_
    rw [src_dst he, src_dst he', h2, h3]
  have hxs : ∀ e < edges.length, x (t + 1) e (src edges e) = C (src edges e) (dst edges e) +
      damped flag alpha (fun i => r i e (dst edges e)) t := by
    intro e he
    rw [ht.var_src t e he, (hc e he).1]; simp [cuts]
  have hxd : ∀ e < edges.length, x (t + 1) e (dst edges e) = C (src edges e) (dst edges e) +
      damped flag alpha (fun i => r i e (src edges e)) t := by
    intro e he
    rw [ht.var_dst t e he, (hc e he).2]; simp [cuts]
  -- the exact messages of iteration t + 1
  have hraw : ∀ e < edges.length,
      (dst edges e ≠ next (src edges e) → b ≤ r (t + 1) e (src edges e) + u (src edges e) ∧ b ≤ r (t + 1) e (dst edges e) + v (dst edges e)) ∧
      (dst edges e = next (src edges e) → r (t + 1) e (src edges e) + u (src edges e) ≤ -(δ + a) ∧
        r (t + 1) e (dst edges e) + v (dst edges e) ≤ -(δ + a)) := by
    intro e he
    obtain ⟨l1, l2, l3⟩ := hlt e he
    have ms := exactlyOne_fin (mem_out.mpr ⟨he, rfl⟩) (ht.out (t + 1) _ l1 e (mem_out.mpr ⟨he, rfl⟩))
    have md := exactlyOne_fin (mem_in.mpr ⟨he, rfl⟩) (ht.inn (t + 1) _ l2 e (mem_in.mpr ⟨he, rfl⟩))
    refine ⟨fun hne => ⟨?_, ?_⟩, fun heq => ⟨?_, ?_⟩⟩
    · obtain ⟨e', he', s1, s2⟩ := edge_of_mem (h.2.2 (src edges e) l1 _ (hd.cover.lt _ l1) (Ne.symm (hd.cover.ne _ l1)))
      have hle := ms.2 ⟨e', mem_out.mpr ⟨he', s1⟩, by rintro rfl; exact hne s2, rfl⟩
      simp only at hle
      have hx := hxs e' he'
      have hb := ((hs e' he').2 (by rw [s1, s2])).2
      rw [s1, s2] at hx
      rw [s2] at hb
      rw [hx, hd.tight _ l1] at hle
      linarith
    · obtain ⟨k, hk, hkn⟩ := cover_surj hd.cover _ l2
      obtain ⟨e', he', s1, s2⟩ := edge_of_mem (h.2.2 k hk _ l2 (by rw [← hkn]; exact Ne.symm (hd.cover.ne k hk)))
      have hle := md.2 ⟨e', mem_in.mpr ⟨he', s2⟩, by rintro rfl; exact hne (by rw [s1, hkn]), rfl⟩
      simp only at hle
      have hx := hxd e' he'
      have hb := ((hs e' he').2 (by rw [s1, s2, hkn])).1
      rw [s1, s2] at hx
      rw [s1] at hb
      have htg := hd.tight k hk
      rw [hkn] at htg
      rw [hx, htg] at hle
      linarith
    · obtain ⟨e', hm, hne, hx⟩ := ms.1
      obtain ⟨he', s1⟩ := mem_out.mp hm
      have hdn : dst edges e' ≠ next (src edges e) := fun hh => hne (hinj e' he' e he s1 (by rw [hh, heq]))
      have hb := ((hs e' he').1 (by rw [s1]; exact hdn)).2
      have hx' := hxs e' he'
      rw [s1] at hx'
      have hsl := hd.slack _ l1 _ (hlt e' he').2.1 (by have := (hlt e' he').2.2; rw [s1] at this; exact Ne.symm this) hdn
      simp only at hx
      rw [hx'] at hx
      linarith
    · obtain ⟨e', hm, hne, hx⟩ := md.1
      obtain ⟨he', s2⟩ := mem_in.mp hm
      have hsn : dst edges e' ≠ next (src edges e') := fun hh =>
        hne (hinj e' he' e he (hd.cover.inj _ (hlt e' he').1 _ l1 (by rw [← hh, s2, heq])) s2)
      have hb := ((hs e' he').1 hsn).1
      have hx' := hxd e' he'
      rw [s2] at hx'
      have hsl := hd.slack _ (hlt e' he').1 _ (hlt e' he').2.1 (Ne.symm (hlt e' he').2.2) hsn
      rw [s2] at hsl
      simp only at hx
      rw [hx'] at hx
      linarith
  intro e he
  rw [damped_rate, damped_rate]
  have h2 : 0 < 1 - rate flag alpha := by linarith
  refine ⟨fun hne => ⟨?_, ?_⟩, fun heq => ⟨?_, ?_⟩⟩
  · have i1 := mul_le_mul_of_nonneg_left ((hraw e he).1 hne).1 h2.le
    have i2 := mul_le_mul_of_nonneg_left ((hs e he).1 hne).1 h0
    linarith
  · have i1 := mul_le_mul_of_nonneg_left ((hraw e he).1 hne).2 h2.le
    have i2 := mul_le_mul_of_nonneg_left ((hs e he).1 hne).2 h0
    linarith
  · have i1 := mul_le_mul_of_nonneg_left ((hraw e he).2 heq).1 h2.le
    have i2 := mul_le_mul_of_nonneg_left ((hs e he).2 heq).1 h0
    linarith
  · have i1 := mul_le_mul_of_nonneg_left ((hraw e he).2 heq).2 h2.le
    have i2 := mul_le_mul_of_nonneg_left ((hs e he).2 heq).2 h0
    linarith

theorem Spread.mono {t : ℕ} {a b a' b' : ℚ} (hs : Spread edges flag alpha r next u v t a b) (ha : a' ≤ a) (hb : b' ≤ b) :
    Spread edges flag alpha r next u v t a' b' := by
  intro e he
  refine ⟨fun hne => ?_, fun heq => ?_⟩
  · have := (hs e he).1 hne
    exact ⟨by linarith [this.1], by linarith [this.2]⟩
  · have := (hs e he).2 heq
    exact ⟨by linarith [this.1], by linarith [this.2]⟩

theorem spread_exists (t : ℕ) : ∃ m, Spread edges flag alpha r next u v t m m := by
  have hb : ∀ f : ℕ → ℚ, ∃ M, ∀ e < edges.length, |f e| ≤ M := by
    intro f
    refine ⟨∑ e ∈ Finset.range edges.length, |f e|, fun e he => ?_⟩
    exact Finset.single_le_sum (f := fun e => |f e|) (fun i _ => abs_nonneg _) (Finset.mem_range.mpr he)
  obtain ⟨M1, h1⟩ := hb fun e => damped flag alpha (fun i => r i e (src edges e)) t + u (src edges e)
  obtain ⟨M2, h2⟩ := hb fun e => damped flag alpha (fun i => r i e (dst edges e)) t + v (dst edges e)
  refine ⟨-max M1 M2, fun e he => ?_⟩
  have a1 := abs_le.mp (h1 e he)
  have a2 := abs_le.mp (h2 e he)
  have m1 := le_max_left M1 M2
  have m2 := le_max_right M1 M2
  exact ⟨fun _ => ⟨by linarith [a1.1], by linarith [a2.1]⟩, fun _ => ⟨by linarith [a1.2], by linarith [a2.2]⟩⟩

/-- Linear growth. -/
theorem spread_grows (h : AllEdges n edges) (hd : Dual n C next u v δ) (hδ : 0 < δ)
    (hc : ∀ e < edges.length, c e (src edges e) = C (src edges e) (dst edges e) ∧ c e (dst edges e) = C (src edges e) (dst edges e))
    (ht : IsTspTrace n edges [] w c flag alpha x0 s0 x r y q) (h0 : 0 ≤ rate flag alpha) (h1 : rate flag alpha < 1) (B : ℚ) :
    ∃ T, ∀ t ≥ T, Spread edges flag alpha r next u v t B B := by
  set ρ := rate flag alpha with hρ
  obtain ⟨m, hm⟩ := spread_exists (edges := edges) (flag := flag) (alpha := alpha) (r := r) (next := next) (u := u) (v := v) 0
  have hκ : 0 < (1 - ρ) * (1 - ρ) * δ := mul_pos (mul_pos (by linarith) (by linarith)) hδ
  have hmul : 0 ≤ ρ * (1 - ρ) * δ := mul_nonneg (mul_nonneg h0 (by linarith)) hδ.le
  have hδρ : 0 < (1 - ρ) * δ := mul_pos (by linarith) hδ
  have step : ∀ t z, Spread edges flag alpha r next u v t z z → Spread edges flag alpha r next u v (t + 1) z (z + (1 - ρ) * δ) := by
    intro t z hz
    refine (spread_step h hd hc ht h0 h1 hz).mono ?_ ?_
    · rw [← hρ]; apply le_of_eq; ring
    · rw [← hρ]; apply le_of_eq; ring
  have two : ∀ t z, Spread edges flag alpha r next u v t z z →
      Spread edges flag alpha r next u v (t + 2) (z + (1 - ρ) * (1 - ρ) * δ) (z + (1 - ρ) * (1 - ρ) * δ) := by
    intro t z hz
    refine (spread_step h hd hc ht h0 h1 (step t z hz)).mono ?_ ?_
    · rw [← hρ]; apply le_of_eq; ring
    · rw [← hρ]
      have : (1 - ρ) * (δ + z) + ρ * (z + (1 - ρ) * δ) = z + (1 - ρ) * (1 - ρ) * δ + 2 * (ρ * (1 - ρ) * δ) := by ring
      rw [this]; linarith
  have key : ∀ k : ℕ, ∀ t : ℕ, (t = 2 * k ∨ t = 2 * k + 1) →
      Spread edges flag alpha r next u v t (m + k * ((1 - ρ) * (1 - ρ) * δ)) (m + k * ((1 - ρ) * (1 - ρ) * δ)) := by
    intro k
    induction k with
    | zero =>
      intro t ht0
      rcases ht0 with rfl | rfl
      · simpa using hm
      · exact (step 0 m hm).mono (by simp) (by simp; linarith)
    | succ k ih =>
      intro t ht0
      have := two (t - 2) _ (ih (t - 2) (by omega))
      rw [show t - 2 + 2 = t by omega] at this
      refine this.mono ?_ ?_ <;> (push_cast; apply le_of_eq; ring)
  obtain ⟨k, hk⟩ := exists_nat_gt ((B - m) / ((1 - ρ) * (1 - ρ) * δ))
  rw [div_lt_iff₀ hκ] at hk
  refine ⟨2 * k, fun t ht2 => ?_⟩
  have hle : (k : ℚ) * ((1 - ρ) * (1 - ρ) * δ) ≤ ((t / 2 : ℕ) : ℚ) * ((1 - ρ) * (1 - ρ) * δ) := by
    apply mul_le_mul_of_nonneg_right _ hκ.le
    exact_mod_cast (by omega : k ≤ t / 2)
  refine (key (t / 2) t (by omega)).mono ?_ ?_ <;> linarith

/-- Beliefs: for every bound there is a number of iterations after which the edges of the cover are below minus the bound and all
others above. -/
theorem beliefs_split (h : AllEdges n edges) (hb : OnlyBest n C next)
    (hc : ∀ e < edges.length, c e (src edges e) = C (src edges e) (dst edges e) ∧ c e (dst edges e) = C (src edges e) (dst edges e))
    (ht : IsTspTrace n edges [] w c flag alpha x0 s0 x r y q) (h0 : 0 ≤ rate flag alpha) (h1 : rate flag alpha < 1) (d0 : ℕ → ℕ → ℚ) (B : ℚ) :
    ∃ T, ∀ K ≥ T, ∀ e < edges.length,
      (dst edges e = next (src edges e) →
        tspOutput flag alpha edges [] d0 s0 r q K e + C (src edges e) (dst edges e) ≤ -B) ∧
      (dst edges e ≠ next (src edges e) →
        B < tspOutput flag alpha edges [] d0 s0 r q K e + C (src edges e) (dst edges e)) := by
  obtain ⟨u, v, δ, hδ, d1, d2⟩ := exists_dual hb
  obtain ⟨T, hT⟩ := spread_grows h ⟨hb.1, d1, d2⟩ hδ hc ht h0 h1 (B / 2)
  refine ⟨T + 1, fun K hK e he => ?_⟩
  obtain ⟨t, rfl⟩ : ∃ t, K = t + 1 := ⟨K - 1, by omega⟩
  have hs := hT t (by omega) e he
  have hlt := h.2.1 _ (List.getElem_mem he)
  rw [src_dst he] at hlt
  simp only [tspOutput, prev, cuts, List.length_nil, Finset.range_zero, Finset.filter_empty, Finset.sum_empty, add_zero]
  constructor
  · intro heq
    have := hs.2 heq
    have htg := d1 _ hlt.1
    rw [← heq] at htg
    rw [htg]
    linarith [this.1, this.2]
  · intro hne
    have := hs.1 hne
    have hsl := d2 _ hlt.1 _ hlt.2.1 (Ne.symm hlt.2.2) hne
    linarith [this.1, this.2]

end
end Verif.Proofs
