import Verif.Proofs.TeamTables
import Verif.Properties.KcCall

/-! # C68: the shipped tables of units -/

namespace Verif.Properties
open Verif Num Spec Model

/-- C68, full claim: both orders of two different units are offered only if they would meet at different points, which happens only for units on
different coasts. -/
def C68_claim : Prop :=
  ∀ ex mul, ExpOk ex mul → ∀ n ≤ 11, ∃ l, pruneTeams (shippedData ex mul) n = some l ∧
    ∀ u v, u ≠ v → (u, v) ∈ l → (v, u) ∈ l → OppositeCoasts u v

set_option synthInstance.maxSize 1000 in
set_option synthInstance.maxHeartbeats 100000 in
/-- Which pair `prunePair` removes, in terms of the costs. -/
theorem shipped_prune {ex : ℕ → ℚ} {mul : ℚ → ℚ → ℚ} (h : ExpOk ex mul) {a b : ℕ} (ha : 1 ≤ a) (hab : a < b) (hb : b ≤ 11) :
    prunePair (shippedData ex mul) (a, b) =
      if OppositeCoasts a b ∨ UnequalWays a b then none else if pairCost a b ≤ pairCost b a then some (b, a) else some (a, b) := by
  obtain ⟨h1, h2⟩ := Proofs.ratio_order h ha (by omega) (by omega : 1 ≤ b) hb
  obtain ⟨h3, -⟩ := Proofs.ratio_order h (by omega : 1 ≤ b) hb ha (by omega)
  have hall : ∀ a < 12, ∀ b < 12, 1 ≤ a → a < b →
      ((distTable.getD (b - 1) []).getD (a - 1) 0 = (distTable.getD (a - 1) []).getD (b - 1) 0 ↔ ¬ UnequalWays a b) ∧
      ((rdvTable.getD (b - 1) []).getD (a - 1) 0 = (rdvTable.getD (a - 1) []).getD (b - 1) 0 ↔ ¬ OppositeCoasts a b) ∧
      (UnequalWays a b → pairCost b a < pairCost a b) := by decide +kernel
  obtain ⟨k1, k2, k3⟩ := hall a (by omega) b (by omega) ha hab
  have k1' : (shippedData ex mul).dist (b - 1) (a - 1) = (shippedData ex mul).dist (a - 1) (b - 1) ↔ ¬ UnequalWays a b := by
    rw [← k1]; exact Nat.cast_inj
  have k2' : (shippedData ex mul).rdv (b - 1) (a - 1) = (shippedData ex mul).rdv (a - 1) (b - 1) ↔ ¬ OppositeCoasts a b := k2
  unfold prunePair
  simp only [h1, h2, h3, k1', k2']
  by_cases c1 : UnequalWays a b
  · have := k3 c1
    simp only [c1, or_true, if_true, not_true_eq_false, false_and, and_false, if_false]
    rw [if_neg (by omega)]
  · by_cases c2 : OppositeCoasts a b
    · simp [c2]
    · simp only [c1, c2, or_false, if_false, not_false_eq_true, and_true]
      rcases lt_trichotomy (pairCost a b) (pairCost b a) with c | c | c
      · rw [if_pos c, if_pos c.le]
      · rw [if_neg (by omega), if_neg (by omega), if_pos c.symm, if_pos c.le]
      · rw [if_neg (by omega), if_pos c, if_neg (by omega)]

/-- C68, which pairs are offered: a unit alone; both orders for different coasts and for the pairs with unequal ways; otherwise the cheaper order, and
for equal costs the one with the smaller number first.  Missing: both orders of units 7 and 10 (or 11) are offered although they meet at one
point (`C68_claim_false`). -/
theorem C68_pruned_partial {ex : ℕ → ℚ} {mul : ℚ → ℚ → ℚ} (h : ExpOk ex mul) {n : ℕ} (hn : n ≤ 11) :
    ∃ l, pruneTeams (shippedData ex mul) n = some l ∧ l.Nodup ∧ ∀ u v, (u, v) ∈ l ↔ (1 ≤ u ∧ u ≤ n) ∧ (1 ≤ v ∧ v ≤ n) ∧
      (u = v ∨ OppositeCoasts u v ∨ UnequalWays u v ∨ pairCost u v < pairCost v u ∨ (pairCost u v = pairCost v u ∧ u < v)) := by
  obtain ⟨l, h1, h2, h3⟩ := Proofs.pruneTeams_mem (d := shippedData ex mul) hn
  refine ⟨l, h1, h2, fun u v => ?_⟩
  rw [h3]
  simp only [and_assoc]
  refine and_congr_right fun hu => and_congr_right fun hu' => and_congr_right fun hv => and_congr_right fun hv' => ?_
  have hsym : (OppositeCoasts u v ↔ OppositeCoasts v u) ∧ (UnequalWays u v ↔ UnequalWays v u) := by
    unfold OppositeCoasts UnequalWays
    constructor <;> constructor <;> intro h <;> tauto
  rcases lt_trichotomy u v with huv | rfl | huv
  · have hp := shipped_prune h hu huv (by omega)
    have : (∃ a b, 1 ≤ a ∧ a < b ∧ b ≤ n ∧ prunePair (shippedData ex mul) (a, b) = some (u, v)) ↔
        prunePair (shippedData ex mul) (u, v) = some (u, v) := by
      constructor
      · rintro ⟨a, b, ha, hab, hb, e⟩
        rcases (Proofs.prunePair_some e).1 with e' | e' <;> simp only [Prod.mk.injEq] at e'
        · rwa [← e'.1, ← e'.2] at e
        · omega
      · exact fun e => ⟨u, v, hu, huv, hv', e⟩
    rw [this, hp]
    split_ifs with c1 c2
    · exact ⟨fun _ => by tauto, fun _ => by simp⟩
    · refine ⟨fun _ => ?_, fun _ e => by simp only [Option.some.injEq, Prod.mk.injEq] at e; omega⟩
      rcases c2.lt_or_eq with c | c
      · exact Or.inr (Or.inr (Or.inr (Or.inl c)))
      · exact Or.inr (Or.inr (Or.inr (Or.inr ⟨c, huv⟩)))
    · refine ⟨fun e => absurd rfl e, fun e => ?_⟩
      rcases e with e | e | e | e | e
      · omega
      · tauto
      · tauto
      · omega
      · omega
  · simp only [true_or, iff_true]
    rintro ⟨a, b, _, hab, _, e⟩
    rcases (Proofs.prunePair_some e).1 with e' | e' <;> simp only [Prod.mk.injEq] at e' <;> omega
  · have hp := shipped_prune h hv huv (by omega)
    have : (∃ a b, 1 ≤ a ∧ a < b ∧ b ≤ n ∧ prunePair (shippedData ex mul) (a, b) = some (u, v)) ↔
        prunePair (shippedData ex mul) (v, u) = some (u, v) := by
      constructor
      · rintro ⟨a, b, ha, hab, hb, e⟩
        rcases (Proofs.prunePair_some e).1 with e' | e' <;> simp only [Prod.mk.injEq] at e'
        · omega
        · rwa [← e'.1, ← e'.2] at e
      · exact fun e => ⟨v, u, hv, huv, hu', e⟩
    rw [this, hp]
    split_ifs with c1 c2
    · exact ⟨fun _ => by tauto, fun _ => by simp⟩
    · refine ⟨fun e => absurd rfl e, fun e => ?_⟩
      rcases e with e | e | e | e | e
      · omega
      · tauto
      · tauto
      · omega
      · omega
    · refine ⟨fun _ => Or.inr (Or.inr (Or.inr (Or.inl (by omega)))), fun _ e => ?_⟩
      simp only [Option.some.injEq, Prod.mk.injEq] at e; omega

/-- Values of `exp(-k)` to three digits, with the exact product. -/
def exDigits : ℕ → ℚ
  | 0 => 1
  | 1 => 368 / 1000
  | 2 => 135 / 1000
  | 3 => 50 / 1000
  | _ => 18 / 1000

theorem exDigits_ok : ExpOk exDigits (· * ·) := by
  refine ⟨rfl, fun j k h1 h2 => ?_, one_mul, mul_one, fun j k h1 h2 h3 h4 => ?_⟩
  · interval_cases k <;> interval_cases j <;> decide +kernel
  · interval_cases k <;> interval_cases j <;> decide +kernel

/-- Units 7 and 10: the distance is 3 one way and 2 the other way, so neither order is removed. -/
theorem C68_claim_false : ¬ C68_claim := by
  intro h
  obtain ⟨l, h1, h2⟩ := h _ _ exDigits_ok 10 (by omega)
  obtain ⟨l', h1', -, h3⟩ := C68_pruned_partial exDigits_ok (n := 10) (by omega)
  obtain rfl : l = l' := by rw [h1] at h1'; exact Option.some.inj h1'
  exact absurd (h2 7 10 (by omega) ((h3 _ _).mpr (by decide)) ((h3 _ _).mpr (by decide))) (by decide)

/-- Five units: of units 1 and 4 the fighters of unit 1 are taken; of units 1 and 5 both orders are offered. -/
example : pruneTeams (shippedData exDigits (· * ·)) 5 =
    some [(1, 1), (1, 2), (1, 3), (1, 4), (1, 5), (2, 2), (2, 3), (2, 4), (2, 5), (3, 3), (3, 4), (3, 5), (4, 4), (4, 5),
      (5, 1), (5, 2), (5, 3), (5, 4), (5, 5)] := by decide +kernel

/-- All units: 80 of the 121 pairs are offered. -/
example : (pruneTeams (shippedData exDigits (· * ·)) 11).map (fun l => l.length) = some 80 := by decide +kernel

/-- C68, rewards: every generated team has a reward between -10 and -2, so that sending a team is always worth it before the projects are
considered. -/
theorem C68_rewards {ex : ℕ → ℚ} {mul : ℚ → ℚ → ℚ} {caps types : List ℕ} {combos : List (ℕ × ℕ)} (hn : caps.length ≤ 11)
    (hp : PairsOk caps.length combos) (ht : TypesOk types) :
    ∃ T, generateTeams (shippedData ex mul) caps types combos = some T ∧ ∀ x ∈ T.rewards, -10 ≤ x ∧ x ≤ -2 := by
  obtain ⟨T, count, h1, -, h2, -⟩ := C33_rewards (d := shippedData ex mul) hp ht
  refine ⟨T, h1, fun x hx => ?_⟩
  rw [h2] at hx
  obtain ⟨⟨u, v, t⟩, hk, rfl⟩ := List.mem_map.mp hx
  unfold teams at hk
  simp only [List.mem_flatMap, List.mem_replicate, Prod.mk.injEq] at hk
  obtain ⟨c, hc, t', ht', -, e1, e2, -⟩ := hk
  have hok := hp c hc
  rw [← e1, ← e2] at hok
  obtain ⟨u1, u2, v1, v2⟩ := hok
  have key : -10 ≤ teamReward (shippedData ex mul) (u, v, 1) ∧ teamReward (shippedData ex mul) (u, v, 1) ≤ -2 ∧
      -10 ≤ teamReward (shippedData ex mul) (u, v, 2) ∧ teamReward (shippedData ex mul) (u, v, 2) ≤ -2 := by
    have hall : ∀ a < 11, ∀ b < 11, (distTable.getD b []).getD a 0 + fuTable.getD a 0 + wuTable.getD b 0 ≤ 8 := by decide +kernel
    have := hall (u - 1) (by omega) (v - 1) (by omega)
    simp only [teamReward, shippedData, crew, if_true, one_ne_zero, if_false]
    omega
  by_cases hw : (crew t).2 = 0
  · have : teamReward (shippedData ex mul) (u, v, t) = teamReward (shippedData ex mul) (u, v, 1) := by
      unfold teamReward; simp only [if_pos hw]; rfl
    rw [this]; exact ⟨key.1, key.2.1⟩
  · have : teamReward (shippedData ex mul) (u, v, t) = teamReward (shippedData ex mul) (u, v, 2) := by
      unfold teamReward; simp only [if_neg hw]; rfl
    rw [this]; exact ⟨key.2.2.1, key.2.2.2⟩

example : (generateTeams (shippedData exDigits (· * ·)) [4, 4] [1, 5] [(1, 1), (1, 2)]).map (fun T => T.rewards) =
    some [-10, -10, -10, -10, -8, -8, -8] := by decide +kernel

/-- C68, the shipped tables satisfy what C54, C62, C65, C66 and C67 ask for, for up to eleven units of capacity at least 4. -/
theorem C68_applies {ex : ℕ → ℚ} {mul : ℚ → ℚ → ℚ} {caps types : List ℕ} (h0 : 0 < caps.length) (hn : caps.length ≤ 11)
    (hc : ∀ c ∈ caps, 4 ≤ c) (ht : TypesOk types) (ht0 : types ≠ []) :
    ∃ combos count, KcCallOk (shippedData ex mul) caps types combos count := by
  obtain ⟨l, h1, -, hp, -⟩ := C41_pruned (d := shippedData ex mul) hn
  obtain ⟨T, count, -, h2, -⟩ := C33_rewards (d := shippedData ex mul) hp ht
  refine ⟨l, count, h0, hn, h1, ht, ht0, fun c hc' t ht' _ x => ?_, h2⟩
  have hcr : (crew t).1 + (crew t).2 ≤ 4 := by
    have := ht t ht'
    obtain ⟨a, b⟩ := this
    interval_cases t <;> decide
  obtain ⟨a1, a2, a3, a4⟩ := hp c hc'
  by_cases hx : x = c.1 ∨ x = c.2
  · have : 4 ≤ unitCap caps x := by
      unfold unitCap
      have hlt : x - 1 < caps.length := by omega
      rw [List.getD_eq_getElem?_getD, List.getElem?_eq_getElem hlt]
      exact hc _ (List.getElem_mem hlt)
    unfold need
    simp only
    split_ifs <;> omega
  · push Not at hx
    unfold need
    simp [hx.1, hx.2]

/-- C68, a whole run with the shipped tables ends without error for every input file with the right number of teams, and no capacity is exceeded. -/
theorem C68_call {ex : ℕ → ℚ} {mul : ℚ → ℚ → ℚ} {caps types : List ℕ} (h0 : 0 < caps.length) (hn : caps.length ≤ 11)
    (hc : ∀ c ∈ caps, 4 ≤ c) (ht : TypesOk types) (ht0 : types ≠ []) :
    ∃ L : List (ℕ × ℕ × ℕ), L ≠ [] ∧ (∀ k ∈ L, k.2.2 ∈ types ∧ RealKind k) ∧
      ∀ (P : ℕ) (w : ℕ → ℚ) (R : ℕ → ℕ → ℚ) (flag : Bool) (alpha : ℚ) (K : ℕ) (q : ℚ) (byTeams : Bool), 0 < P → q ≤ 0 →
        ∃ r, kcCall (shippedData ex mul) (K + 1) flag alpha true (if byTeams then 2 else 1) (fin q) (inputFile caps types L.length P w R) = some r ∧
          ∀ u, ¬ Over caps L r.kept u := by
  obtain ⟨combos, count, h⟩ := C68_applies (ex := ex) (mul := mul) h0 hn hc ht ht0
  refine ⟨teams combos types count, ?_, fun k hk => ?_, fun P w R flag alpha K q byTeams hP hq => ?_⟩
  · intro e
    have := (call_start (w := fun _ => 0) (R := fun _ _ => 0) h one_pos rfl).1
    obtain ⟨t, ht, -⟩ := this.used 0 h0
    rw [e] at ht
    simp at ht
  · unfold teams at hk
    simp only [List.mem_flatMap, List.mem_replicate] at hk
    obtain ⟨c, hc, t, ht', hne, rfl⟩ := hk
    refine ⟨ht', ?_⟩
    by_contra hr
    exact hne ((h.counts c hc t ht').2 hr)
  · obtain ⟨⟨a, raw, o, y, e, c, htr⟩, hall⟩ := C54_call (w := w) (R := R) (flag := flag) (alpha := alpha) h hP rfl
    obtain ⟨r, sel, r1, -, -, -, -, r2, -⟩ := hall a raw o y e c htr K q byTeams hq
    exact ⟨r, r1, r2⟩

end Verif.Properties
