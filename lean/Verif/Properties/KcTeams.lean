import Verif.Proofs.KcTeams

/-! C33: the generated teams. C41: the pruning of unit pairs. -/

namespace Verif.Properties
open Verif Model Spec Proofs

/-- The capacity of unit `d`, units numbered from 1. -/
def unitCap (caps : List ℕ) (d : ℕ) : ℕ := caps.getD (d - 1) 0

/-- The reward of a team: distance, fighters and, if it has weasels, weasels. -/
def teamReward (d : TeamData) (k : ℕ × ℕ × ℕ) : ℤ :=
  d.dist (k.2.1 - 1) (k.1 - 1) + d.fu (k.1 - 1) + (if (crew k.2.2).2 = 0 then 0 else d.wu (k.2.1 - 1)) - d.k1

theorem rewardOf_eq (d : TeamData) : rewardOf d = teamReward d := by
  funext k; unfold rewardOf teamReward; ring

/-- C33, full claim: every unit has one weight entry per generated team, and the entries are the true unit counts. -/
def C33_claim : Prop :=
  ∀ (d : TeamData) (caps types : List ℕ) (combos : List (ℕ × ℕ)), PairsOk caps.length combos → TypesOk types →
    ∃ T count, generateTeams d caps types combos = some T ∧
      (∀ c ∈ combos, ∀ t ∈ types, IsCount (unitCap caps) (c.1, c.2, t) (count (c.1, c.2, t))) ∧
      ∀ x < caps.length, T.weights[x]? = some ((teams combos types count).map (fun k => need k (x + 1)))

def flatData : TeamData := ⟨11, fun _ => 0, fun _ => 0, 10, fun _ _ => 0, fun _ _ => 0, fun _ _ => 1⟩

/-- Two units with capacity 3 and teams of types 5 and 1: no team of type 5 fits into one unit, but a weight is written for it. -/
theorem C33_claim_false : ¬ C33_claim := by
  intro h
  obtain ⟨T, count, h1, h2, h3⟩ := h flatData [3, 3] [5, 1] [(1, 1)] (by unfold PairsOk; decide) (by unfold TypesOk; decide)
  have e : (generateTeams flatData [3, 3] [5, 1] [(1, 1)]).map (fun T => T.weights) =
      some [[4, 1, 1, 1], [0, 0, 0]] := by decide +kernel
  rw [h1, Option.map_some, Option.some.injEq] at e
  have c5 : count (1, 1, 5) = 0 := by
    have hm := ((h2 (1, 1) (by simp) 5 (by simp)).1 (Or.inr rfl)).1 1
    have : need (1, 1, 5) 1 = 4 := by decide
    rw [this] at hm
    simp only [unitCap] at hm
    have h' : count (1, 1, 5) * 4 ≤ 3 := hm
    omega
  have c1 : count (1, 1, 1) ≤ 3 := by
    have hm := ((h2 (1, 1) (by simp) 1 (by simp)).1 (Or.inr rfl)).1 1
    have : need (1, 1, 1) 1 = 1 := by decide
    rw [this] at hm
    have h' : count (1, 1, 1) * 1 ≤ 3 := hm
    omega
  have := congrArg (Option.map List.length) (h3 0 (by simp))
  rw [e] at this
  simp [teams, c5] at this
  omega

/-- C33, without any restriction: one reward per team, the true rewards, in order; and the table of last indices finds the pair of
units of every team. -/
theorem C33_rewards {d : TeamData} {caps types : List ℕ} {combos : List (ℕ × ℕ)} (hp : PairsOk caps.length combos)
    (ht : TypesOk types) :
    ∃ T count, generateTeams d caps types combos = some T ∧
      (∀ c ∈ combos, ∀ t ∈ types, IsCount (unitCap caps) (c.1, c.2, t) (count (c.1, c.2, t))) ∧
      T.rewards = (teams combos types count).map (teamReward d) ∧
      ∀ (k : ℕ) kind, (teams combos types count)[k]? = some kind → ∃ i : ℕ, combos[i]? = some (kind.1, kind.2.1) ∧
        ∃ z, T.last[i]? = some z ∧ (k : ℤ) ≤ z ∧ ∀ j < i, ∀ y, T.last[j]? = some y → y < k := by
  obtain ⟨st, h1, h2, h3⟩ := generateTeams_spec (d := d) (fit := False) ht hp (fun h => h.elim)
  exact ⟨_, _, h1, h2, by rw [← rewardOf_eq]; exact h3.rewards, fun k kind hk => lastIndex_spec hk⟩

/-- C33 when at least one team of every kind fits its units: every unit has exactly one weight entry and one type entry per team, and
the entries are the true ones. Missing: kinds that do not fit (`C33_claim_false`). -/
theorem C33_weights_partial {d : TeamData} {caps types : List ℕ} {combos : List (ℕ × ℕ)} (hp : PairsOk caps.length combos)
    (ht : TypesOk types)
    (hfit : ∀ c ∈ combos, ∀ t ∈ types, RealKind (c.1, c.2, t) → ∀ x, need (c.1, c.2, t) x ≤ unitCap caps x) :
    ∃ T count, generateTeams d caps types combos = some T ∧
      (∀ c ∈ combos, ∀ t ∈ types, IsCount (unitCap caps) (c.1, c.2, t) (count (c.1, c.2, t))) ∧
      T.rewards.length = (teams combos types count).length ∧ T.weights.length = caps.length ∧
      ∀ x < caps.length, T.weights[x]? = some ((teams combos types count).map (fun k => need k (x + 1))) ∧
        T.types[x]? = some ((teams combos types count).map (fun k => k.2.2)) := by
  have hex : ∀ c ∈ combos, ∀ t ∈ types, RealKind (c.1, c.2, t) → countOf (capOf caps) (c.1, c.2, t) ≠ 0 := by
    obtain ⟨st, h1, h2, h3⟩ := generateTeams_spec (d := d) (fit := False) ht hp (fun h => h.elim)
    intro c hc t htt hr h0
    have := (h2 c hc t htt).1 hr
    have h1 : (1 : ℕ) ≤ countOf (capOf caps) (c.1, c.2, t) := this.2 (by
      intro x; rw [one_mul]; exact hfit c hc t htt hr x)
    omega
  obtain ⟨st, h1, h2, h3⟩ := generateTeams_spec (d := d) (fit := True) ht hp (fun _ => hex)
  refine ⟨_, _, h1, h2, by simp [h3.rewards], h3.shaped.1, fun x hx => ⟨?_, ?_⟩⟩
  · rw [← (h3.tables trivial x hx).1, List.getD_eq_getElem?_getD, List.getElem?_eq_getElem (by rw [h3.shaped.1]; exact hx)]; rfl
  · rw [← (h3.tables trivial x hx).2, List.getD_eq_getElem?_getD, List.getElem?_eq_getElem (by rw [h3.shaped.2]; exact hx)]; rfl

/-- Two units with capacities 4 and 6, types 2 and 4. -/
example : (generateTeams flatData [4, 6] [2, 4] [(1, 1), (1, 2)]).map (fun T => (T.weights, T.last)) =
    some ([[2, 2, 3, 1, 1, 1, 1, 2, 2], [0, 0, 0, 1, 1, 1, 1, 1, 1]], [2, 8]) := by decide +kernel

example : PairsOk 2 [(1, 1), (1, 2)] ∧ TypesOk [2, 4] ∧
    ∀ c ∈ [((1 : ℕ), (1 : ℕ)), (1, 2)], ∀ t ∈ [2, 4], ∀ x < 3, need (c.1, c.2, t) x ≤ unitCap [4, 6] x := by
  unfold PairsOk TypesOk; decide

/-- C41: pruning keeps every pair `(u, u)`, and of two different units at least one order; no pair occurs twice. A pair is dropped only
if the other order is at least as likely (`ratio`) and meets at the same point; one of the two orders is dropped whenever they meet at
the same point and the ratios or the distances agree. -/
theorem C41_pruned {d : TeamData} {n : ℕ} (hn : n ≤ d.size) :
    ∃ l, pruneTeams d n = some l ∧ l.Nodup ∧ PairsOk n l ∧ (∀ u, 1 ≤ u → u ≤ n → (u, u) ∈ l) ∧
      (∀ u v, 1 ≤ u → u ≤ n → 1 ≤ v → v ≤ n → (u, v) ∉ l →
        (v, u) ∈ l ∧ d.ratio (u - 1) (v - 1) ≤ d.ratio (v - 1) (u - 1) ∧ d.rdv (u - 1) (v - 1) = d.rdv (v - 1) (u - 1)) ∧
      (∀ u v, u < v → d.rdv (u - 1) (v - 1) = d.rdv (v - 1) (u - 1) →
        (d.ratio (u - 1) (v - 1) = d.ratio (v - 1) (u - 1) ∨ d.dist (u - 1) (v - 1) = d.dist (v - 1) (u - 1)) →
        ¬ ((u, v) ∈ l ∧ (v, u) ∈ l)) := by
  obtain ⟨l, h1, h2, h3⟩ := pruneTeams_mem hn
  refine ⟨l, h1, h2, fun c hc => ?_, fun u hu hu' => ?_, fun u v hu hu' hv hv' hnot => ?_, fun u v huv hr hd => ?_⟩
  · obtain ⟨⟨⟨a, b⟩, c, d⟩, _⟩ := (h3 c).mp hc
    exact ⟨a, b, c, d⟩
  · refine (h3 _).mpr ⟨⟨⟨hu, hu'⟩, hu, hu'⟩, ?_⟩
    rintro ⟨a, b, _, hab, _, h⟩
    rcases (prunePair_some h).1 with e | e <;> simp only [Prod.mk.injEq] at e <;> omega
  · have : ∃ a b, 1 ≤ a ∧ a < b ∧ b ≤ n ∧ prunePair d (a, b) = some (u, v) := by
      by_contra hno
      exact hnot ((h3 _).mpr ⟨⟨⟨hu, hu'⟩, hv, hv'⟩, hno⟩)
    obtain ⟨a, b, ha, hab, hb, h⟩ := this
    obtain ⟨e, hr, hd⟩ := prunePair_some h
    refine ⟨(h3 _).mpr ⟨⟨⟨hv, hv'⟩, hu, hu'⟩, ?_⟩, hr, hd⟩
    rintro ⟨a', b', _, hab', _, h'⟩
    obtain ⟨e', _, _⟩ := prunePair_some h'
    have : a' = a ∧ b' = b := by
      rcases e with e | e <;> rcases e' with e' | e' <;> simp only [Prod.mk.injEq] at e e' <;> omega
    rw [this.1, this.2, h, Option.some.injEq, Prod.mk.injEq] at h'
    rcases e with e | e <;> simp only [Prod.mk.injEq] at e <;> omega
  · rintro ⟨hm, hm'⟩
    obtain ⟨x, hx⟩ := prunePair_isSome hr.symm (hd.imp Eq.symm Eq.symm)
    obtain ⟨⟨⟨a, _⟩, _, b⟩, n1⟩ := (h3 _).mp hm
    have n2 := ((h3 _).mp hm').2
    rcases (prunePair_some hx).1 with e | e
    · exact n1 ⟨u, v, a, huv, b, by rw [hx, e]⟩
    · exact n2 ⟨u, v, a, huv, b, by rw [hx, e]⟩

/-- Three units, equal ratios and one meeting point: the pairs `(u, v)` with `u ≤ v` are left. -/
example : pruneTeams flatData 3 = some [(1, 1), (1, 2), (1, 3), (2, 2), (2, 3), (3, 3)] := by decide +kernel
end Verif.Properties
