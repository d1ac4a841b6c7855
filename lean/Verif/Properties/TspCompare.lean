import Verif.Model.TspCompare
import Verif.Properties.TspSymmetric

/-! # C97: the comparison with the reference tour -/

namespace Verif.Properties
open Verif Num Spec Model

/-- The tour is a shortest one. -/
def Shortest (C : ℕ → ℕ → ℚ) (n : ℕ) (t : List ℕ) : Prop :=
  IsTour (fun u v => u ≠ v) n t ∧ ∀ t', IsTour (fun u v => u ≠ v) n t' → walkCost C t ≤ walkCost C t'

/-- C97, the cost of the reference tour: the sum along it, for every list of existing nodes. -/
theorem C97_reference {n : ℕ} {m : Mat Num} {C : ℕ → ℕ → ℚ} (hm : m.Is n n C) {t : List ℕ} (ht : ∀ v ∈ t, v < n) :
    referenceCost m t = some (fin (walkCost C t)) := by
  have key : ∀ k, k ≤ t.length - 1 → loopUp k (fun i acc => do
      let u ← t[i]?
      let v ← t[i + 1]?
      let c ← m.rd u v
      some (acc + c)) 0 = some (fin ((((t.zip t.tail).take k).map (fun p => C p.1 p.2)).sum)) := by
    intro k
    induction k with
    | zero => intro _; rfl
    | succ k ih =>
      intro hk
      have h1 : k < t.length := by omega
      have h2 : k + 1 < t.length := by omega
      have hz : k < (t.zip t.tail).length := by rw [List.length_zip, List.length_tail]; omega
      rw [loopUp, ih (by omega)]
      have hr : m.rd t[k] t[k + 1] = some (fin (C t[k] t[k + 1])) := by
        unfold Mat.rd
        rw [if_pos ⟨by rw [hm.1]; exact ht _ (List.getElem_mem h1), by rw [hm.2.1]; exact ht _ (List.getElem_mem h2)⟩,
          hm.2.2 _ (ht _ (List.getElem_mem h1)) _ (ht _ (List.getElem_mem h2))]
      simp only [Option.bind_some, List.getElem?_eq_getElem h1, List.getElem?_eq_getElem h2, Option.bind_eq_bind, hr]
      rw [List.take_succ, List.getElem?_eq_getElem hz]
      simp [fin_add]
  unfold referenceCost
  rw [key _ (le_refl _)]
  have : (t.zip t.tail).length ≤ t.length - 1 := by rw [List.length_zip, List.length_tail]; omega
  rw [List.take_of_length_le this]
  rfl

/-- C97, storing, in full: with the flag for saving, the results of every run are stored. -/
def C97_claim : Prop :=
  ∀ (s : TspSettings) (lkh : Bool) (refTour : List ℕ) (n : ℕ) (m : Mat Num) (C : ℕ → ℕ → ℚ) (res : TspResult × Bool), m.Is n n C →
    (∀ v ∈ refTour, v < n) → ∃ rec, preAnalysis s lkh true refTour m res = some [rec] ∧ rec.tour = res.1.tour ∧ rec.cost = res.1.cost

/-- C97, storing without the reference solver: the program ends with an error after the run, and nothing is stored. -/
theorem C97_no_reference (s : TspSettings) (refTour : List ℕ) (m : Mat Num) (res : TspResult × Bool) :
    preAnalysis s false true refTour m res = none := rfl

/-- C97 is false: without the reference solver nothing is stored. -/
theorem C97_claim_false : ¬ C97_claim := by
  intro h
  obtain ⟨rec, h1, -⟩ := h ⟨1, false, false, false, 0, 0, 1, 1, false, false⟩ false [] 0 ⟨0, 0, fun _ _ => 0⟩ (fun _ _ => 0)
    (⟨[], none, none, false, false, false, 0, 0, 0, []⟩, false) ⟨rfl, rfl, fun i hi => absurd hi (Nat.not_lt_zero i)⟩ (by simp)
  rw [C97_no_reference] at h1
  simp at h1

/-- C97, storing with the reference solver: one record with the settings, the results of the run, the reference tour and its cost; without the flag for
saving nothing is stored and there is no error, with or without the reference solver. -/
theorem C97_stored_partial {n : ℕ} {m : Mat Num} {C : ℕ → ℕ → ℚ} (hm : m.Is n n C) {refTour : List ℕ} (ht : ∀ v ∈ refTour, v < n) (s : TspSettings)
    (lkh : Bool) (r : TspResult) (done : Bool) :
    preAnalysis s lkh false refTour m (r, done) = some [] ∧
    ∃ rec, preAnalysis s true true refTour m (r, done) = some [rec] ∧ rec.reset = s.reset ∧ rec.flag = s.flag ∧ rec.alpha = s.alpha ∧ rec.matrix = m ∧
      rec.tour = r.tour ∧ rec.cost = r.cost ∧ rec.refTour = refTour ∧ rec.refCost = fin (walkCost C refTour) ∧ rec.pp = done ∧ rec.numAugm = r.numAugm ∧
      rec.selected = r.selected ∧ rec.solOsc = r.solOsc ∧ rec.noImprov = r.noImprov ∧ rec.noCons = r.noCons ∧ rec.intrinsic = r.intrinsic ∧
      rec.numAdded = r.numAdded := by
  constructor
  · cases lkh
    · rfl
    · simp [preAnalysis, C97_reference hm ht]
  · refine ⟨⟨s.reset, s.flag, s.alpha, m, r.tour, r.cost, refTour, fin (walkCost C refTour), done, r.numAugm, r.selected, r.solOsc, r.noImprov,
      r.noCons, r.intrinsic, r.numAdded⟩, ?_, rfl, rfl, rfl, rfl, rfl, rfl, rfl, rfl, rfl, rfl, rfl, rfl, rfl, rfl, rfl, rfl⟩
    simp [preAnalysis, C97_reference hm ht]

section
variable {s : TspSettings} {order : ℕ → List (ℕ × ℕ) → List ℕ} {fuel limit n : ℕ} {m : Mat Num} {C : ℕ → ℕ → ℚ} {edges : List (ℕ × ℕ)}
  {r : TspResult} {done : Bool}

/-- C97, the gap: if no cost is negative and the reference tour is a shortest one, a run that reports a tour reports at least the cost of that tour and at
least the cost of the reference tour; if the two costs agree, the reported tour is a shortest one. -/
theorem C97_gap (hm : m.Is n n C) (h : AllEdges n edges) (hn : 3 ≤ n) (hpos : ∀ u < n, ∀ v < n, 0 ≤ C u v) (ho : ∀ k sel, StartOrder sel (order k sel))
    (ha : 1 ≤ s.maxAugm) (hlim : n ≤ limit) (hr : runImpa s order fuel limit n m edges = some (some (r, done))) {t refTour : List ℕ}
    (ht : r.tour = some t) (href : Shortest C n refTour) :
    ∃ q, r.cost = fin q ∧ referenceCost m refTour = some (fin (walkCost C refTour)) ∧ IsTour (fun u v => u ≠ v) n t ∧ walkCost C t ≤ q ∧
      walkCost C refTour ≤ q ∧ (q = walkCost C refTour → Shortest C n t) := by
  obtain ⟨k, R, g1, -, -, -, g5, -, -, g8, g9, -⟩ := C49_result hm h hn ho ha hlim hr
  have href1 : ∀ v ∈ refTour, v < n := fun v hv => (href.1.all v).mp hv
  have key : ∃ q, r.cost = fin q ∧ IsTour (fun u v => u ≠ v) n t ∧ walkCost C t ≤ q := by
    cases hd : done with
    | true =>
      obtain ⟨-, t', e1, e2, e3⟩ := g9 hd
      obtain rfl : t' = t := Option.some.inj (e1.symm.trans ht)
      exact ⟨_, e3, e2, le_refl _⟩
    | false =>
      obtain ⟨p1, cost, p2, p3⟩ := g8 hd
      have htour := (p1 t ht).1
      obtain ⟨q1, q2⟩ := Proofs.selects_sum h.1 p2
      have hsub := Proofs.selects_sub p2
      refine ⟨cost, p3, ⟨htour.length, htour.closed, htour.steps.imp fun _ _ huv => (h.2.1 _ (hsub _ huv)).2.2, htour.once, htour.all⟩, ?_⟩
      obtain ⟨-, t2, t3⟩ := Proofs.isTour_steps htour
      have hsp : List.Subperm (t.zip t.tail) r.selected := List.subperm_of_subset t2 fun c hc => t3 c hc
      obtain ⟨l, l1, l2⟩ := hsp
      rw [q2, walkCost, ← (l1.map _).sum_eq]
      refine List.Sublist.sum_le_sum (l2.map _) fun x hx => ?_
      obtain ⟨p, hp, rfl⟩ := List.mem_map.mp hx
      exact hpos _ (h.2.1 p (hsub p hp)).1 _ (h.2.1 p (hsub p hp)).2.1
  obtain ⟨q, k1, k2, k3⟩ := key
  refine ⟨q, k1, C97_reference hm href1, k2, k3, (href.2 t k2).trans k3, fun e => ⟨k2, fun t' ht' => ?_⟩⟩
  exact k3.trans (e.le.trans (href.2 t' ht'))

/-- C97, symmetric costs: a run that reports a tour without augmentation and without post-processing reports at least twice the cost of the reference tour,
even if it has found a shortest tour. -/
theorem C97_symmetric (hm : m.Is n n C) (h : AllEdges n edges) (hn : 3 ≤ n) (hpos : ∀ u < n, ∀ v < n, 0 ≤ C u v) (hC : ∀ u < n, ∀ v < n, C u v = C v u)
    (ho : ∀ k sel, StartOrder sel (order k sel)) (ha : 1 ≤ s.maxAugm) (hlim : n ≤ limit)
    (hr : runImpa s order fuel limit n m edges = some (some (r, false))) (h0 : r.numAugm = 0) {t refTour : List ℕ} (ht : r.tour = some t)
    (href : Shortest C n refTour) : ∃ q, r.cost = fin q ∧ 2 * walkCost C refTour ≤ q := by
  obtain ⟨-, h2⟩ := C51_call hm h hn hC ho ha hlim hr h0
  obtain ⟨-, -, h3⟩ := h2 rfl t ht
  obtain ⟨q, q1, q2⟩ := h3 hpos
  obtain ⟨q', -, -, k2, -⟩ := C97_gap hm h hn hpos ho ha hlim hr ht href
  exact ⟨q, q1, by have := href.2 t k2; linarith⟩

end

set_option synthInstance.maxSize 1000 in
/-- Non-vacuity of C97: the closed tour 0, 2, 1, 0 has cost 12; a record is stored with the reference solver only; a node that does not exist is an error. -/
example : referenceCost ⟨3, 3, fun i j => fin (i + 3 * j)⟩ [0, 2, 1, 0] = some (fin 12) ∧
    (preAnalysis ⟨1, false, false, false, 0, 0, 1, 1, false, false⟩ true true [0, 2, 1, 0] ⟨3, 3, fun i j => fin (i + 3 * j)⟩
      (⟨[(0, 1)], none, some [0, 1, 2, 0], false, false, false, 0, 0, fin 13, []⟩, true)).map
        (fun l => l.map (fun r => (r.tour, r.cost, r.refTour, r.refCost, r.pp))) =
      some [(some [0, 1, 2, 0], fin 13, [0, 2, 1, 0], fin 12, true)] ∧
    referenceCost ⟨3, 3, fun i j => fin (i + 3 * j)⟩ [0, 3, 1, 0] = none := by
  decide +kernel

end Verif.Properties
