import Verif.Proofs.KnapsackOut

/-! Property C07: the messages of a department's capacity constraint. -/

namespace Verif.Properties
open Verif Num Spec Model Proofs

/-- C07: for every capacity, number of teams, weight vector (at least one positive weight, none above the capacity) and
all finite incoming messages, the forward, backward and output passes run without out-of-range access; a team that uses
the department receives the exact min-sum message of "the total weight is at most the capacity"; a team with weight
zero receives zero. -/
theorem C07_knapsack_messages_exact {T cap sz : ℕ} {nz : List ℕ} {w : Arr ℕ} {wf : ℕ → ℕ} {m : Arr Num} {mf : ℕ → ℚ}
    (ok : DeptOk T cap nz sz w wf) (hm : m.Is T mf) {old : Arr Num} (ho : old.size = T) :
    ∃ out, knapMessages T cap nz sz w m old = some out ∧ out.size = T ∧
      ∀ t < T,
        (wf t ≠ 0 → IsMessage ((Finset.range T).filter (fun t => wf t ≠ 0)) (fun S => S.sum wf ≤ cap) mf t (out.data t)) ∧
        (wf t = 0 → out.data t = 0) := by
  obtain ⟨r, h1, h2, h3⟩ := knapMessages_spec ok hm ho
  refine ⟨r, h1, h2, fun t ht => ⟨fun h => ?_, (h3 t ht).2⟩⟩
  have e : users wf 0 T = (Finset.range T).filter (fun t => wf t ≠ 0) := by ext s; simp [users]
  rw [← e]
  exact (h3 t ht).1 h

/-- C07: every message is finite (both "with the team" and "without the team" are possible). -/
theorem C07_knapsack_messages_finite {T cap sz : ℕ} {nz : List ℕ} {w : Arr ℕ} {wf : ℕ → ℕ} {m : Arr Num} {mf : ℕ → ℚ}
    (ok : DeptOk T cap nz sz w wf) (hm : m.Is T mf) {old out : Arr Num} (ho : old.size = T)
    (h : knapMessages T cap nz sz w m old = some out) {t : ℕ} (ht : t < T) : ∃ q, out.data t = fin q := by
  obtain ⟨r, h1, -, h3⟩ := knapMessages_spec ok hm ho
  obtain rfl : out = r := by rw [h] at h1; exact Option.some.inj h1
  by_cases hw : wf t = 0
  · exact ⟨0, (h3 t ht).2 hw⟩
  · exact knap_message_fin ht hw (ok.fits t ((ok.mem t).mpr ⟨ht, hw⟩)) ((h3 t ht).1 hw)

/-- Five teams with weights 0, 2, 0, 1, 0 and capacity 2: gaps before, between and after the users. -/
def exWeights : ℕ → ℕ := fun t => if t = 1 then 2 else if t = 3 then 1 else 0

theorem exDept : DeptOk 5 2 [1, 3] 2 ⟨5, exWeights⟩ exWeights where
  sorted := by decide
  mem := by
    intro t
    simp only [List.mem_cons, List.not_mem_nil, or_false, exWeights]
    by_cases h1 : t = 1
    · simp [h1]
    · by_cases h3 : t = 3
      · simp [h3]
      · simp [h1, h3]
  nonempty := by decide
  size := rfl
  w_size := rfl
  w_data := fun _ _ => rfl
  fits := by decide

/-- The hypotheses of C07 hold on that department, with messages -5, -1, 7, -3, 2. -/
example : ∃ out, knapMessages 5 2 [1, 3] 2 ⟨5, exWeights⟩
    ⟨5, fun t => fin (([-5, -1, 7, -3, 2] : List ℚ).getD t 0)⟩ (Arr.fill 5 0) = some out ∧ out.size = 5 := by
  obtain ⟨out, h1, h2, -⟩ := C07_knapsack_messages_exact exDept
    (m := ⟨5, fun t => fin (([-5, -1, 7, -3, 2] : List ℚ).getD t 0)⟩) ⟨rfl, fun _ _ => rfl⟩ (old := Arr.fill 5 0) rfl
  exact ⟨out, h1, h2⟩

/-- The two users compete for the capacity: team 1 is told 3, team 3 is told 1. -/
example : ((knapMessages 5 2 [1, 3] 2 ⟨5, exWeights⟩
    ⟨5, fun t => fin (([-5, -1, 7, -3, 2] : List ℚ).getD t 0)⟩ (Arr.fill 5 0)).map Arr.toList) =
    some [fin 0, fin 3, fin 0, fin 1, fin 0] := by
  decide +kernel

end Verif.Properties
