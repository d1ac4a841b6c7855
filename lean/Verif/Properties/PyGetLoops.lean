import Verif.Proofs.PyGetLoops

/-! # C83: the search for one loop of a given length -/

namespace Verif.Properties
open Verif Num Spec Model

/-- C83.  `get_loops` always returns, and a returned loop is a cycle of the selected edges with the given number of nodes. -/
theorem C83_sound (sel : List (ℕ × ℕ)) (len : ℕ) : ∃ r, pyGetLoops sel len = some r ∧ ∀ l, r = some l → l.length = len ∧ IsCycle (Joined sel) l := by
  obtain ⟨r, h1, h2, -⟩ := Proofs.getLoops_inv sel len (fun _ => False) (fun _ _ h _ => h.elim)
  exact ⟨r, h1, h2⟩

/-- C83, full claim: it finds a loop of the given length whenever there is one. -/
def C83_claim : Prop := ∀ (sel : List (ℕ × ℕ)) (len : ℕ) (l0 : List ℕ), IsCycle (Joined sel) l0 → l0.length = len → ∃ l, pyGetLoops sel len = some (some l)

/-- C83 is false: the search from node 0 marks the nodes of the loop `1 → 2 → 1` as visited, so no search starts from them. -/
theorem C83_claim_false : ¬ C83_claim := by
  intro h
  obtain ⟨l, hl⟩ := h [(0, 1), (1, 2), (2, 1)] 2 [1, 2] ⟨1, 2, ⟨rfl, rfl, by simp [Joined], by decide⟩, by simp [Joined]⟩ rfl
  have : pyGetLoops [(0, 1), (1, 2), (2, 1)] 2 = some none := by decide +kernel
  rw [this] at hl
  cases hl

/-- C83 when no two selected edges leave or enter the same node: a loop is returned exactly if there is one of this length. -/
theorem C83_complete_partial {sel : List (ℕ × ℕ)} (hout : ∀ u v w, Joined sel u v → Joined sel u w → v = w)
    (hin : ∀ u v w, Joined sel u w → Joined sel v w → u = v) (len : ℕ) :
    (∃ l, pyGetLoops sel len = some (some l)) ↔ ∃ l, IsCycle (Joined sel) l ∧ l.length = len := by
  constructor
  · rintro ⟨l, hl⟩
    obtain ⟨r, h1, h2⟩ := C83_sound sel len
    rw [hl] at h1
    obtain rfl := Option.some.inj h1
    exact ⟨l, (h2 l rfl).2, (h2 l rfl).1⟩
  · rintro ⟨l0, hc, rfl⟩
    obtain ⟨r, h1, -, h2⟩ := Proofs.getLoops_inv sel l0.length (· ∈ l0) (fun x y hy hxy => Proofs.cycle_back hout hin hc hxy hy)
    have hs : r.isSome := by
      by_contra hno
      obtain ⟨u, hu⟩ := List.exists_mem_of_ne_nil l0 (by rintro rfl; obtain ⟨_, _, ⟨h, -⟩, -⟩ := hc; simp at h)
      obtain ⟨z, hz, -⟩ := Relation.TransGen.head'_iff.mp (Proofs.isCycle_trans hc hu)
      obtain ⟨u, v, huv, hu, hm⟩ := h2 hno ⟨u, z, hz, hu⟩
      obtain ⟨l, a1, a2, a3⟩ := hm (Proofs.cycle_reach hc (Proofs.cycle_closed hout hc hu huv) hu)
      exact a3 (Proofs.cycle_rotated_of_mem hout a1 hc a2 hu).perm.length_eq
    obtain ⟨l, rfl⟩ := Option.isSome_iff_exists.mp hs
    exact ⟨l, h1⟩

/-- Non-vacuity: two loops of different lengths, both found by their length. -/
example : pyGetLoops [(0, 3), (1, 2), (3, 0), (2, 4), (4, 1)] 3 = some (some [2, 4, 1]) ∧ pyGetLoops [(0, 3), (1, 2), (3, 0), (2, 4), (4, 1)] 2 = some (some [3, 0]) ∧
    pyGetLoops [(0, 3), (1, 2), (3, 0), (2, 4), (4, 1)] 5 = some none := by decide +kernel

end Verif.Properties
