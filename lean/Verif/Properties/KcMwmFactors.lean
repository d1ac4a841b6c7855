import Verif.Proofs.Factors
import Verif.Proofs.ProjectInequality
import Verif.Proofs.Oric
import Mathlib.Tactic.NormNum

/-! Properties C01-C03: the project and coupling constraints of the assignment solver. -/

namespace Verif.Properties
open Verif Num Spec Model Proofs

/-! ## C01 -/

/-- C01: on finite messages the update runs without out-of-range access, and every outgoing message is the exact
min-sum message of "at most one team is matched to project `p`", finite and never negative. -/
theorem C01_project_messages_exact {P T : ℕ} {x : ℕ → ℕ → ℚ} {eq2proj proj2eq : Mat Num}
    (h : eq2proj.Is P T x) (hr : proj2eq.rows = P) (hc : proj2eq.cols = T) :
    ∃ out, projectInequalityUpdate T eq2proj proj2eq = some out ∧ out.rows = P ∧ out.cols = T ∧
      ∀ p < P, ∀ t < T, IsMessage (Finset.range T) AtMostOne (x p) t (out.data p t) ∧
        ∃ q, out.data p t = fin q ∧ 0 ≤ q := by
  obtain ⟨out, h1, h2, h3, h4⟩ := projectInequalityUpdate_eq h hr hc
  refine ⟨out, h1, h2, h3, fun p hp t ht => ?_⟩
  obtain ⟨q, hq, he⟩ := h4 p hp t ht
  rw [he]
  refine ⟨atMostOne_message (by simpa using ht) ?_, -q, rfl, ?_⟩
  · have : ({q | q = 0 ∨ ∃ s ∈ Finset.range T, s ≠ t ∧ x p s = q} : Set ℚ) = restVals (x p) T t := by
      ext; simp [restVals]
    rw [this]; exact hq
  · have := hq.2 (Or.inl rfl : (0 : ℚ) ∈ restVals (x p) T t)
    linarith

/-- C01: the message to team `t` does not change when only the incoming message of team `t` changes (nor when the old
contents of the output matrix change). -/
theorem C01_project_message_extrinsic {P T : ℕ} {x y : ℕ → ℕ → ℚ} {A B oldA oldB a b : Mat Num}
    (hA : A.Is P T x) (hB : B.Is P T y) (hra : oldA.rows = P) (hca : oldA.cols = T) (hrb : oldB.rows = P)
    (hcb : oldB.cols = T) (ha : projectInequalityUpdate T A oldA = some a) (hb : projectInequalityUpdate T B oldB = some b)
    {p t : ℕ} (hp : p < P) (ht : t < T) (hxy : ∀ s < T, s ≠ t → x p s = y p s) : a.data p t = b.data p t := by
  obtain ⟨a', h1, -, -, h4⟩ := projectInequalityUpdate_eq hA hra hca
  obtain ⟨b', g1, -, -, g4⟩ := projectInequalityUpdate_eq hB hrb hcb
  obtain rfl : a = a' := by rw [ha] at h1; exact Option.some.inj h1
  obtain rfl : b = b' := by rw [hb] at g1; exact Option.some.inj g1
  obtain ⟨q, hq, he⟩ := h4 p hp t ht
  obtain ⟨r, hr, hf⟩ := g4 p hp t ht
  have : restVals (x p) T t = restVals (y p) T t := by
    ext q; simp only [restVals, Set.mem_ofPred_eq]
    constructor
    · rintro (h | ⟨s, hs, hne, e⟩)
      · exact Or.inl h
      · exact Or.inr ⟨s, hs, hne, by rw [← hxy s hs hne]; exact e⟩
    · rintro (h | ⟨s, hs, hne, e⟩)
      · exact Or.inl h
      · exact Or.inr ⟨s, hs, hne, by rw [hxy s hs hne]; exact e⟩
  rw [this] at hq
  rw [he, hf, hq.unique hr]

/-- Non-trivial instance: two projects, three teams. -/
example : (Mat.ofRat 2 3 (fun p t => (p : ℚ) - 2 * t)).Is 2 3 (fun p t => (p : ℚ) - 2 * t) ∧
    ((projectInequalityUpdate 3 (Mat.ofRat 2 3 (fun p t => (p : ℚ) - 2 * t)) (Mat.fill 2 3 0)).map
      (fun o => (o.data 0 0, o.data 0 2, o.data 1 2))) = some (fin 4, fin 2, fin 1) := by
  refine ⟨Mat.ofRat_is _ _ _, by decide +kernel⟩

/-! ## C02 -/

/-- C02: the coupling constraint's message to each project edge is the exact min-sum message of "nothing is selected,
or the team is formed and matched to exactly one project", and the message handed to the project side is that message
plus the reward of the pair. -/
theorem C02_coupling_messages_exact {P T : ℕ} {e r : ℕ → ℕ → ℚ} {m : ℕ → ℚ} {E R O Q : Mat Num} {M : Arr Num}
    (hE : E.Is P T e) (hM : M.Is T m) (hR : R.Is P T r) (hor : O.rows = P) (hoc : O.cols = T)
    (hqr : Q.rows = P) (hqc : Q.cols = T) :
    ∃ o q, oricToProjectUpdate P T E M O Q R = some (o, q) ∧ o.rows = P ∧ o.cols = T ∧ q.rows = P ∧ q.cols = T ∧
      ∀ p < P, ∀ t < T, ∃ v, o.data p t = fin v ∧
        IsMessage (couplingVars P) Coupled (couplingIn (m t) (fun s => e s t)) (some p) (fin v) ∧
        q.data p t = fin (v + r p t) := by
  obtain ⟨o, q, h1, h2, h3, h4, h5, h6⟩ := oricToProjectUpdate_eq hE hM hR hor hoc hqr hqc
  refine ⟨o, q, h1, h2, h3, h4, h5, fun p hp t ht => ?_⟩
  obtain ⟨v, hv, ho, hq⟩ := h6 p hp t ht
  exact ⟨m t - v, ho, coupling_project_message hp hv, hq⟩

/-- Non-trivial instance: three projects, one team with message -5. -/
example : ((oricToProjectUpdate 3 1 (Mat.ofRat 3 1 (fun p _ => (p : ℚ))) ⟨1, fun _ => fin (-5)⟩ (Mat.fill 3 1 0)
    (Mat.fill 3 1 0) (Mat.ofRat 3 1 (fun p _ => 10 * (p : ℚ)))).map
      (fun o => (o.1.data 0 0, o.1.data 1 0, o.2.data 1 0))) = some (fin (-1), fin 0, fin 10) := by
  decide +kernel

/-! ## C03 -/

/-- C03 as claimed: for at least one project, the message to a team is the exact min-sum message of the coupling
constraint, which is the smallest edge message of the team. -/
def C03_claim : Prop :=
  ∀ (P T : ℕ) (e : ℕ → ℕ → ℚ) (E : Mat Num) (O : Arr Num), 0 < P → E.Is P T e → O.size = T →
    ∃ o, oricToTeamUpdate E O = some o ∧ o.size = T ∧ ∀ t < T, ∀ m : ℚ,
      IsMessage (couplingVars P) Coupled (couplingIn m (fun s => e s t)) none (o.data t) ∧
      ∃ v, o.data t = fin v ∧ IsLeast {q | ∃ p < P, e p t = q} v

/-- C03, guarded: the claim holds for every team that has some edge message of at most 1000000 (the start value of the
minimum search in the code).  Missing for the full claim: teams whose edge messages all exceed 1000000, where the claim
is false (`C03_claim_false`). -/
theorem C03_team_message_exact_partial {P T : ℕ} {e : ℕ → ℕ → ℚ} {E : Mat Num} {O : Arr Num} (hE : E.Is P T e)
    (hO : O.size = T) :
    ∃ o, oricToTeamUpdate E O = some o ∧ o.size = T ∧ ∀ t < T, (∃ p < P, e p t ≤ 1000000) → ∀ m : ℚ,
      IsMessage (couplingVars P) Coupled (couplingIn m (fun s => e s t)) none (o.data t) ∧
      ∃ v, o.data t = fin v ∧ IsLeast {q | ∃ p < P, e p t = q} v := by
  obtain ⟨o, h1, h2, h3⟩ := oricToTeamUpdate_eq hE hO
  refine ⟨o, h1, h2, ?_⟩
  rintro t ht ⟨p, hp, hle⟩ m
  obtain ⟨v, hv, he⟩ := h3 t ht
  have hmin : IsLeast {q | ∃ p < P, e p t = q} v := by
    refine ⟨?_, fun q hq => hv.2 (Or.inr hq)⟩
    rcases hv.1 with rfl | h
    · have := hv.2 (Or.inr ⟨p, hp, rfl⟩)
      exact ⟨p, hp, le_antisymm hle this⟩
    · exact h
  rw [he]
  exact ⟨coupling_team_message hmin, v, rfl, hmin⟩

/-- C03 is false as claimed: one project and one edge message of 2000000 gives the answer 1000000. -/
theorem C03_claim_false : ¬ C03_claim := by
  intro h
  obtain ⟨o, h1, -, h3⟩ := h 1 1 (fun _ _ => 2000000) (Mat.ofRat 1 1 (fun _ _ => 2000000)) (Arr.fill 1 0) (by omega)
    (Mat.ofRat_is _ _ _) rfl
  obtain ⟨-, v, hv, ⟨p, -, hp⟩, -⟩ := h3 0 (by omega) 0
  have h4 : (oricToTeamUpdate (Mat.ofRat 1 1 (fun _ _ => 2000000)) (Arr.fill 1 0)).map (fun o => o.data 0) =
      some (fin 1000000) := by decide +kernel
  rw [h1] at h4
  simp only [Option.map_some, Option.some.injEq] at h4
  rw [hv] at h4
  have := Num.fin.inj h4
  norm_num [← hp] at this

/-- Non-trivial instance of the guard: two projects, two teams. -/
example : (∀ t : ℕ, t < 2 → ∃ p : ℕ, p < 2 ∧ (p : ℚ) * 2000000 - t ≤ 1000000) ∧
    ((oricToTeamUpdate (Mat.ofRat 2 2 (fun p t => (p : ℚ) * 2000000 - t)) (Arr.fill 2 0)).map
      (fun o => (o.data 0, o.data 1))) = some (fin 0, fin (-1)) := by
  refine ⟨fun t ht => ⟨0, by omega, ?_⟩, by decide +kernel⟩
  have : (0 : ℚ) ≤ t := Nat.cast_nonneg t
  simp only [Nat.cast_zero, zero_mul]
  linarith

end Verif.Properties
