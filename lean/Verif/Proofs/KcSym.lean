import Verif.Proofs.KcSettled
import Verif.Proofs.TspScale
import Verif.Spec.SamePlan

/-! Helper lemmas: the messages of a renamed and rescaled assignment problem. -/

namespace Verif.Proofs
open Verif Num Spec

theorem message_valid {ι : Type} {vars : Finset ι} {valid valid' : Finset ι → Prop} {x : ι → ℚ} {i : ι} {mu : Num}
    (hv : ∀ S ⊆ vars, (valid S ↔ valid' S)) (h : IsMessage vars valid x i mu) : IsMessage vars valid' x i mu := by
  have key : ∀ c, costs vars valid x c = costs vars valid' x c := by
    intro c; ext q; constructor
    · rintro ⟨S, a, b, d⟩; exact ⟨S, a, (hv S a).mp b, d⟩
    · rintro ⟨S, a, b, d⟩; exact ⟨S, a, (hv S a).mpr b, d⟩
  unfold IsMessage at h ⊢
  rwa [key, key] at h

/-- A message under renaming of the variables and scaling of the costs. -/
theorem message_rename {α β : Type} [DecidableEq α] (f : α ≃ β) {s : ℚ} (hs : 0 < s) {vars : Finset α} {vars' : Finset β} {valid : Finset α → Prop}
    {valid' : Finset β → Prop} {x : α → ℚ} {x' : β → ℚ} {v : α} (hv : v ∈ vars) (hvars : ∀ a, f a ∈ vars' ↔ a ∈ vars)
    (hvalid : ∀ S ⊆ vars, (valid' (S.map f.toEmbedding) ↔ valid S))
    (hx : ∀ a ∈ vars, x' (f a) = s * x a) {r : ℚ} (h : IsMessage vars valid x v (fin r)) :
    IsMessage vars' valid' x' (f v) (fin (s * r)) := by
  have e : vars' = vars.map f.toEmbedding := by
    ext b
    obtain ⟨a, rfl⟩ := f.surjective b
    rw [hvars, Finset.mem_map_equiv, Equiv.symm_apply_apply]
  rw [e]
  refine message_valid (fun S hS => ?_) (message_map f.toEmbedding hv hx (message_smul hs h))
  constructor
  · rintro ⟨S0, h0, rfl, h1⟩
    exact (hvalid S0 h0).mpr h1
  · intro h1
    refine ⟨S.map f.symm.toEmbedding, fun a ha => ?_, ?_, ?_⟩
    · rw [Finset.mem_map_equiv, Equiv.symm_symm] at ha
      have := hS ha
      rwa [Finset.mem_map_equiv, Equiv.symm_apply_apply] at this
    · ext b
      simp [Finset.mem_map_equiv]
    · refine (hvalid _ fun a ha => ?_).mp ?_
      · rw [Finset.mem_map_equiv, Equiv.symm_symm] at ha
        have := hS ha
        rwa [Finset.mem_map_equiv, Equiv.symm_apply_apply] at this
      · have : (S.map f.symm.toEmbedding).map f.toEmbedding = S := by
          ext b
          simp [Finset.mem_map_equiv]
        rwa [this]

/-- The renaming of the variables of a coupling constraint. -/
def optionPerm (π : Equiv.Perm ℕ) : Option ℕ ≃ Option ℕ := Equiv.optionCongr π

theorem atMostOne_map (f : Equiv.Perm ℕ) (S : Finset ℕ) : AtMostOne (S.map f.toEmbedding) ↔ AtMostOne S := by
  unfold AtMostOne
  constructor
  · intro h i hi j hj
    have := h (f i) (Finset.mem_map_of_mem _ hi) (f j) (Finset.mem_map_of_mem _ hj)
    exact f.injective this
  · intro h i hi j hj
    rw [Finset.mem_map_equiv] at hi hj
    exact f.symm.injective (h _ hi _ hj)

theorem coupled_map (π : Equiv.Perm ℕ) (S : Finset (Option ℕ)) : Coupled (S.map (optionPerm π).toEmbedding) ↔ Coupled S := by
  unfold Coupled
  have key : ∀ p : ℕ, (({none, some p} : Finset (Option ℕ)).map (optionPerm π).toEmbedding) = {none, some (π p)} := by
    intro p
    rw [Finset.map_insert, Finset.map_singleton]
    rfl
  constructor
  · rintro (h | ⟨p, h⟩)
    · exact Or.inl (Finset.map_eq_empty.mp h)
    · refine Or.inr ⟨π.symm p, Finset.map_injective (optionPerm π).toEmbedding ?_⟩
      rw [h, key, Equiv.apply_symm_apply]
  · rintro (h | ⟨p, h⟩)
    · exact Or.inl (Finset.map_eq_empty.mpr h)
    · exact Or.inr ⟨π p, by rw [h, key]⟩

section
variable {D T P : ℕ} {σ τ π : Equiv.Perm ℕ} {s : ℚ} {wf wf' : ℕ → ℕ → ℕ} {cap cap' : ℕ → ℕ} {w w' : ℕ → ℚ} {R R' : ℕ → ℕ → ℚ} {flag : Bool} {alpha : ℚ}
  {limit : Option ℚ} {a0 a0' : ℕ → ℕ → ℚ} {a raw o y e : ℕ → ℕ → ℕ → ℚ} {c : ℕ → ℕ → ℚ}

theorem mem_depts_rename (h : SameProblem D T P σ τ π s wf wf' cap cap' w w' R R') {t : ℕ} (ht : t < T) (d : ℕ) :
    σ d ∈ depts D wf' (τ t) ↔ d ∈ depts D wf t := by
  unfold depts
  rw [Finset.mem_filter, Finset.mem_filter, Finset.mem_range, Finset.mem_range, h.depts]
  refine and_congr_right fun hd => ?_
  rw [h.weight d hd t ht]

theorem sum_depts_rename (h : SameProblem D T P σ τ π s wf wf' cap cap' w w' R R') {t : ℕ} (ht : t < T) (f f' : ℕ → ℚ)
    (hf : ∀ d, f' (σ d) = s * f d) : ∑ d ∈ depts D wf' (τ t), f' d = s * ∑ d ∈ depts D wf t, f d := by
  rw [Finset.mul_sum]
  symm
  refine Finset.sum_bij (fun d _ => σ d) (fun d hd => (mem_depts_rename h ht d).mpr hd) (fun _ _ _ _ e => σ.injective e) (fun d hd => ?_) (fun d _ => (hf d).symm)
  obtain ⟨d, rfl⟩ := σ.surjective d
  exact ⟨d, (mem_depts_rename h ht d).mp hd, rfl⟩

theorem sum_erase_rename (h : SameProblem D T P σ τ π s wf wf' cap cap' w w' R R') {t : ℕ} (ht : t < T) (f f' : ℕ → ℚ)
    (hf : ∀ d, f' (σ d) = s * f d) (d : ℕ) : ∑ d ∈ (depts D wf' (τ t)).erase (σ d), f' d = s * ∑ d ∈ (depts D wf t).erase d, f d := by
  rw [Finset.mul_sum]
  symm
  refine Finset.sum_bij (fun d _ => σ d) (fun x hx => ?_) (fun _ _ _ _ e => σ.injective e) (fun x hx => ?_) (fun d _ => (hf d).symm)
  · rw [Finset.mem_erase] at hx ⊢
    exact ⟨fun e => hx.1 (σ.injective e), (mem_depts_rename h ht x).mpr hx.2⟩
  · obtain ⟨x, rfl⟩ := σ.surjective x
    rw [Finset.mem_erase] at hx
    exact ⟨x, Finset.mem_erase.mpr ⟨fun e => hx.1 (by rw [e]), (mem_depts_rename h ht x).mp hx.2⟩, rfl⟩

theorem fits_map (f : Equiv.Perm ℕ) {g g' : ℕ → ℕ} {S : Finset ℕ} (hg : ∀ t ∈ S, g' (f t) = g t) (C : ℕ) :
    Fits g' C (S.map f.toEmbedding) ↔ Fits g C S := by
  unfold Fits
  rw [Finset.sum_map]
  have : ∑ x ∈ S, g' (f.toEmbedding x) = S.sum g := Finset.sum_congr rfl fun t ht => hg t ht
  rw [this]

theorem kcTrace_rename (hs : 0 < s) (h : SameProblem D T P σ τ π s wf wf' cap cap' w w' R R') (h0 : ∀ d < D, ∀ t < T, a0' (σ d) (τ t) = s * a0 d t)
    (ht : IsKcTrace D T P wf cap w R flag alpha limit a0 a raw o y e c) :
    IsKcTrace D T P wf' cap' w' R' flag alpha (limit.map (s * ·)) a0' (fun j d t => s * a j (σ.symm d) (τ.symm t))
      (fun j d t => s * raw j (σ.symm d) (τ.symm t)) (fun j p t => s * o j (π.symm p) (τ.symm t)) (fun j p t => s * y j (π.symm p) (τ.symm t))
      (fun j p t => s * e j (π.symm p) (τ.symm t)) (fun j t => s * c j (τ.symm t)) := by
  have hcoup : ∀ a, optionPerm π a ∈ couplingVars P ↔ a ∈ couplingVars P := by
    intro a
    rcases a with _ | p
    · exact ⟨fun _ => by simp [couplingVars], fun _ => by simp [couplingVars, optionPerm]⟩
    · have := h.projects p
      simp [couplingVars, optionPerm, this]
  have hteam : ∀ j, ∀ t < T, w' (τ t) + ∑ d ∈ depts D wf' (τ t), damped flag alpha (fun i => s * raw i (σ.symm d) t) j =
      s * (w t + ∑ d ∈ depts D wf t, damped flag alpha (fun i => raw i d t) j) := by
    intro j t htt
    rw [mul_add, h.teamCost t htt]
    congr 1
    exact sum_depts_rename h htt (fun d => damped flag alpha (fun i => raw i d t) j) (fun d => damped flag alpha (fun i => s * raw i (σ.symm d) t) j)
      (fun d => by simp only [Equiv.symm_apply_apply]; exact damped_smul _ _ _ _ _)
  refine ⟨?_, ?_, ?_, ?_, ?_, ?_, ?_, ?_⟩
  · intro d hd t htt
    obtain ⟨d, rfl⟩ := σ.surjective d
    obtain ⟨t, rfl⟩ := τ.surjective t
    rw [h.depts] at hd
    rw [h.teams] at htt
    simp only [Equiv.symm_apply_apply]
    rw [h0 d hd t htt, ht.init d hd t htt]
  · intro j d hd t htt hw
    obtain ⟨d, rfl⟩ := σ.surjective d
    obtain ⟨t, rfl⟩ := τ.surjective t
    rw [h.depts] at hd
    rw [h.teams] at htt
    rw [h.weight d hd t htt] at hw
    simp only [Equiv.symm_apply_apply]
    have hu : ∀ t, τ t ∈ users (wf' (σ d)) 0 T ↔ t ∈ users (wf d) 0 T := by
      intro t
      simp only [users, Finset.mem_filter, Finset.mem_range]
      rw [h.teams]
      refine and_congr_right fun htt => ?_
      rw [h.weight d hd t htt]
      simp
    refine message_rename τ hs (by simp [users, htt, hw]) hu (fun S hS => ?_) (fun t _ => ?_) (ht.dept j d hd t htt hw)
    · rw [h.capacity d hd]
      refine fits_map τ (fun t htS => ?_) _
      have := Finset.mem_filter.mp (hS htS)
      exact h.weight d hd t (Finset.mem_range.mp this.1)
    · simp only [Equiv.symm_apply_apply]
  · intro p hp t htt
    obtain ⟨p, rfl⟩ := π.surjective p
    obtain ⟨t, rfl⟩ := τ.surjective t
    rw [h.projects] at hp
    rw [h.teams] at htt
    simp only [Equiv.symm_apply_apply]
    rw [ht.edge_init p hp t htt, mul_zero]
  · intro j p hp t htt
    obtain ⟨p, rfl⟩ := π.surjective p
    obtain ⟨t, rfl⟩ := τ.surjective t
    rw [h.projects] at hp
    rw [h.teams] at htt
    simp only [Equiv.symm_apply_apply]
    rw [hteam j t htt]
    refine message_rename (optionPerm π) (v := some p) hs (by simp [couplingVars, hp]) hcoup (fun S _ => coupled_map π S) (fun a _ => ?_)
      (ht.coupling j p hp t htt)
    rcases a with _ | q
    · rfl
    · simp [couplingIn, optionPerm]
  · intro j p hp t htt
    obtain ⟨p, rfl⟩ := π.surjective p
    obtain ⟨t, rfl⟩ := τ.surjective t
    rw [h.projects] at hp
    rw [h.teams] at htt
    simp only [Equiv.symm_apply_apply]
    refine message_rename τ hs (Finset.mem_range.mpr htt) (fun t => by simpa using h.teams t) (fun S _ => atMostOne_map τ S) (fun t htt => ?_)
      (ht.project j p hp t htt)
    simp only [Equiv.symm_apply_apply]
    rw [h.pairCost p hp t (Finset.mem_range.mp htt)]
    ring
  · intro j p hp t htt
    obtain ⟨p, rfl⟩ := π.surjective p
    obtain ⟨t, rfl⟩ := τ.surjective t
    rw [h.projects] at hp
    rw [h.teams] at htt
    simp only [Equiv.symm_apply_apply]
    rw [ht.edge j p hp t htt, h.pairCost p hp t htt]
    ring
  · intro j t htt
    obtain ⟨t, rfl⟩ := τ.surjective t
    rw [h.teams] at htt
    simp only [Equiv.symm_apply_apply]
    rw [hteam j t htt]
    obtain ⟨v, hv, hc⟩ := ht.team j t htt
    refine ⟨s * v, message_rename (optionPerm π) (v := none) hs (by simp [couplingVars]) hcoup (fun S _ => coupled_map π S) (fun a _ => ?_) hv, ?_⟩
    · rcases a with _ | q
      · rfl
      · simp [couplingIn, optionPerm]
    · rw [hc]
      cases limit with
      | none => rfl
      | some l => exact mul_min_of_nonneg _ _ hs.le
  · intro j d hd t htt hw
    obtain ⟨d, rfl⟩ := σ.surjective d
    obtain ⟨t, rfl⟩ := τ.surjective t
    rw [h.depts] at hd
    rw [h.teams] at htt
    rw [h.weight d hd t htt] at hw
    simp only [Equiv.symm_apply_apply]
    rw [ht.next j d hd t htt hw, h.teamCost t htt, mul_add, mul_add]
    congr 1
    exact (sum_erase_rename h htt (fun d => damped flag alpha (fun i => raw i d t) j) (fun d => damped flag alpha (fun i => s * raw i (σ.symm d) t) j)
      (fun d => by simp only [Equiv.symm_apply_apply]; exact damped_smul _ _ _ _ _) d).symm

end

end Verif.Proofs
