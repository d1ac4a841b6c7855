import Verif.Proofs.KcStable
import Verif.Proofs.KsatCall
import Verif.Proofs.TspRun
import Verif.Proofs.Filter

/-! If the messages of two iterations agree, the runs continue in the same way. -/

namespace Verif.Proofs
open Verif Num Model Spec

theorem damped_step {flag : Bool} {alpha : ℚ} {r : ℕ → ℚ} {K K' : ℕ} (h : damped flag alpha r K = damped flag alpha r K') (h' : r (K + 1) = r (K' + 1)) :
    damped flag alpha r (K + 1) = damped flag alpha r (K' + 1) := by
  rw [damped_succ, damped_succ, h, h']

theorem message_eq {ι : Type} {vars : Finset ι} {valid : Finset ι → Prop} {x y : ι → ℚ} {i : ι} {a b : ℚ} (h : IsMessage vars valid x i (fin a))
    (h' : IsMessage vars valid y i (fin b)) (hxy : ∀ j ∈ vars, x j = y j) (hi : i ∈ vars) : a = b :=
  fin_inj.mp (IsMessage.unique (h.congr_in hxy hi) h')

section ksat
variable {C k n : ℕ} {conx : Mat ℕ} {ty : Mat ℤ} {w : ℕ → ℚ} {flag : Bool} {alpha : ℚ} {x0 : ℕ → ℕ → ℚ} {x r : ℕ → ℕ → ℕ → ℚ}

theorem ksat_recur (h : IsKsatTrace C k n conx ty w flag alpha x0 x r) {K K' : ℕ}
    (heq : ∀ c < C, ∀ v ∈ clauseVars k (conx.data c), damped flag alpha (fun i => r i c v) K = damped flag alpha (fun i => r i c v) K') (m : ℕ) :
    ∀ c < C, ∀ v ∈ clauseVars k (conx.data c), damped flag alpha (fun i => r i c v) (K + m) = damped flag alpha (fun i => r i c v) (K' + m) := by
  induction m with
  | zero => exact heq
  | succ m ih =>
    intro c hc v hv
    refine damped_step (ih c hc v hv) (message_eq (h.clause (K + m + 1) c hc v hv) (h.clause (K' + m + 1) c hc v hv) (fun u hu => ?_) hv)
    rw [h.var _ c hc u hu, h.var _ c hc u hu]
    congr 1
    refine Finset.sum_congr rfl fun c' hc' => ?_
    have := (Finset.mem_erase.mp hc').2
    simp only [occurrences, Finset.mem_filter, Finset.mem_range] at this
    exact ih c' this.1 u this.2

end ksat

section kc
variable {D T P : ℕ} {wf : ℕ → ℕ → ℕ} {cap : ℕ → ℕ} {w : ℕ → ℚ} {R : ℕ → ℕ → ℚ} {flag : Bool} {alpha : ℚ}
    {limit : Option ℚ} {a0 : ℕ → ℕ → ℚ} {a raw o y e : ℕ → ℕ → ℕ → ℚ} {c : ℕ → ℕ → ℚ}

/-- The state of an iteration determines the messages to teams and the messages to departments. -/
theorem kc_forced (h : IsKcTrace D T P wf cap w R flag alpha limit a0 a raw o y e c) {K K' : ℕ}
    (hd : ∀ d < D, ∀ t < T, wf d t ≠ 0 → damped flag alpha (fun i => raw i d t) K = damped flag alpha (fun i => raw i d t) K')
    (hy : ∀ p < P, ∀ t < T, y K p t = y K' p t) :
    (∀ p < P, ∀ t < T, e (K + 1) p t = e (K' + 1) p t) ∧ (∀ t < T, c K t = c K' t) ∧ ∀ d < D, ∀ t < T, wf d t ≠ 0 → a (K + 1) d t = a (K' + 1) d t := by
  have he : ∀ p < P, ∀ t < T, e (K + 1) p t = e (K' + 1) p t := fun p hp t ht => by rw [h.edge K p hp t ht, h.edge K' p hp t ht, hy p hp t ht]
  have hsum : ∀ t < T, ∑ d ∈ depts D wf t, damped flag alpha (fun i => raw i d t) K = ∑ d ∈ depts D wf t, damped flag alpha (fun i => raw i d t) K' := by
    intro t ht
    refine Finset.sum_congr rfl fun d hd' => ?_
    have := Finset.mem_filter.mp hd'
    exact hd d (Finset.mem_range.mp this.1) t ht this.2
  have hc : ∀ t < T, c K t = c K' t := by
    intro t ht
    obtain ⟨v, h1, h2⟩ := h.team K t ht
    obtain ⟨v', h1', h2'⟩ := h.team K' t ht
    have : v = v' := by
      refine message_eq h1 h1' (fun j hj => ?_) (Finset.mem_insert_self _ _)
      cases j with
      | none => show w t + _ = w t + _; rw [hsum t ht]
      | some p =>
        have hp : p < P := by simpa [couplingVars] using hj
        exact he p hp t ht
    rw [h2, h2', this]
  refine ⟨he, hc, fun d hd' t ht hw => ?_⟩
  rw [h.next K d hd' t ht hw, h.next K' d hd' t ht hw, hc t ht]
  congr 1
  refine Finset.sum_congr rfl fun d' hd'' => ?_
  have := Finset.mem_filter.mp (Finset.mem_erase.mp hd'').2
  exact hd d' (Finset.mem_range.mp this.1) t ht this.2

theorem kc_recur (h : IsKcTrace D T P wf cap w R flag alpha limit a0 a raw o y e c) {K K' : ℕ}
    (hd : ∀ d < D, ∀ t < T, wf d t ≠ 0 → damped flag alpha (fun i => raw i d t) K = damped flag alpha (fun i => raw i d t) K')
    (hy : ∀ p < P, ∀ t < T, y K p t = y K' p t) (m : ℕ) :
    (∀ d < D, ∀ t < T, wf d t ≠ 0 → damped flag alpha (fun i => raw i d t) (K + m) = damped flag alpha (fun i => raw i d t) (K' + m)) ∧
    (∀ p < P, ∀ t < T, y (K + m) p t = y (K' + m) p t) ∧ (m ≠ 0 → ∀ p < P, ∀ t < T, o (K + m) p t = o (K' + m) p t) := by
  induction m with
  | zero => exact ⟨hd, hy, fun h => absurd rfl h⟩
  | succ m ih =>
    obtain ⟨he, hc, ha⟩ := kc_forced h ih.1 ih.2.1
    have h1 : ∀ d < D, ∀ t < T, wf d t ≠ 0 → damped flag alpha (fun i => raw i d t) (K + (m + 1)) = damped flag alpha (fun i => raw i d t) (K' + (m + 1)) := by
      intro d hd' t ht hw
      refine damped_step (ih.1 d hd' t ht hw) (message_eq (h.dept (K + m + 1) d hd' t ht hw) (h.dept (K' + m + 1) d hd' t ht hw) (fun u hu => ?_) ?_)
      · have := Finset.mem_filter.mp hu
        exact ha d hd' u (Finset.mem_range.mp this.1) this.2.2
      · exact Finset.mem_filter.mpr ⟨Finset.mem_range.mpr ht, Nat.zero_le _, hw⟩
    have h2 : ∀ p < P, ∀ t < T, o (K + (m + 1)) p t = o (K' + (m + 1)) p t := by
      intro p hp t ht
      refine message_eq (h.coupling (K + m + 1) p hp t ht) (h.coupling (K' + m + 1) p hp t ht) (fun j hj => ?_) (by simp [couplingVars, hp])
      cases j with
      | none =>
        show w t + _ = w t + _
        congr 1
        refine Finset.sum_congr rfl fun d hd'' => ?_
        have := Finset.mem_filter.mp hd''
        exact h1 d (Finset.mem_range.mp this.1) t ht this.2
      | some p' => exact he p' (by simpa [couplingVars] using hj) t ht
    refine ⟨h1, fun p hp t ht => ?_, fun _ => h2⟩
    refine message_eq (h.project (K + m + 1) p hp t ht) (h.project (K' + m + 1) p hp t ht) (fun u hu => ?_) (Finset.mem_range.mpr ht)
    have := h2 p hp u (Finset.mem_range.mp hu)
    show o (K + m + 1) p u + R p u = o (K' + m + 1) p u + R p u
    rw [show K + m + 1 = K + (m + 1) from rfl, this]; rfl

/-- The part of the run after the beliefs depends only on the entries in range. -/
theorem kcCall_congr {td : TeamData} {N N' : ℕ} {post : Bool} {option : ℕ} {q : ℚ} {load : KcLoad}
    {py : KcPy} {teams : KcTeamsPy} {n P T : ℕ} {f : ℕ → ℚ} {m m' : Mat Num} {g : ℕ → ℕ → ℚ}
    (h1 : kcInitialize td load = some (py, teams))
    (h2 : kcIteratePy N flag alpha py = some (listOf n (fun t => fin (f t)), m)) (h2' : kcIteratePy N' flag alpha py = some (listOf n (fun t => fin (f t)), m'))
    (hq : q ≤ 0) (hm : m.Is P T g) (hm' : m'.Is P T g) (hlt : T ≤ n) :
    kcCall td N flag alpha post option (fin q) load = kcCall td N' flag alpha post option (fin q) load := by
  have hsame : ∀ p < P, ∀ t < T, lt (m'.data p t) (fin q) = lt (m.data p t) (fin q) := fun p hp t ht => by
    rw [hm.2.2 p hp t ht, hm'.2.2 p hp t ht]
  have e1 := matchedPairs_congr hq hm.1 hm.2.1 hm'.1 hm'.2.1 hsame
  have e2 := selectedTeams_congr hq hm.1 hm.2.1 hm'.1 hm'.2.1 hsame
  unfold kcCall
  rw [h1]
  simp only [Option.bind_eq_bind, Option.bind_some, h2, h2', e1, e2]
  cases post with
  | false => rfl
  | true =>
    simp only [if_true]
    have : ∀ b k, kcPost teams b k (fin q) m' (listOf n (fun t => fin (f t))) = kcPost teams b k (fin q) m (listOf n (fun t => fin (f t))) := fun b k =>
      kcPost_congr hq hm.1 hm.2.1 hm'.1 hm'.2.1 hsame (fun p hp p' hp' t ht _ _ => by
        rw [hm.2.2 p hp t ht, hm'.2.2 p hp t ht, hm.2.2 p' hp' t ht, hm'.2.2 p' hp' t ht]) hlt (fun _ _ _ _ => Iff.rfl) teams b k
    simp only [this]

end kc

section tsp
variable {n : ℕ} {edges : List (ℕ × ℕ)} {deltas : List (List ℕ)} {w : ℕ → ℚ} {c : ℕ → ℕ → ℚ} {flag : Bool}
    {alpha : ℚ} {x0 s0 : ℕ → ℕ → ℚ} {x r y q : ℕ → ℕ → ℕ → ℚ}

theorem mem_out_iff {v e : ℕ} : e ∈ outEdges edges v ↔ e < edges.length ∧ src edges e = v := by
  rw [outEdges_dec]
  constructor
  · rintro ⟨h1, h2⟩; exact ⟨h1, by simp [src, List.getD_eq_getElem?_getD, h1, h2]⟩
  · rintro ⟨h1, h2⟩; exact ⟨h1, by simpa [src, List.getD_eq_getElem?_getD, h1] using h2⟩

theorem mem_in_iff {v e : ℕ} : e ∈ inEdges edges v ↔ e < edges.length ∧ dst edges e = v := by
  rw [inEdges_dec]
  constructor
  · rintro ⟨h1, h2⟩; exact ⟨h1, by simp [dst, List.getD_eq_getElem?_getD, h1, h2]⟩
  · rintro ⟨h1, h2⟩; exact ⟨h1, by simpa [dst, List.getD_eq_getElem?_getD, h1] using h2⟩

theorem tsp_recur (hE : EdgesOk n edges) (hD : ∀ l ∈ deltas, ∀ e ∈ l, e < edges.length) (h : IsTspTrace n edges deltas w c flag alpha x0 s0 x r y q) {K K' : ℕ}
    (hr : ∀ e < edges.length, ∀ v, v = src edges e ∨ v = dst edges e → damped flag alpha (fun i => r i e v) K = damped flag alpha (fun i => r i e v) K')
    (hq : ∀ k < deltas.length, ∀ e ∈ deltas.getD k [], damped flag alpha (fun i => q i k e) K = damped flag alpha (fun i => q i k e) K') (m : ℕ) :
    (∀ e < edges.length, ∀ v, v = src edges e ∨ v = dst edges e → damped flag alpha (fun i => r i e v) (K + m) = damped flag alpha (fun i => r i e v) (K' + m)) ∧
    ∀ k < deltas.length, ∀ e ∈ deltas.getD k [], damped flag alpha (fun i => q i k e) (K + m) = damped flag alpha (fun i => q i k e) (K' + m) := by
  induction m with
  | zero => exact ⟨hr, hq⟩
  | succ m ih =>
    have hcut : ∀ e < edges.length, ∀ S ⊆ cuts deltas e, ∑ k ∈ S, damped flag alpha (fun i => q i k e) (K + m) =
        ∑ k ∈ S, damped flag alpha (fun i => q i k e) (K' + m) := by
      intro e _ S hS
      refine Finset.sum_congr rfl fun k hk => ?_
      have := Finset.mem_filter.mp (hS hk)
      exact ih.2 k (Finset.mem_range.mp this.1) e this.2
    have hx : ∀ e < edges.length, ∀ v, v = src edges e ∨ v = dst edges e → x (K + m + 1) e v = x (K' + m + 1) e v := by
      rintro e he v (rfl | rfl)
      · rw [h.var_src _ e he, h.var_src _ e he, ih.1 e he _ (Or.inr rfl), hcut e he _ (Finset.Subset.refl _)]
      · rw [h.var_dst _ e he, h.var_dst _ e he, ih.1 e he _ (Or.inl rfl), hcut e he _ (Finset.Subset.refl _)]
    have h1 : ∀ e < edges.length, ∀ v, v = src edges e ∨ v = dst edges e →
        damped flag alpha (fun i => r i e v) (K + (m + 1)) = damped flag alpha (fun i => r i e v) (K' + (m + 1)) := by
      intro e he v hv
      refine damped_step (ih.1 e he v hv) ?_
      rcases hv with rfl | rfl
      · have hmem : e ∈ outEdges edges (src edges e) := mem_out_iff.mpr ⟨he, rfl⟩
        refine message_eq (h.out (K + m + 1) _ (src_lt hE he) e hmem) (h.out (K' + m + 1) _ (src_lt hE he) e hmem) (fun u hu => ?_) hmem
        obtain ⟨hu1, hu2⟩ := mem_out_iff.mp hu
        exact hx u hu1 _ (Or.inl hu2.symm)
      · have hmem : e ∈ inEdges edges (dst edges e) := mem_in_iff.mpr ⟨he, rfl⟩
        refine message_eq (h.inn (K + m + 1) _ (dst_lt hE he) e hmem) (h.inn (K' + m + 1) _ (dst_lt hE he) e hmem) (fun u hu => ?_) hmem
        obtain ⟨hu1, hu2⟩ := mem_in_iff.mp hu
        exact hx u hu1 _ (Or.inr hu2.symm)
    refine ⟨h1, fun k hk e he => ?_⟩
    refine damped_step (ih.2 k hk e he) (message_eq (h.cut (K + m + 1) k hk e he) (h.cut (K' + m + 1) k hk e he) (fun u hu => ?_) (by simpa using he))
    have hu : u ∈ deltas.getD k [] := by simpa using hu
    have hul : u < edges.length := by
      refine hD (deltas.getD k []) ?_ u hu
      rw [List.getD_eq_getElem?_getD, List.getElem?_eq_getElem hk]
      simp
    rw [h.to_cut _ k hk u hu, h.to_cut _ k hk u hu]
    have e1 := h1 u hul _ (Or.inl rfl)
    have e2 := h1 u hul _ (Or.inr rfl)
    rw [show K + (m + 1) = K + m + 1 from rfl, show K' + (m + 1) = K' + m + 1 from rfl] at e1 e2
    rw [e1, e2]
    congr 1
    exact hcut u hul _ (Finset.erase_subset _ _)

end tsp

end Verif.Proofs

namespace Verif.Proofs
open Verif Num Model Spec

/-- The message does not depend on the incoming message of its own variable. -/
theorem message_own {ι : Type} {vars : Finset ι} {valid : Finset ι → Prop} {x y : ι → ℚ} {i : ι} {a b : ℚ}
    (h : IsMessage vars valid x i (fin a)) (h' : IsMessage vars valid y i (fin b)) (hxy : ∀ j ∈ vars, j ≠ i → x j = y j) : a = b := by
  classical
  obtain ⟨u, v, hu, hv, he⟩ := h
  obtain ⟨u', v', hu', hv', he'⟩ := h'
  have hout : costs vars valid x (fun S => i ∉ S) = costs vars valid y (fun S => i ∉ S) := by
    ext q
    constructor
    · rintro ⟨S, h1, h2, h3, h4⟩
      exact ⟨S, h1, h2, h3, by rw [← h4]; exact (Finset.sum_congr rfl fun j hj => hxy j (h1 hj) fun e => h3 (e ▸ hj)).symm⟩
    · rintro ⟨S, h1, h2, h3, h4⟩
      exact ⟨S, h1, h2, h3, by rw [← h4]; exact Finset.sum_congr rfl fun j hj => hxy j (h1 hj) fun e => h3 (e ▸ hj)⟩
  have hin : costs vars valid y (fun S => i ∈ S) = (fun q => q + (y i - x i)) '' costs vars valid x (fun S => i ∈ S) := by
    have key : ∀ S ⊆ vars, i ∈ S → cost y S = cost x S + (y i - x i) := by
      intro S h1 h3
      unfold cost
      rw [← Finset.add_sum_erase S y h3, ← Finset.add_sum_erase S x h3,
        Finset.sum_congr rfl fun j hj => hxy j (h1 (Finset.mem_of_mem_erase hj)) (Finset.ne_of_mem_erase hj)]
      ring
    ext q
    constructor
    · rintro ⟨S, h1, h2, h3, h4⟩
      exact ⟨cost x S, ⟨S, h1, h2, h3, rfl⟩, by rw [← h4, key S h1 h3]⟩
    · rintro ⟨_, ⟨S, h1, h2, h3, rfl⟩, h4⟩
      exact ⟨S, h1, h2, h3, by rw [key S h1 h3]; exact h4⟩
  have e1 : v' = v := by rw [← hout] at hv'; exact hv'.unique hv
  have e2 : u' = u + fin (y i - x i) := by rw [hin] at hu'; exact hu'.unique (hu.add_const _)
  subst e1 e2
  have hs : ∀ a b : Num, a - b = a + -b := fun _ _ => rfl
  rcases hu with ⟨-, rfl⟩ | ⟨p, rfl, -⟩ <;> rcases hv with ⟨-, rfl⟩ | ⟨q, rfl, -⟩
  · cases he
  · simp [hs] at he
  · simp [hs] at he
  · simp only [fin_add, fin_sub, Num.fin.injEq] at he he'
    rw [he, he']; ring

end Verif.Proofs
