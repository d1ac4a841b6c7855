import Verif.Model.RoundedKc
import Verif.Proofs.ExactKsat

/-! The functions of the assignment solver compute exactly on small multiples of a unit. -/

namespace Verif.Proofs
open Verif Num Spec Model

variable {r : ℚ → Num} {u : ℚ} {M : ℕ} (hr : KeepsMultiples r u M)

theorem mat_rdRow {α : Type} {a : Mat α} {i : ℕ} {v : Arr α} (h : a.rdRow i = some v) : i < a.rows ∧ v = ⟨a.cols, a.data i⟩ := by
  unfold Mat.rdRow at h
  split at h
  · next hi => exact ⟨hi, (Option.some.inj h).symm⟩
  · cases h

/-- All entries of a row are bounded. -/
def RowSmall (u c : ℚ) (a : Arr Num) : Prop := ∀ i, Small u c (a.data i)

theorem AllSmall.mono {c d : ℚ} {m : Mat Num} (h : AllSmall u c m) (hc : c ≤ d) : AllSmall u d m := fun i j => (h i j).mono hc

theorem RowSmall.mono {c d : ℚ} {a : Arr Num} (h : RowSmall u c a) (hc : c ≤ d) : RowSmall u d a := fun i => (h i).mono hc

theorem AllSmall.wrRow {c : ℚ} {m m' : Mat Num} {i : ℕ} {a : Arr Num} (h : AllSmall u c m) (ha : RowSmall u c a) (hw : m.wrRow i a = some m') :
    AllSmall u c m' := by
  obtain ⟨-, -, e⟩ := mat_wrRow hw
  intro k l
  rw [e]
  simp only
  split
  · exact ha l
  · exact h k l

theorem AllSmall.wr {c : ℚ} {m m' : Mat Num} {i j : ℕ} {x : Num} (h : AllSmall u c m) (hx : Small u c x) (hw : m.wr i j x = some m') :
    AllSmall u c m' := by
  obtain ⟨-, -, -, e⟩ := mat_wr hw
  intro k l
  rw [e]
  simp only
  split
  · exact hx
  · exact h k l

theorem AllSmall.rdRow {c : ℚ} {m : Mat Num} {i : ℕ} {a : Arr Num} (h : AllSmall u c m) (ha : m.rdRow i = some a) : RowSmall u c a := by
  obtain ⟨-, rfl⟩ := mat_rdRow ha
  exact fun l => h i l

theorem AllSmall.rd {c : ℚ} {m : Mat Num} {i j : ℕ} {x : Num} (h : AllSmall u c m) (hx : m.rd i j = some x) : Small u c x := by
  rw [(mat_rd hx).2]; exact h i j

theorem RowSmall.rd {c : ℚ} {a : Arr Num} {i : ℕ} {x : Num} (h : RowSmall u c a) (hx : a.rd i = some x) : Small u c x := by
  rw [(arr_rd hx).2]; exact h i

theorem fillUp_small {c : ℚ} {row : Arr Num} (hrow : RowSmall u c row) (lo hi : ℕ) {st : Mat Num} (hst : AllSmall u c st) :
    Same (AllSmall u c) (fillUp lo hi row st) (fillUp lo hi row st) :=
  Same.loopUp (fun _ => AllSmall u c) hst fun _ _ _ ha => Same.of fun _ hw => ha.wrRow hrow hw

theorem fillDown_small {c : ℚ} {row : Arr Num} (hrow : RowSmall u c row) (hi lo : ℕ) {st : Mat Num} (hst : AllSmall u c st) :
    Same (AllSmall u c) (fillDown hi lo row st) (fillDown hi lo row st) :=
  Same.loopDown (fun _ => AllSmall u c) hst fun _ _ _ ha => Same.of fun _ hw => ha.wrRow hrow hw

theorem fwdGap_small {c : ℚ} {row : Arr Num} (hrow : RowSmall u c row) (T : ℕ) (nz : List ℕ) (t : ℕ) {st : Mat Num} (hst : AllSmall u c st) :
    Same (AllSmall u c) (knapFwdGap T nz t row st) (knapFwdGap T nz t row st) := by
  unfold knapFwdGap
  split
  · split
    · refine Same.read fun back _ => ?_
      split
      · exact fillUp_small hrow _ _ hst
      · split
        · exact Same.read fun next _ => fillUp_small hrow _ _ hst
        · exact Same.some hst
    · exact Same.some hst
  · exact Same.some hst

theorem bwdGap_small {c : ℚ} {row : Arr Num} (hrow : RowSmall u c row) (T sz : ℕ) (nz : List ℕ) (t : ℕ) {st : Mat Num} (hst : AllSmall u c st) :
    Same (AllSmall u c) (knapBwdGap T sz nz t row st) (knapBwdGap T sz nz t row st) := by
  unfold knapBwdGap
  split
  · split
    · exact Same.some hst
    · split
      · refine Same.read fun first _ => ?_
        split
        · exact (fillDown_small hrow _ _ hst).bind fun a ha => Same.of fun _ hw => ha.wrRow hrow hw
        · simp only
          split
          · exact Same.read fun prev _ => fillDown_small hrow _ _ hst
          · exact Same.read fun prev _ => fillDown_small hrow _ _ hst
      · exact Same.some hst
  · exact Same.some hst

section knapsack
variable {A : ℚ} (hA : 0 ≤ A) {T cap sz : ℕ} {nz : List ℕ} {w : Arr ℕ} {m : Arr Num} (hm : ∀ t ∈ nz, ∀ x, m.rd t = some x → Small u A x)
include hr hA hm

theorem exact_knapFwdBody {l : ℕ} (hl : (l + 1 : ℚ) * A ≤ M) {s : Mat Num × Arr Num} (hs : AllSmall u (l * A) s.1 ∧ RowSmall u (l * A) s.2) :
    Same (fun s => AllSmall u ((l + 1 : ℕ) * A) s.1 ∧ RowSmall u ((l + 1 : ℕ) * A) s.2) (knapFwdBody T cap nz w m l s)
      (Rounded.knapFwdBody r T cap nz w m l s) := by
  obtain ⟨st, init⟩ := s
  obtain ⟨h1, h2⟩ := hs
  simp only at h1 h2
  have hle : (l * A : ℚ) ≤ (l + 1 : ℕ) * A := by push_cast; nlinarith
  have hge : (l + 1 : ℕ) * A ≤ (M : ℚ) := by push_cast; exact hl
  refine Same.read fun t ht => ?_
  have htm := hm t (List.mem_of_getElem? ht)
  refine Same.bind (Same.loopUp (fun _ => AllSmall u ((l + 1 : ℕ) * A)) (h1.mono hle) fun a _ st hst => ?_) fun st hst => ?_
  · refine Same.read fun wt _ => ?_
    split
    · refine Same.read fun x hx => Same.read fun y hy => Same.read fun mt hmt => ?_
      have k : Small u ((l + 1 : ℕ) * A) (y + mt) := ((h2.rd hy).add (htm mt hmt)).mono (by push_cast; linarith)
      rw [k.rn hr hge]
      exact Same.of fun _ hw => hst.wr (((h2.rd hx).mono hle).cmin k) hw
    · exact Same.read fun x hx => Same.of fun _ hw => hst.wr ((h2.rd hx).mono hle) hw
  · refine Same.read fun init hi => ?_
    have hrow := hst.rdRow hi
    exact (fwdGap_small hrow T nz t hst).bind fun st hst => Same.some ⟨hst, hrow⟩

theorem exact_knapForward (hM : (sz : ℚ) * A ≤ M) {st : Mat Num} (hst : AllSmall u 0 st) :
    Same (AllSmall u (sz * A)) (knapForward T cap nz sz w m st) (Rounded.knapForward r T cap nz sz w m st) := by
  have hinit : RowSmall u 0 (knapInitF cap) := fun a => by
    show Small u 0 (if a = 0 then 0 else pinf)
    split
    · exact Small.zero le_rfl
    · exact Small.pinf
  refine Same.read fun st hw => Same.read fun first _ => ?_
  have h0 := hst.wrRow hinit hw
  have rest : ∀ st, AllSmall u 0 st → Same (AllSmall u (sz * A)) ((loopUp sz (knapFwdBody T cap nz w m) (st, knapInitF cap)).bind fun s => some s.1)
      ((loopUp sz (Rounded.knapFwdBody r T cap nz w m) (st, knapInitF cap)).bind fun s => some s.1) := by
    intro st hst
    refine Same.bind (Same.loopUp (fun (l : ℕ) (s : Mat Num × Arr Num) => AllSmall u (l * A) s.1 ∧ RowSmall u (l * A) s.2) ⟨?_, ?_⟩ fun l hl s hs =>
      exact_knapFwdBody hr hA hm ?_ hs) fun s hs => Same.some hs.1
    · simpa using hst
    · simpa using hinit
    · have : (l : ℚ) + 1 ≤ sz := by exact_mod_cast hl
      exact (mul_le_mul_of_nonneg_right this hA).trans hM
  simp only
  split
  · exact (fillUp_small hinit _ _ h0).bind rest
  · exact rest st h0

theorem exact_knapBwdBody {l sz : ℕ} {c : ℚ} (hl : c + A ≤ M) {s : Mat Num × Arr Num} (hs : AllSmall u c s.1 ∧ RowSmall u c s.2) :
    Same (fun s => AllSmall u (c + A) s.1 ∧ RowSmall u (c + A) s.2) (knapBwdBody T cap sz nz w m l s)
      (Rounded.knapBwdBody r T cap sz nz w m l s) := by
  obtain ⟨st, init⟩ := s
  obtain ⟨h1, h2⟩ := hs
  simp only at h1 h2
  have hle : c ≤ c + A := by linarith
  refine Same.read fun t ht => ?_
  have htm := hm t (List.mem_of_getElem? ht)
  refine Same.bind (Same.loopUp (fun _ => AllSmall u (c + A)) (h1.mono hle) fun a _ st hst => ?_) fun st hst => ?_
  · refine Same.read fun wt _ => ?_
    split
    · refine Same.read fun x hx => Same.read fun y hy => Same.read fun mt hmt => ?_
      have k : Small u (c + A) (y + mt) := (h2.rd hy).add (htm mt hmt)
      rw [k.rn hr hl]
      exact Same.of fun _ hw => hst.wr (((h2.rd hx).mono hle).cmin k) hw
    · exact Same.read fun x hx => Same.of fun _ hw => hst.wr ((h2.rd hx).mono hle) hw
  · refine Same.read fun init hi => ?_
    have hrow := hst.rdRow hi
    exact (bwdGap_small hrow T sz nz t hst).bind fun st hst => Same.some ⟨hst, hrow⟩

theorem exact_knapBackward (hM : (sz : ℚ) * A ≤ M) {st : Mat Num} (hst : AllSmall u 0 st) :
    Same (AllSmall u (sz * A)) (knapBackward T cap nz sz w m st) (Rounded.knapBackward r T cap nz sz w m st) := by
  have hinit : RowSmall u 0 (Arr.fill (cap + 1) 0) := fun a => Small.zero le_rfl
  refine Same.read fun st hw => ?_
  have h0 := hst.wrRow hinit hw
  have rest : ∀ st, AllSmall u 0 st → Same (AllSmall u (sz * A))
      ((loopDown sz (knapBwdBody T cap sz nz w m) (st, Arr.fill (cap + 1) 0)).bind fun s => some s.1)
      ((loopDown sz (Rounded.knapBwdBody r T cap sz nz w m) (st, Arr.fill (cap + 1) 0)).bind fun s => some s.1) := by
    intro st hst
    refine Same.bind (Same.loopDown (fun (l : ℕ) (s : Mat Num × Arr Num) => AllSmall u ((sz - l : ℚ) * A) s.1 ∧ RowSmall u ((sz - l : ℚ) * A) s.2)
      ⟨?_, ?_⟩ fun l hl s hs => (exact_knapBwdBody hr hA hm (c := (sz - (l + 1 : ℕ) : ℚ) * A) ?_ hs).mono fun s hs => ⟨?_, ?_⟩) fun s hs => Same.some ?_
    · simpa using hst
    · simpa using hinit
    · have h1 : (0 : ℚ) ≤ l := by positivity
      push_cast; nlinarith
    · exact hs.1.mono (le_of_eq (by push_cast; ring))
    · exact hs.2.mono (le_of_eq (by push_cast; ring))
    · simpa using hs.1
  simp only
  split
  all_goals
    refine Same.read fun last _ => Same.read fun first _ => ?_
    split
    · exact (fillDown_small hinit _ _ h0).bind rest
    · exact rest st h0

omit hr hA hm in
theorem minElement_small {c : ℚ} {L : List Num} (h : ∀ x ∈ L, Small u c x) {x : Num} (hx : minElement L = some x) : Small u c x := by
  cases L with
  | nil => cases hx
  | cons y L =>
    rw [← Option.some.inj hx]
    have h0 := h y (by simp)
    replace h : ∀ x ∈ L, Small u c x := fun x hx => h x (List.mem_cons_of_mem _ hx)
    clear hx
    induction L generalizing y with
    | nil => exact h0
    | cons z L ih => exact ih (cmin y z) (h0.cmin (h z (by simp))) fun x hx => h x (List.mem_cons_of_mem _ hx)

omit hm in
theorem exact_knapOut {F B : Mat Num} {S : ℚ} (hF : AllSmall u S F) (hB : AllSmall u S B) (hM : 4 * S + 2 * A ≤ M) {t : ℕ}
    (hmt : ∀ wt, w.rd t = some wt → wt ≠ 0 → ∀ x, m.rd t = some x → Small u A x) (out : Arr Num) :
    Same (fun _ => True) (knapOut cap w m F B t out) (Rounded.knapOut r cap w m F B t out) := by
  unfold knapOut Rounded.knapOut
  refine Same.read fun wt hwt => ?_
  split
  · next hne =>
    refine Same.read fun mt hx => ?_
    have hA' := hmt wt hwt hne mt hx
    have tail : ∀ {solid dash : List Num}, (∀ x ∈ solid, Small u (2 * S + A) x) → (∀ x ∈ dash, Small u (2 * S) x) →
        Same (fun _ => True) ((minElement solid).bind fun s => (minElement dash).bind fun d => out.wr t (s - d - mt))
          ((minElement solid).bind fun s => (minElement dash).bind fun d => out.wr t (Rounded.rn r (Rounded.rn r (s - d) - mt))) := by
      intro solid dash h1 h2
      refine Same.read fun s hs => Same.read fun d hd => ?_
      have k1 := (minElement_small h1 hs).sub (minElement_small h2 hd)
      have k2 := k1.sub hA'
      rw [k1.rn hr (by linarith), k2.rn hr (by linarith)]
      exact Same.of fun _ _ => trivial
    by_cases ht : t = 0
    · simp only [if_pos ht]
      refine Same.read fun f hf => Same.read fun b hb => Same.read fun b0 hb0 => ?_
      have k1 := (hF.rd hf).add (hB.rd hb)
      have k2 := k1.add hA'
      have k3 := (hF.rd hf).add (hB.rd hb0)
      rw [k1.rn hr (by linarith), k2.rn hr (by linarith), k3.rn hr (by linarith)]
      refine tail (solid := [f + b + mt]) (dash := [f + b0]) (fun x hx => ?_) fun x hx => ?_
      · rw [List.mem_singleton] at hx; rw [hx]; exact k2.mono (by linarith)
      · rw [List.mem_singleton] at hx; rw [hx]; exact k3.mono (by linarith)
    · simp only [if_neg ht]
      refine Same.bind (P := fun p : List Num × List Num => (∀ x ∈ p.1, Small u (2 * S + A) x) ∧ ∀ x ∈ p.2, Small u (2 * S) x)
        (Same.loopUp (fun _ (p : List Num × List Num) => (∀ x ∈ p.1, Small u (2 * S + A) x) ∧ ∀ x ∈ p.2, Small u (2 * S) x) (by simp)
          fun i _ p hp => ?_) fun p hp => tail hp.1 hp.2
      obtain ⟨solid, dash⟩ := p
      unfold knapPaths Rounded.knapPaths
      simp only at hp ⊢
      have rest : ∀ solid : List Num, (∀ x ∈ solid, Small u (2 * S + A) x) →
          Same (fun p : List Num × List Num => (∀ x ∈ p.1, Small u (2 * S + A) x) ∧ ∀ x ∈ p.2, Small u (2 * S) x)
            ((F.rd t i).bind fun f => (B.rd (t + 1) i).bind fun b => some (solid, dash ++ [f + b]))
            ((F.rd t i).bind fun f => (B.rd (t + 1) i).bind fun b => some (solid, dash ++ [Rounded.rn r (f + b)])) := by
        intro solid hsol
        refine Same.read fun f hf => Same.read fun b hb => ?_
        have k1 := (hF.rd hf).add (hB.rd hb)
        rw [k1.rn hr (by linarith)]
        refine Same.some ⟨hsol, fun x hx => ?_⟩
        rcases List.mem_append.mp hx with hx | hx
        · exact hp.2 x hx
        · rw [List.mem_singleton] at hx; rw [hx]; exact k1.mono (by linarith)
      split
      · refine Same.read fun f hf => Same.read fun b hb => ?_
        have k1 := (hF.rd hf).add (hB.rd hb)
        have k2 := k1.add hA'
        rw [k1.rn hr (by linarith), k2.rn hr (by linarith)]
        refine rest _ fun x hx => ?_
        rcases List.mem_append.mp hx with hx | hx
        · exact hp.1 x hx
        · rw [List.mem_singleton] at hx; rw [hx]; exact k2.mono (by linarith)
      · exact rest _ hp.1
  · exact Same.of fun _ _ => trivial

theorem exact_knapMessages (hM : (4 * sz + 2 : ℚ) * A ≤ M)
    (hmw : ∀ t wt, w.rd t = some wt → wt ≠ 0 → ∀ x, m.rd t = some x → Small u A x) (out : Arr Num) :
    Same (fun _ => True) (knapMessages T cap nz sz w m out) (Rounded.knapMessages r T cap nz sz w m out) := by
  have hsA : (0 : ℚ) ≤ sz * A := mul_nonneg (by positivity) hA
  have h0 : AllSmall u 0 (Mat.fill (T + 1) (cap + 1) 0) := fun _ _ => Small.zero le_rfl
  refine (exact_knapForward hr hA hm (by linarith) h0).bind fun F hF => (exact_knapBackward hr hA hm (by linarith) h0).bind fun B hB => ?_
  exact Same.loopUp (fun _ _ => True) trivial fun t _ a _ => exact_knapOut hr hA hF hB (by linarith) (hmw t) a

end knapsack

end Verif.Proofs
