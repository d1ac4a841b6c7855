import Verif.Proofs.TspFinish

/-! Helper lemmas: removal at overfull nodes when only one direction is overfull. -/

namespace Verif.Proofs
open Verif Model Spec Num

theorem entering_short {sel : List (ℕ × ℕ)} (hd : sel.Nodup) (h : OneIn sel) (k : ℕ) : (entering sel k).length ≤ 1 := by
  rcases he : entering sel k with _ | ⟨a, _ | ⟨b, l⟩⟩
  · simp
  · simp
  · exfalso
    have hn : (entering sel k).Nodup := hd.filter _
    obtain ⟨a1, a2⟩ := List.mem_filter.mp (show a ∈ entering sel k by rw [he]; simp)
    obtain ⟨b1, b2⟩ := List.mem_filter.mp (show b ∈ entering sel k by rw [he]; simp)
    rw [beq_iff_eq] at a2 b2
    have : a.1 = b.1 := h a.1 b.1 k (by rw [← a2]; exact a1) (by rw [← b2]; exact b1)
    rw [he, show a = b from Prod.ext this (a2.trans b2.symm)] at hn
    simp at hn

theorem leaving_short {sel : List (ℕ × ℕ)} (hd : sel.Nodup) (h : OneOut sel) (k : ℕ) : (leaving sel k).length ≤ 1 := by
  rcases he : leaving sel k with _ | ⟨a, _ | ⟨b, l⟩⟩
  · simp
  · simp
  · exfalso
    have hn : (leaving sel k).Nodup := hd.filter _
    obtain ⟨a1, a2⟩ := List.mem_filter.mp (show a ∈ leaving sel k by rw [he]; simp)
    obtain ⟨b1, b2⟩ := List.mem_filter.mp (show b ∈ leaving sel k by rw [he]; simp)
    rw [beq_iff_eq] at a2 b2
    have : a.2 = b.2 := h k a.2 b.2 (by rw [← a2]; exact a1) (by rw [← b2]; exact b1)
    rw [he, show a = b from Prod.ext (a2.trans b2.symm) this] at hn
    simp at hn

section
variable {py : TspPy} {sel : List (ℕ × ℕ)} (hlen : py.edges.length ≤ py.intr.length) (hsel : ∀ e ∈ sel, e ∈ py.edges) (hd : sel.Nodup)
  {b : ℕ × ℕ → ℚ} (hb : Beliefs py b)
include hlen hsel hd hb

/-- Removal in one direction; `side` is the end of the edge at the node. -/
theorem sideLoop (side : ℕ × ℕ → ℕ)
    (hstep : ∀ k removed, nodeStep py sel k removed = thinOut py (sel.filter (fun e => side e == k)) (sel.filter (fun e => side e == k)).length [] removed) :
    ∀ (ks : List ℕ) (removed R : List (ℕ × ℕ)), ks.Nodup → (∀ e ∈ removed, side e ∉ ks) → loopList ks (nodeStep py sel) removed = some R →
      (∀ e ∈ R, e ∈ removed ∨ side e ∈ ks) ∧
      ∀ k ∈ ks, ∀ e ∈ sel, side e = k → ∃ e' ∈ sel, side e' = k ∧ e' ∉ R ∧ |b e| ≤ |b e'|
  | [], removed, R, _, _, h => by
    obtain rfl : removed = R := by simpa [loopList] using h
    exact ⟨fun e he => .inl he, by simp⟩
  | k :: ks, removed, R, hks, hr, h => by
    obtain ⟨hk1, hk2⟩ := List.nodup_cons.mp hks
    rw [loopList, hstep] at h
    have hmem : ∀ e, e ∈ sel.filter (fun e => side e == k) ↔ e ∈ sel ∧ side e = k := fun e => by simp
    obtain ⟨R1, a1, a2, a3, a4, -, a6⟩ := thinOut_node hlen (conns := sel.filter (fun e => side e == k))
      (fun e he => hsel e (List.mem_of_mem_filter he)) (hd.filter _) removed
    rw [a1, Option.bind_some] at h
    have hno : ∀ e ∈ sel.filter (fun e => side e == k), e ∉ removed := fun e he hin => by
      have := hr e hin
      rw [((hmem e).mp he).2] at this
      simp at this
    obtain ⟨c1, c2⟩ := sideLoop side hstep ks R1 R hk2 (fun e he hks' => by
      rcases a3 e he with h' | h'
      · exact hr e h' (List.mem_cons_of_mem _ hks')
      · rw [((hmem e).mp h').2] at hks'
        exact hk1 hks') h
    refine ⟨fun e he => ?_, fun x hx e he hes => ?_⟩
    · rcases c1 e he with h' | h'
      · rcases a3 e h' with h' | h'
        · exact .inl h'
        · rw [((hmem e).mp h').2]; exact .inr (by simp)
      · exact .inr (List.mem_cons_of_mem _ h')
    · rcases List.mem_cons.mp hx with rfl | hx
      · have hin := (hmem e).mpr ⟨he, hes⟩
        have key : ∃ e' ∈ sel.filter (fun e => side e == x), e' ∉ R1 ∧ |b e| ≤ |b e'| := by
          by_cases hl : (sel.filter (fun e => side e == x)).length ≤ 1
          · rw [a4 hl]
            exact ⟨e, hin, hno e hin, le_refl _⟩
          · obtain ⟨e', f1, f2, f3⟩ := a6 (by omega) hno
            exact ⟨e', f1, (f2 e' f1).mpr rfl, f3 b hb e hin⟩
        obtain ⟨e', f1, f2, f3⟩ := key
        obtain ⟨f4, f5⟩ := (hmem e').mp f1
        refine ⟨e', f4, f5, fun hR => ?_, f3⟩
        rcases c1 e' hR with h' | h'
        · exact f2 h'
        · rw [f5] at h'; exact hk1 h'
      · exact c2 x hx e he hes

theorem excess_out (hin : OneIn sel) {R : List (ℕ × ℕ)} (h : removeExcess py (constructGraph sel) = some R) :
    ∀ e ∈ sel, ∃ e' ∈ sel, e'.1 = e.1 ∧ e' ∉ R ∧ |b e| ≤ |b e'| := by
  obtain ⟨ks, k1, k2, k3⟩ := removeExcess_eq py sel
  rw [k1] at h
  obtain ⟨c1, c2⟩ := sideLoop hlen hsel hd hb Prod.fst (fun k removed => by
    obtain ⟨R1, a1, -, -, a4, -⟩ := thinOut_node hlen (conns := entering sel k) (fun e he => hsel e (List.mem_of_mem_filter he)) (hd.filter _) removed
    unfold nodeStep
    rw [a1, Option.bind_eq_bind, Option.bind_some, a4 (entering_short hd hin k)]
    rfl) ks [] R k2 (by simp) h
  intro e he
  by_cases hk : e.1 ∈ ks
  · obtain ⟨e', f1, f2, f3⟩ := c2 e.1 hk e he rfl
    exact ⟨e', f1, f2, f3⟩
  · refine ⟨e, he, rfl, fun hR => ?_, le_refl _⟩
    rcases c1 e hR with h' | h'
    · simp at h'
    · exact hk h'

theorem excess_in (hout : OneOut sel) {R : List (ℕ × ℕ)} (h : removeExcess py (constructGraph sel) = some R) :
    ∀ e ∈ sel, ∃ e' ∈ sel, e'.2 = e.2 ∧ e' ∉ R ∧ |b e| ≤ |b e'| := by
  obtain ⟨ks, k1, k2, k3⟩ := removeExcess_eq py sel
  rw [k1] at h
  obtain ⟨c1, c2⟩ := sideLoop hlen hsel hd hb Prod.snd (fun k removed => by
    unfold nodeStep
    obtain ⟨R0, a0, -⟩ := thinOut_node hlen (conns := entering sel k) (fun e he => hsel e (List.mem_of_mem_filter he)) (hd.filter _) removed
    obtain ⟨R1, a1, -, -, a4, -⟩ := thinOut_node hlen (conns := leaving sel k) (fun e he => hsel e (List.mem_of_mem_filter he)) (hd.filter _) R0
    rw [show sel.filter (fun e => e.2 == k) = entering sel k from rfl, a0, Option.bind_eq_bind, Option.bind_some, a1, a4 (leaving_short hd hout k)])
    ks [] R k2 (by simp) h
  intro e he
  by_cases hk : e.2 ∈ ks
  · obtain ⟨e', f1, f2, f3⟩ := c2 e.2 hk e he rfl
    exact ⟨e', f1, f2, f3⟩
  · refine ⟨e, he, rfl, fun hR => ?_, le_refl _⟩
    rcases c1 e hR with h' | h'
    · simp at h'
    · exact hk h'
end

/-- With at most one edge in each direction nothing is removed. -/
theorem excess_none {py : TspPy} {sel : List (ℕ × ℕ)} (hd : sel.Nodup) (hin : OneIn sel) (hout : OneOut sel) :
    removeExcess py (constructGraph sel) = some [] := by
  obtain ⟨ks, k1, k2, k3⟩ := removeExcess_eq py sel
  have : ks = [] := List.eq_nil_iff_forall_not_mem.mpr fun k hk => by
    have a := entering_short hd hin k
    have b := leaving_short hd hout k
    have := (k3 k).mp hk
    omega
  rw [k1, this]
  rfl

/-- In a closed walk every pair is followed and preceded by a pair. -/
theorem closed_next {p : List ℕ} (hc : p.head? = p.getLast?) {e : ℕ × ℕ} (he : e ∈ pathPairs p) : ∃ w, (e.2, w) ∈ pathPairs p := by
  obtain ⟨i, hi, rfl⟩ := List.mem_iff_getElem.mp he
  simp only [pathPairs, List.length_zip, List.length_tail] at hi
  by_cases hl : i + 2 < p.length
  · refine ⟨p[i + 2], List.mem_iff_getElem.mpr ⟨i + 1, by simp [pathPairs]; omega, by simp [pathPairs]⟩⟩
  · refine ⟨p[1]'(by omega), List.mem_iff_getElem.mpr ⟨0, by simp [pathPairs]; omega, ?_⟩⟩
    have hne : p ≠ [] := by rintro rfl; simp at hi
    rw [List.head?_eq_some_head hne, List.getLast?_eq_some_getLast hne, Option.some.injEq, List.head_eq_getElem, List.getLast_eq_getElem] at hc
    simp only [pathPairs, List.getElem_zip, List.getElem_tail, Prod.mk.injEq, zero_add, and_true]
    rw [hc]
    congr 1
    omega

theorem closed_prev {p : List ℕ} (hc : p.head? = p.getLast?) {e : ℕ × ℕ} (he : e ∈ pathPairs p) : ∃ w, (w, e.1) ∈ pathPairs p := by
  obtain ⟨i, hi, rfl⟩ := List.mem_iff_getElem.mp he
  simp only [pathPairs, List.length_zip, List.length_tail] at hi
  rcases i with _ | i
  · refine ⟨p[p.length - 2]'(by omega), List.mem_iff_getElem.mpr ⟨p.length - 2, by simp [pathPairs]; omega, ?_⟩⟩
    have hne : p ≠ [] := by rintro rfl; simp at hi
    rw [List.head?_eq_some_head hne, List.getLast?_eq_some_getLast hne, Option.some.injEq, List.head_eq_getElem, List.getLast_eq_getElem] at hc
    simp only [pathPairs, List.getElem_zip, List.getElem_tail, Prod.mk.injEq, true_and]
    rw [hc]
    congr 1
    omega
  · exact ⟨p[i], List.mem_iff_getElem.mpr ⟨i, by simp [pathPairs]; omega, by simp [pathPairs]⟩⟩

theorem pair_mem {p : List ℕ} {e : ℕ × ℕ} (he : e ∈ pathPairs p) : e.1 ∈ p := (List.of_mem_zip (show (e.1, e.2) ∈ p.zip p.tail from he)).1

end Verif.Proofs
