import Verif.Spec.TspOrder
import Verif.Proofs.TspRounds
import Verif.Proofs.PyTspSim
import Mathlib.Data.List.GetD

/-! Helper lemmas for C61: the order of the constraints and of the loops. -/

namespace Verif.Proofs
open Verif Num Spec Model

/-- Position in `D'` of the entry at position `k` of `D`. -/
def moved (D D' : List (List ℕ)) (k : ℕ) : ℕ := D'.idxOf (D.getD k [])

section
variable {D D' : List (List ℕ)} (h1 : D.Nodup) (h2 : D'.Nodup) (hm : ∀ d, d ∈ D ↔ d ∈ D')
include hm

theorem moved_get {k : ℕ} (hk : k < D.length) : moved D D' k < D'.length ∧ D'.getD (moved D D' k) [] = D.getD k [] := by
  have hmem : D.getD k [] ∈ D' := by
    rw [← hm, List.getD_eq_getElem _ _ hk]; exact List.getElem_mem hk
  have hlt : moved D D' k < D'.length := List.idxOf_lt_length_iff.mpr hmem
  exact ⟨hlt, by rw [List.getD_eq_getElem _ _ hlt]; exact List.getElem_idxOf hlt⟩

include h1 in
theorem moved_inj {j k : ℕ} (hj : j < D.length) (hk : k < D.length) (h : moved D D' j = moved D D' k) : j = k := by
  have e1 := (moved_get hm hj).2
  rw [h, (moved_get hm hk).2, List.getD_eq_getElem _ _ hj, List.getD_eq_getElem _ _ hk] at e1
  exact ((List.Nodup.getElem_inj_iff h1).mp e1).symm

include h2 in
theorem moved_surj {k' : ℕ} (hk : k' < D'.length) : ∃ k < D.length, moved D D' k = k' := by
  have hmem : D'.getD k' [] ∈ D := by
    rw [hm, List.getD_eq_getElem _ _ hk]; exact List.getElem_mem hk
  obtain ⟨k, hk1, hk2⟩ := List.mem_iff_getElem.mp hmem
  refine ⟨k, hk1, ?_⟩
  obtain ⟨g1, g2⟩ := moved_get hm hk1
  rw [List.getD_eq_getElem D _ hk1, hk2, List.getD_eq_getElem _ _ g1, List.getD_eq_getElem _ _ hk] at g2
  exact (List.Nodup.getElem_inj_iff h2).mp g2

include h1 h2 in
theorem sum_moved (e : ℕ) (F : ℕ → ℚ) : ∑ k ∈ cuts D e, F (moved D D' k) = ∑ k ∈ cuts D' e, F k := by
  refine Finset.sum_bij (fun k _ => moved D D' k) (fun k hk => ?_) (fun j hj k hk h => ?_) (fun k' hk' => ?_) (fun _ _ => rfl)
  · obtain ⟨a, b⟩ := mem_cuts.mp hk
    obtain ⟨c, d⟩ := moved_get hm a
    exact mem_cuts.mpr ⟨c, by rw [d]; exact b⟩
  · exact moved_inj h1 hm (mem_cuts.mp hj).1 (mem_cuts.mp hk).1 h
  · obtain ⟨a, b⟩ := mem_cuts.mp hk'
    obtain ⟨k, hk, rfl⟩ := moved_surj h2 hm a
    exact ⟨k, mem_cuts.mpr ⟨hk, by rw [← (moved_get hm hk).2]; exact b⟩, rfl⟩

include h1 h2 in
theorem sum_moved_erase (e : ℕ) {i : ℕ} (hi : i < D.length) (F : ℕ → ℚ) :
    ∑ k ∈ (cuts D e).erase i, F (moved D D' k) = ∑ k ∈ (cuts D' e).erase (moved D D' i), F k := by
  refine Finset.sum_bij (fun k _ => moved D D' k) (fun k hk => ?_) (fun j hj k hk h => ?_) (fun k' hk' => ?_) (fun _ _ => rfl)
  · obtain ⟨a, b⟩ := mem_cuts.mp (Finset.mem_of_mem_erase hk)
    obtain ⟨c, d⟩ := moved_get hm a
    exact Finset.mem_erase.mpr ⟨fun hh => Finset.ne_of_mem_erase hk (moved_inj h1 hm a hi hh), mem_cuts.mpr ⟨c, by rw [d]; exact b⟩⟩
  · exact moved_inj h1 hm (mem_cuts.mp (Finset.mem_of_mem_erase hj)).1 (mem_cuts.mp (Finset.mem_of_mem_erase hk)).1 h
  · obtain ⟨a, b⟩ := mem_cuts.mp (Finset.mem_of_mem_erase hk')
    obtain ⟨k, hk, rfl⟩ := moved_surj h2 hm a
    exact ⟨k, Finset.mem_erase.mpr ⟨fun hh => Finset.ne_of_mem_erase hk' (by rw [hh]), mem_cuts.mpr ⟨hk, by rw [← (moved_get hm hk).2]; exact b⟩⟩, rfl⟩

include h1 h2 in
/-- Reordered constraints give the same messages. -/
theorem tspTrace_moved {n : ℕ} {edges : List (ℕ × ℕ)} {w : ℕ → ℚ} {c : ℕ → ℕ → ℚ} {flag : Bool} {alpha : ℚ} {x0 s0 x0' s0' : ℕ → ℕ → ℚ}
    {x r y q : ℕ → ℕ → ℕ → ℚ} (t : IsTspTrace n edges D' w c flag alpha x0' s0' x r y q)
    (hx : ∀ e < edges.length, ∀ v, v = src edges e ∨ v = dst edges e → x0 e v = x0' e v)
    (hs : ∀ k < D.length, ∀ e ∈ D.getD k [], s0 k e = s0' (moved D D' k) e) :
    IsTspTrace n edges D w c flag alpha x0 s0 x r (fun j k e => y j (moved D D' k) e) (fun j k e => q j (moved D D' k) e) where
  init_src := fun e he => (t.init_src e he).trans (hx e he _ (Or.inl rfl)).symm
  init_dst := fun e he => (t.init_dst e he).trans (hx e he _ (Or.inr rfl)).symm
  out := t.out
  inn := t.inn
  to_cut := fun j k hk e he => by
    obtain ⟨a, b⟩ := moved_get hm hk
    have := t.to_cut j _ a e (by rw [b]; exact he)
    beta_reduce
    rw [this, ← sum_moved_erase h1 h2 hm e hk (fun k' => prev flag alpha (s0' k' e) (fun i => q i k' e) j)]
    congr 1
    refine Finset.sum_congr rfl fun k' hk' => ?_
    obtain ⟨a', b'⟩ := mem_cuts.mp (Finset.mem_of_mem_erase hk')
    rw [hs k' a' e b']
  cut := fun j k hk e he => by
    obtain ⟨a, b⟩ := moved_get hm hk
    have := t.cut j _ a e (by rw [b]; exact he)
    rw [b] at this
    exact this
  var_src := fun j e he => by
    rw [t.var_src j e he, ← sum_moved h1 h2 hm e (fun k => damped flag alpha (fun i => q i k e) j)]
  var_dst := fun j e he => by
    rw [t.var_dst j e he, ← sum_moved h1 h2 hm e (fun k => damped flag alpha (fun i => q i k e) j)]

end

theorem rounds_nodup {P : TspProblem} {x0 : ℕ → ℕ → ℚ} {R : ℕ → TspRound} {k : ℕ} (hR : TspRounds P x0 R k) :
    ∀ i ≤ k, (R i).cuts.Nodup := by
  intro i
  induction i with
  | zero => intro _; rw [hR.first_cuts]; exact List.nodup_nil
  | succ i ih => intro hi; exact (hR.next i (by omega)).nodup (ih (by omega))

theorem moved_prefix {A B A' B' : List (List ℕ)} (hp : A <+: B) (hp' : A' <+: B') (hm : ∀ d, d ∈ A ↔ d ∈ A') {k : ℕ} (hk : k < A.length) :
    moved B B' k = moved A A' k := by
  obtain ⟨m, rfl⟩ := hp
  obtain ⟨m', rfl⟩ := hp'
  unfold moved
  rw [List.getD_append _ _ _ _ hk, List.idxOf_append_of_mem]
  rw [← hm, List.getD_eq_getElem _ _ hk]; exact List.getElem_mem hk

/-- Rounds with the same sets of constraints select the same edges. -/
theorem rounds_moved {P : TspProblem} {x0 : ℕ → ℕ → ℚ} (hok : EdgesOk P.n P.edges) {R R' : ℕ → TspRound} {k : ℕ} (hR : TspRounds P x0 R k)
    (hR' : TspRounds P x0 R' k) (hc : ∀ i ≤ k, ∀ d, d ∈ (R i).cuts ↔ d ∈ (R' i).cuts) :
    ∀ i ≤ k, (R i).sel = (R' i).sel ∧ ∀ e < P.edges.length, (R i).output P e = (R' i).output P e := by
  have hlt := rounds_cuts_lt hR
  have nd := rounds_nodup hR
  have nd' := rounds_nodup hR'
  have same : ∀ i ≤ k,
      (∀ e < P.edges.length, ∀ v, v = src P.edges e ∨ v = dst P.edges e → (R i).x0 e v = (R' i).x0 e v) →
      (∀ j < (R i).cuts.length, ∀ e ∈ (R i).cuts.getD j [], (R i).s0 j e = (R' i).s0 (moved (R i).cuts (R' i).cuts j) e) → ∀ j,
      (∀ e < P.edges.length, ∀ v, v = src P.edges e ∨ v = dst P.edges e → (R i).x j e v = (R' i).x j e v ∧ (R i).r j e v = (R' i).r j e v) ∧
      ∀ l < (R i).cuts.length, ∀ e ∈ (R i).cuts.getD l [], (R i).y j l e = (R' i).y j (moved (R i).cuts (R' i).cuts l) e ∧
        (R i).q j l e = (R' i).q j (moved (R i).cuts (R' i).cuts l) e := by
    intro i hi hx hs
    exact tspTrace_unique hok (hlt i hi) (hR.ok i hi).trace
      (tspTrace_moved (nd i hi) (nd' i hi) (hc i hi) (hR'.ok i hi).trace hx hs)
  have starts : ∀ i ≤ k,
      (∀ e < P.edges.length, ∀ v, v = src P.edges e ∨ v = dst P.edges e → (R i).x0 e v = (R' i).x0 e v) ∧
      (∀ e < P.edges.length, ∀ v, v = src P.edges e ∨ v = dst P.edges e → (R i).d0 e v = (R' i).d0 e v) ∧
      (∀ j < (R i).cuts.length, ∀ e ∈ (R i).cuts.getD j [], (R i).s0 j e = (R' i).s0 (moved (R i).cuts (R' i).cuts j) e) := by
    intro i
    induction i with
    | zero =>
      intro _
      refine ⟨fun e he v hv => ?_, fun e he v hv => ?_, fun j hj => ?_⟩
      · rw [hR.first_start e he v hv, hR'.first_start e he v hv]
      · rw [hR.first_degree e he v hv, hR'.first_degree e he v hv]
      · rw [hR.first_cuts] at hj; simp at hj
    | succ i ih =>
      intro hi
      obtain ⟨a, b, c⟩ := ih (by omega)
      have hu := same i (by omega) a c
      have n1 := hR.next i (by omega)
      have n2 := hR'.next i (by omega)
      refine ⟨fun e he v hv => ?_, fun e he v hv => ?_, fun j hj e he => ?_⟩
      · rw [n1.start e he v hv, n2.start e he v hv]
        unfold augStart
        rw [((hu P.iters).1 e he v hv).1]
      · rw [n1.degree e he v hv, n2.degree e he v hv, b e he v hv, prev_congr fun l _ => ((hu l).1 e he v hv).2]
      · by_cases hj' : j < (R i).cuts.length
        · have hg : (R (i + 1)).cuts.getD j [] = (R i).cuts.getD j [] := by
            obtain ⟨more, hm⟩ := n1.keep
            rw [← hm, List.getD_append _ _ _ _ hj']
          rw [hg] at he
          obtain ⟨g1, g2⟩ := moved_get (hc i (by omega)) hj'
          rw [moved_prefix n1.keep n2.keep (hc i (by omega)) hj', n1.old_cut j hj' e he, n2.old_cut _ g1 e (by rw [g2]; exact he),
            c j hj' e he, prev_congr fun l _ => ((hu l).2 j hj' e he).2]
        · obtain ⟨g1, g2⟩ := moved_get (hc (i + 1) hi) hj
          have hge : (R' i).cuts.length ≤ moved (R (i + 1)).cuts (R' (i + 1)).cuts j := by
            by_contra hlt'
            push Not at hlt'
            obtain ⟨j0, hj0, he0⟩ := moved_surj (nd' i (by omega)) (hc i (by omega)) hlt'
            rw [← moved_prefix n1.keep n2.keep (hc i (by omega)) hj0] at he0
            have := moved_inj (nd (i + 1) hi) (hc (i + 1) hi) (by have := n1.keep.length_le; omega) hj he0
            omega
          rw [n1.new_cut j (by omega) hj e he, n2.new_cut _ hge g1 e (by rw [g2]; exact he)]
  intro i hi
  obtain ⟨a, b, c⟩ := starts i hi
  have hu := same i hi a c
  have hout : ∀ e < P.edges.length, (R i).output P e = (R' i).output P e := by
    intro e he
    unfold TspRound.output tspOutput
    rw [b e he _ (Or.inl rfl), b e he _ (Or.inr rfl), prev_congr fun l _ => ((hu l).1 e he _ (Or.inl rfl)).2,
      prev_congr fun l _ => ((hu l).1 e he _ (Or.inr rfl)).2,
      ← sum_moved (nd i hi) (nd' i hi) (hc i hi) e (fun j => prev P.flag P.alpha ((R' i).s0 j e) (fun l => (R' i).q l j e) P.iters)]
    congr 1
    refine Finset.sum_congr rfl fun j hj => ?_
    have hm := mem_cuts.mp hj
    rw [c j hm.1 e hm.2, prev_congr fun l _ => ((hu l).2 j hm.1 e hm.2).2]
  refine ⟨?_, hout⟩
  obtain ⟨_, s1⟩ := (hR.ok i hi).selects
  obtain ⟨_, s2⟩ := (hR'.ok i hi).selects
  exact selects_unique s1 s2 fun e he => by rw [hout e he]

theorem TspRounds.le {P : TspProblem} {x0 : ℕ → ℕ → ℚ} {R : ℕ → TspRound} {k m : ℕ} (h : TspRounds P x0 R k) (hm : m ≤ k) : TspRounds P x0 R m :=
  ⟨h.first_cuts, h.first_start, h.first_degree, fun i hi => h.ok i (by omega), fun i hi => h.next i (by omega)⟩

theorem isCycle_trans {E : ℕ → ℕ → Prop} {l : List ℕ} (h : IsCycle E l) {v : ℕ} (hv : v ∈ l) : Relation.TransGen E v v := by
  obtain ⟨u, z, ⟨h1, h2, h3, -⟩, h4⟩ := h
  obtain ⟨a, b, rfl⟩ := List.append_of_mem hv
  have huv : Relation.ReflTransGen E u v := by
    have : List.IsChain E (a ++ [v]) := by
      have := h3
      rw [show a ++ v :: b = (a ++ [v]) ++ b by simp] at this
      exact this.left_of_append
    cases a with
    | nil => simp at h1; rw [h1]
    | cons p a =>
      simp at h1
      subst h1
      exact List.relationReflTransGen_of_exists_isChain_cons (a ++ [v]) (by simpa using this) (by simp)
  have hvz : Relation.ReflTransGen E v z := by
    have : List.IsChain E (v :: b) := h3.right_of_append
    rw [List.getLast?_append, List.getLast?_eq_some_getLast (List.cons_ne_nil v b)] at h2
    simp at h2
    exact List.relationReflTransGen_of_exists_isChain_cons b this (by simpa using h2)
  exact (Relation.TransGen.tail' hvz h4).trans_left huv

/-- With cycles apart the constraints of the next round are determined. -/
theorem next_cuts {P : TspProblem} {R R1 : TspRound} (hn : R.Next P R1) (ha : CyclesApart R.sel) (d : List ℕ) :
    d ∈ R1.cuts ↔ d ∈ R.cuts ∨ d ≠ [] ∧ ∃ l, IsCycle (Joined R.sel) l ∧ IsCut P.edges (· ∈ l) d := by
  refine ⟨hn.sound d, ?_⟩
  rintro (h | ⟨hd, l, hl, hc⟩)
  · exact hn.keep.subset h
  · obtain ⟨v, hv⟩ := List.exists_mem_of_ne_nil l (isCycle_ne hl)
    obtain ⟨l', h1, h2, h3⟩ := hn.complete v (isCycle_trans hl hv)
    have hr := ha l l' hl h1 v hv h2
    rcases h3 d (by
      have : (fun x => x ∈ l') = (fun x => x ∈ l) := by
        funext x; exact propext hr.symm.mem_iff
      rw [this]; exact hc) with h | h
    · exact absurd h hd
    · exact h

/-- With cycles apart in all rounds before the last, the selections are determined. -/
theorem rounds_determined {P : TspProblem} {x0 : ℕ → ℕ → ℚ} (hok : EdgesOk P.n P.edges) {R R' : ℕ → TspRound} {k : ℕ} (hR : TspRounds P x0 R k)
    (hR' : TspRounds P x0 R' k) (ha : ∀ i < k, CyclesApart (R i).sel) :
    ∀ i ≤ k, ((R i).sel = (R' i).sel ∧ ∀ e < P.edges.length, (R i).output P e = (R' i).output P e) ∧ ∀ d, d ∈ (R i).cuts ↔ d ∈ (R' i).cuts := by
  have key : ∀ m ≤ k, ∀ i ≤ m, ∀ d, d ∈ (R i).cuts ↔ d ∈ (R' i).cuts := by
    intro m
    induction m with
    | zero =>
      intro _ i hi d
      obtain rfl : i = 0 := by omega
      rw [hR.first_cuts, hR'.first_cuts]
    | succ m ih =>
      intro hm i hi d
      by_cases him : i ≤ m
      · exact ih (by omega) i him d
      obtain rfl : i = m + 1 := by omega
      have hsel := (rounds_moved hok (TspRounds.le hR (by omega)) (TspRounds.le hR' (by omega)) (ih (by omega)) m le_rfl).1
      rw [next_cuts (hR.next m (by omega)) (ha m (by omega)), next_cuts (hR'.next m (by omega)) (hsel ▸ ha m (by omega)),
        ih (by omega) m le_rfl d, hsel]
  intro i hi
  exact ⟨rounds_moved hok hR hR' (key k le_rfl) i hi, key k le_rfl i hi⟩

end Verif.Proofs
