import Verif.Model.Degree
import Verif.Proofs.MinScan
import Verif.Spec.Tsp

/-! The degree constraint update. -/

namespace Verif.Proofs
open Verif Num Model Spec

theorem outEdges_dec (edges : List (ℕ × ℕ)) (v i : ℕ) :
    i ∈ outEdges edges v ↔ ∃ h : i < edges.length, edges[i].1 = v := by
  simp only [outEdges, Finset.mem_filter, Finset.mem_range]
  constructor
  · rintro ⟨h, e⟩
    rw [List.getElem?_eq_getElem h] at e
    exact ⟨h, by simpa using e⟩
  · rintro ⟨h, e⟩
    exact ⟨h, by rw [List.getElem?_eq_getElem h]; simp [e]⟩

theorem inEdges_dec (edges : List (ℕ × ℕ)) (v i : ℕ) :
    i ∈ inEdges edges v ↔ ∃ h : i < edges.length, edges[i].2 = v := by
  simp only [inEdges, Finset.mem_filter, Finset.mem_range]
  constructor
  · rintro ⟨h, e⟩
    rw [List.getElem?_eq_getElem h] at e
    exact ⟨h, by simpa using e⟩
  · rintro ⟨h, e⟩
    exact ⟨h, by rw [List.getElem?_eq_getElem h]; simp [e]⟩

theorem connFirst_toFinset (edges : List (ℕ × ℕ)) (v : ℕ) : (connFirst edges v).toFinset = outEdges edges v := by
  ext i
  rw [outEdges_dec]
  simp only [connFirst, List.mem_toFinset, List.mem_filter, List.mem_range]
  constructor
  · rintro ⟨h, e⟩
    rw [List.getElem?_eq_getElem h] at e
    exact ⟨h, (beq_iff_eq.mp e).symm⟩
  · rintro ⟨h, e⟩
    refine ⟨h, ?_⟩
    rw [List.getElem?_eq_getElem h]; simp [e]

theorem connSecond_toFinset {n : ℕ} {edges : List (ℕ × ℕ)} (hok : EdgesOk n edges) (v : ℕ) :
    (connSecond edges v).toFinset = inEdges edges v := by
  ext i
  rw [inEdges_dec]
  simp only [connSecond, List.mem_toFinset, List.mem_filter, List.mem_range]
  constructor
  · rintro ⟨h, e⟩
    rw [List.getElem?_eq_getElem h] at e
    simp only [Bool.and_eq_true, beq_iff_eq] at e
    exact ⟨h, e.2.symm⟩
  · rintro ⟨h, e⟩
    refine ⟨h, ?_⟩
    rw [List.getElem?_eq_getElem h]
    have := (hok _ (List.getElem_mem h)).2.2
    have h1 : v ≠ edges[i].1 := by rw [← e]; exact fun h => this h.symm
    simp [e, h1]

theorem connFirst_nodup (edges : List (ℕ × ℕ)) (v : ℕ) : (connFirst edges v).Nodup := List.nodup_range.filter _
theorem connSecond_nodup (edges : List (ℕ × ℕ)) (v : ℕ) : (connSecond edges v).Nodup := List.nodup_range.filter _
theorem connFirst_lt (edges : List (ℕ × ℕ)) (v : ℕ) : ∀ e ∈ connFirst edges v, e < edges.length := by
  intro e he; simp only [connFirst, List.mem_filter, List.mem_range] at he; exact he.1
theorem connSecond_lt (edges : List (ℕ × ℕ)) (v : ℕ) : ∀ e ∈ connSecond edges v, e < edges.length := by
  intro e he; simp only [connSecond, List.mem_filter, List.mem_range] at he; exact he.1

section
variable {n E : ℕ} {x : ℕ → ℕ → ℚ} {M : Mat Num}

/-- One group of edges of one node. -/
theorem degreeGroup_spec (hM : M.Is E n x) {v : ℕ} (hv : v < n) {l : List ℕ} (hn : l.Nodup) (hne : l ≠ [])
    (hlt : ∀ e ∈ l, e < E) {f b : Arr Num} {out : Mat Num} (hf : f.size = E + 1) (hb : b.size = E + 1)
    (hr : out.rows = E) (hc : out.cols = n) :
    ∃ f' b' out', degreeGroup M v l (f, b, out) = some (f', b', out') ∧ f'.size = E + 1 ∧ b'.size = E + 1 ∧
      out'.rows = E ∧ out'.cols = n ∧
      (∀ e ∈ l, ∃ w, IsMin (others l.toFinset (fun e => x e v) e) w ∧ out'.data e v = -w) ∧
      ∀ e w, ¬ (e ∈ l ∧ w = v) → out'.data e w = out.data e w := by
  obtain ⟨f', b', h1, h2, h3, h4, h5⟩ := scan_spec (msg := fun e => M.rd e v) (m := fun e => x e v) hn hne hlt
    (fun e he => hM.rd (hlt e he) hv) hf hb
  obtain ⟨out', g1, g2, g3, g4, g5⟩ := loopList_inv_idx (l := l) (body := degreeOut f' b' v) (s := out)
    (fun i o => o.rows = E ∧ o.cols = n ∧
      (∀ j, ∀ h : j < l.length, j < i → o.data l[j] v = -(cmin (f'.data l[j]) (b'.data (l[j] + 1)))) ∧
      ∀ e w, ¬ (e ∈ l ∧ w = v) → o.data e w = out.data e w)
    ⟨hr, hc, fun j hj h => absurd h (by omega), fun _ _ _ => rfl⟩
    (by
      rintro i hi o ⟨o1, o2, o3, o4⟩
      have a := hlt _ (List.getElem_mem hi)
      refine ⟨⟨o.rows, o.cols, fun k w => if k = l[i] ∧ w = v then -(cmin (f'.data l[i]) (b'.data (l[i] + 1))) else
        o.data k w⟩, ?_, o1, o2, ?_, ?_⟩
      · simp [degreeOut, Arr.rd, Mat.wr, h3, h4, o1, o2, a, hv, show l[i] < E + 1 by omega]
      · intro j hj hji
        by_cases e : j = i
        · subst e; simp
        · have : l[j] ≠ l[i] := fun e' => e ((hn.getElem_inj_iff).mp e')
          simp only [this, false_and, if_false]
          exact o3 j hj (by omega)
      · intro e w h
        have : ¬ (e = l[i] ∧ w = v) := by
          rintro ⟨rfl, rfl⟩; exact h ⟨List.getElem_mem hi, rfl⟩
        simp only [this, if_false]
        exact o4 e w h)
  refine ⟨f', b', out', by simp [degreeGroup, h1, h2, g1], h3, h4, g2, g3, ?_, g5⟩
  intro e he
  obtain ⟨i, hi, rfl⟩ := List.mem_iff_getElem.mp he
  exact ⟨_, h5 _ he, g4 i hi hi⟩

/-- Closed form of the degree update. -/
theorem degreeUpdate_eq {edges : List (ℕ × ℕ)} (hok : EdgesOk n edges) (hE : edges.length = E)
    (ho : ∀ v < n, (outEdges edges v).Nonempty) (hi : ∀ v < n, (inEdges edges v).Nonempty) (hM : M.Is E n x)
    {old : Mat Num} (hr : old.rows = E) (hc : old.cols = n) :
    ∃ out, degreeUpdate n E M edges old = some out ∧ out.rows = E ∧ out.cols = n ∧
      ∀ v < n,
        (∀ e ∈ outEdges edges v, ∃ w, IsMin (others (outEdges edges v) (fun e => x e v) e) w ∧ out.data e v = -w) ∧
        (∀ e ∈ inEdges edges v, ∃ w, IsMin (others (inEdges edges v) (fun e => x e v) e) w ∧ out.data e v = -w) ∧
        ∀ e, e ∉ outEdges edges v → e ∉ inEdges edges v → out.data e v = old.data e v := by
  obtain ⟨⟨f, b, out⟩, h1, h2, h3, h4, h5, h6, h7⟩ := loopUp_inv (n := n) (body := degreeNode M edges)
    (s := (Arr.fill (E + 1) 0, Arr.fill (E + 1) 0, old))
    (fun i st => st.1.size = E + 1 ∧ st.2.1.size = E + 1 ∧ st.2.2.rows = E ∧ st.2.2.cols = n ∧
      (∀ v < i,
        (∀ e ∈ outEdges edges v, ∃ w, IsMin (others (outEdges edges v) (fun e => x e v) e) w ∧ st.2.2.data e v = -w) ∧
        (∀ e ∈ inEdges edges v, ∃ w, IsMin (others (inEdges edges v) (fun e => x e v) e) w ∧ st.2.2.data e v = -w) ∧
        ∀ e, e ∉ outEdges edges v → e ∉ inEdges edges v → st.2.2.data e v = old.data e v) ∧
      ∀ v, i ≤ v → ∀ e, st.2.2.data e v = old.data e v)
    ⟨rfl, rfl, hr, hc, fun v hv => absurd hv (by omega), fun _ _ _ => rfl⟩
    (by
      rintro i hin ⟨f, b, out⟩ ⟨s1, s2, s3, s4, s5, s6⟩
      simp only at s1 s2 s3 s4 s5 s6
      have hne1 : connFirst edges i ≠ [] := by
        intro h; have := ho i hin; rw [← connFirst_toFinset, h] at this; simp at this
      have hne2 : connSecond edges i ≠ [] := by
        intro h; have := hi i hin; rw [← connSecond_toFinset hok, h] at this; simp at this
      obtain ⟨f1, b1, o1, a1, a2, a3, a4, a5, a6, a7⟩ := degreeGroup_spec hM hin (connFirst_nodup edges i) hne1
        (by rw [← hE]; exact connFirst_lt edges i) s1 s2 s3 s4
      obtain ⟨f2, b2, o2, c1, c2, c3, c4, c5, c6, c7⟩ := degreeGroup_spec (f := Arr.fill f1.size 0)
        (b := Arr.fill b1.size 0) hM hin (connSecond_nodup edges i) hne2
        (by rw [← hE]; exact connSecond_lt edges i) a2 a3 a4 a5
      rw [connFirst_toFinset] at a6
      rw [connSecond_toFinset hok] at c6
      have m1 : ∀ e, e ∈ connFirst edges i ↔ e ∈ outEdges edges i := by
        intro e; rw [← connFirst_toFinset, List.mem_toFinset]
      have m2 : ∀ e, e ∈ connSecond edges i ↔ e ∈ inEdges edges i := by
        intro e; rw [← connSecond_toFinset hok, List.mem_toFinset]
      have hdis : ∀ e, e ∈ outEdges edges i → e ∉ inEdges edges i := by
        intro e he he'
        rw [outEdges_dec] at he; rw [inEdges_dec] at he'
        obtain ⟨hl, e1⟩ := he; obtain ⟨_, e2⟩ := he'
        exact (hok _ (List.getElem_mem hl)).2.2 (e1.trans e2.symm)
      refine ⟨(f2, b2, o2), by simp [degreeNode, a1, c1], c2, c3, c4, c5, ?_, ?_⟩
      · intro v hv
        by_cases hvi : v = i
        · subst hvi
          refine ⟨?_, ?_, ?_⟩
          · intro e he
            obtain ⟨w, w1, w2⟩ := a6 e ((m1 e).mpr he)
            refine ⟨w, w1, ?_⟩
            rw [← w2]; exact c7 e v (fun h => hdis e he ((m2 e).mp h.1))
          · intro e he; exact c6 e ((m2 e).mpr he)
          · intro e h1 h2
            rw [← s6 v (le_refl _) e, ← a7 e v (fun h => h1 ((m1 e).mp h.1))]
            exact c7 e v (fun h => h2 ((m2 e).mp h.1))
        · have hd : ∀ e, o2.data e v = out.data e v := fun e => by
            rw [c7 e v (fun h => hvi h.2), a7 e v (fun h => hvi h.2)]
          simp only [hd]
          exact s5 v (by omega)
      · intro v hv e
        rw [← s6 v (by omega) e, ← a7 e v (fun h => absurd h.2 (by omega))]
        exact c7 e v (fun h => absurd h.2 (by omega)))
  exact ⟨out, by simp only [degreeUpdate]; rw [h1]; rfl, h4, h5, h6⟩

end

end Verif.Proofs
