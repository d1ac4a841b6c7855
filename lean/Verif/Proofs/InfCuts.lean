import Verif.Proofs.InfRun
import Verif.Proofs.Subtour
import Verif.Proofs.Runs
import Verif.Spec.Forbidden

/-! The updates of the augmented rounds on costs that may be infinite. -/

namespace Verif.Proofs
open Verif Num Model Spec

/-- All entries are finite. -/
def FinM (M : Mat Num) (r c : ℕ) : Prop := M.rows = r ∧ M.cols = c ∧ ∀ i < r, ∀ j < c, ∃ q, M.data i j = fin q

theorem FinM.is {M : Mat Num} {r c : ℕ} (h : FinM M r c) : ∃ x, M.Is r c x := by
  classical
  refine ⟨fun i j => if h' : ∃ q, M.data i j = fin q then h'.choose else 0, h.1, h.2.1, fun i hi j hj => ?_⟩
  have h' := h.2.2 i hi j hj
  beta_reduce
  rw [dif_pos h']; exact h'.choose_spec

theorem finM_of_is {M : Mat Num} {r c : ℕ} {x : ℕ → ℕ → ℚ} (h : M.Is r c x) : FinM M r c :=
  ⟨h.1, h.2.1, fun i hi j hj => ⟨_, h.2.2 i hi j hj⟩⟩

theorem filterVal_fin {flag : Bool} {alpha : ℚ} {j : ℕ} {d o : Num} (hd : ∃ q, d = fin q) (ho : ∃ q, o = fin q) :
    ∃ q, filterVal flag alpha j d o = fin q := by
  obtain ⟨q, rfl⟩ := hd
  obtain ⟨p, rfl⟩ := ho
  unfold filterVal
  split_ifs
  all_goals exact ⟨_, rfl⟩

theorem processFiltering_fin {r R c : ℕ} {flag : Bool} {alpha : ℚ} {j : ℕ} {d u o : Mat Num} (hd : FinM d r c) (hu : FinM u r c) (ho : FinM o R c)
    (hR : r ≤ R) : ∃ u' o', processFiltering r flag alpha j d (u, o) = some (u', o') ∧ FinM u' r c ∧ FinM o' R c := by
  obtain ⟨⟨u', o'⟩, h1, h2, h3, h4, h5, h6, h7, h8⟩ := processFiltering_spec (rows := r) (flag := flag) (alpha := alpha) (iter := j) (dummy := d) (s := (u, o))
    (n := c) hd.1.ge hu.1.ge (by show r ≤ o.rows; rw [ho.1]; exact hR) hd.2.1 hu.2.1 ho.2.1
  simp only at h2 h3 h4 h5 h6 h7 h8
  have hf : ∀ i < r, ∀ k < c, ∃ q, filterVal flag alpha j (d.data i k) (o.data i k) = fin q := fun i hi k hk =>
    filterVal_fin (hd.2.2 i hi k hk) (ho.2.2 i (by omega) k hk)
  refine ⟨u', o', h1, ⟨by rw [h2, hu.1], h3, fun i hi k hk => by rw [h6 i hi k hk]; exact hf i hi k hk⟩, by rw [h4, ho.1], h5, fun i hi k hk => ?_⟩
  by_cases hir : i < r
  · rw [h7 i hir k hk]
    split_ifs
    · exact hf i hir k hk
    · exact ho.2.2 i hi k hk
  · rw [(h8 i (by omega) k).2]; exact ho.2.2 i hi k hk

section
variable {E C : ℕ} {M : Mat Num}

/-- Closed form of the subtour update. -/
theorem subtourUpdate_num {deltas : List (List ℕ)} (hC : deltas.length = C) (hd : ∀ l ∈ deltas, l.Nodup ∧ l ≠ [] ∧ ∀ e ∈ l, e < E)
    (hMr : M.rows = C) (hMc : M.cols = E) (hnn : ∀ c, ∀ h : c < deltas.length, ∀ e ∈ deltas[c], M.data c e ≠ nan)
    {old : Mat Num} (hr : old.rows = C) (hc : old.cols = E) :
    ∃ out, subtourUpdate E M deltas old = some out ∧ out.rows = C ∧ out.cols = E ∧
      ∀ c, ∀ h : c < deltas.length,
        (∀ e ∈ deltas[c], ∃ w, MinN {q | ∃ e' ∈ deltas[c], e' ≠ e ∧ M.data c e' = q} w ∧ out.data c e = cmin (-w) 0) ∧
        ∀ e, e ∉ deltas[c] → out.data c e = old.data c e := by
  obtain ⟨⟨f, b, out⟩, h1, h2, h3, h4, h5, h6, h7⟩ := loopUp_inv (n := deltas.length) (body := subtourBody M deltas)
    (s := (Arr.fill (E + 1) 0, Arr.fill (E + 1) 0, old))
    (fun i st => st.1.size = E + 1 ∧ st.2.1.size = E + 1 ∧ st.2.2.rows = C ∧ st.2.2.cols = E ∧
      (∀ c, ∀ h : c < deltas.length, c < i →
        (∀ e ∈ deltas[c], ∃ w, MinN {q | ∃ e' ∈ deltas[c], e' ≠ e ∧ M.data c e' = q} w ∧ st.2.2.data c e = cmin (-w) 0) ∧
        ∀ e, e ∉ deltas[c] → st.2.2.data c e = old.data c e) ∧
      ∀ c, i ≤ c → ∀ e, st.2.2.data c e = old.data c e)
    ⟨rfl, rfl, hr, hc, fun c _ hc => absurd hc (by omega), fun _ _ _ => rfl⟩
    (by
      rintro i hi ⟨f, b, out⟩ ⟨s1, s2, s3, s4, s5, s6⟩
      simp only at s1 s2 s3 s4 s5 s6
      have hiC : i < C := by omega
      obtain ⟨hn, hne, hlt⟩ := hd _ (List.getElem_mem hi)
      have hnn := hnn i hi
      generalize hl : deltas[i] = l at hn hne hlt hnn
      obtain ⟨f', b', k1, k2, k3, k4, k5⟩ := scan_num (msg := fun e => M.rd i e) (m := M.data i) hn hne hlt
        (fun e he => Mat.rd_of_lt (by rw [hMr]; exact hiC) (by rw [hMc]; exact hlt e he)) hnn s1 s2
      obtain ⟨o', g1, g2, g3, g4, g5⟩ := loopList_inv_idx (l := l) (body := subtourOut f' b' i) (s := out)
        (fun k o => o.rows = C ∧ o.cols = E ∧
          (∀ j, ∀ h : j < l.length, j < k → o.data i l[j] = cmin (-(cmin (f'.data l[j]) (b'.data (l[j] + 1)))) 0) ∧
          ∀ c e, ¬ (c = i ∧ e ∈ l) → o.data c e = out.data c e)
        ⟨s3, s4, fun j hj h => absurd h (by omega), fun _ _ _ => rfl⟩
        (by
          rintro k hk o ⟨o1, o2, o3, o4⟩
          have a := hlt _ (List.getElem_mem hk)
          refine ⟨⟨o.rows, o.cols, fun c e => if c = i ∧ e = l[k] then
              cmin (-(cmin (f'.data l[k]) (b'.data (l[k] + 1)))) 0 else o.data c e⟩, ?_, o1, o2, ?_, ?_⟩
          · simp [subtourOut, Arr.rd, Mat.wr, k3, k4, o1, o2, a, hiC, show l[k] < E + 1 by omega]
          · intro j hj hjk
            by_cases e : j = k
            · subst e; simp
            · have : l[j] ≠ l[k] := fun e' => e ((hn.getElem_inj_iff).mp e')
              simp only [this, and_false, if_false]
              exact o3 j hj (by omega)
          · intro c e h
            have : ¬ (c = i ∧ e = l[k]) := by
              rintro ⟨rfl, rfl⟩; exact h ⟨rfl, List.getElem_mem hk⟩
            simp only [this, if_false]
            exact o4 c e h)
      refine ⟨(f', b', o'), ?_, k3, k4, g2, g3, ?_, ?_⟩
      · simp [subtourBody, List.getElem?_eq_getElem hi, hl, k1, k2, g1]
      · intro c hcl hci
        by_cases e : c = i
        · subst e
          rw [hl]
          refine ⟨?_, ?_⟩
          · intro e he
            obtain ⟨j, hj, rfl⟩ := List.mem_iff_getElem.mp he
            exact ⟨_, k5 _ he, g4 j hj hj⟩
          · intro e he
            rw [← s6 c (le_refl _) e]
            exact g5 c e (fun h => he h.2)
        · have hdd : ∀ e, o'.data c e = out.data c e := fun e' => g5 c e' (fun h => e h.1)
          simp only [hdd]
          exact s5 c hcl (by omega)
      · intro c hc' e
        rw [← s6 c (by omega) e]
        exact g5 c e (fun h => absurd h.1 (by omega)))
  exact ⟨out, by simp only [subtourUpdate]; rw [h1]; rfl, h4, h5, fun c h => h6 c h h⟩

end

section
variable {n E : ℕ} {edges : List (ℕ × ℕ)}

/-- Writing `f e` at the positions of a list into a zero row. -/
theorem writeList_num {f : ℕ → Num} {body : ℕ → Arr Num → Option (Arr Num)} {l : List ℕ} (hl : ∀ e ∈ l, e < E)
    (hb : ∀ e < E, ∀ row : Arr Num, body e row = row.wr e (f e)) :
    ∃ r, loopList l body (Arr.fill E 0) = some r ∧ r.size = E ∧ ∀ e ∈ l, r.data e = f e := by
  obtain ⟨r, h1, h2, h3⟩ := loopList_inv_idx (l := l) (body := body) (s := Arr.fill E 0)
    (fun k r => r.size = E ∧ ∀ e ∈ l.take k, r.data e = f e)
    ⟨rfl, fun e he => by simp at he⟩
    (by
      rintro k hk r ⟨r1, r2⟩
      have hlk : l[k] < E := hl _ (List.getElem_mem hk)
      refine ⟨⟨r.size, fun i => if i = l[k] then f l[k] else r.data i⟩, ?_, r1, ?_⟩
      · rw [hb _ hlk]; exact Arr.wr_of_lt (by omega)
      · intro e he
        simp only [List.take_succ_eq_append_getElem hk, List.mem_append, List.mem_singleton] at he
        simp only
        split_ifs with h1
        · rw [h1]
        · exact r2 e (he.resolve_right h1))
  refine ⟨r, h1, h2, fun e he => ?_⟩
  exact h3 e (by rw [List.take_length]; exact he)

/-- Edge node towards the subtour constraints if only costs are infinite. -/
theorem edgeToSubtour_num (hok : EdgesOk n edges) (hE : edges.length = E) {deltas : List (List ℕ)} {C : ℕ}
    (hC : deltas.length = C) (hd : ∀ l ∈ deltas, ∀ e ∈ l, e < E) {cost : Arr Num} {D S : Mat Num}
    (hcost : cost.size = E) (hD : FinM D E n) (hS : FinM S C E) :
    ∃ r, edgeToSubtour E deltas cost D S edges = some r ∧ r.rows = C ∧ r.cols = E ∧
      ∀ k, ∀ hk : k < deltas.length, ∀ e ∈ deltas[k], ∃ p q, r.data k e = fin p + cost.data e - fin q := by
  obtain ⟨x, hx⟩ := hD.is
  obtain ⟨s, hs⟩ := hS.is
  obtain ⟨comb, k1, k2, k3⟩ := combineDegree_is hok hE hx
  by_cases h1 : deltas.length = 1
  · obtain ⟨row, r1, r2, r3⟩ := writeList_num (E := E) (l := deltas[0]) (f := fun e => comb.data e + cost.data e)
      (body := fun e (row : Arr Num) => do
        let x ← comb.rd e
        let c ← cost.rd e
        row.wr e (x + c)) (fun e he => hd _ (List.getElem_mem (by omega)) e he)
      (fun e he row => by
        simp only [Arr.rd_of_lt (show e < comb.size by omega), Arr.rd_of_lt (show e < cost.size by omega), Option.bind_eq_bind, Option.bind_some])
    refine ⟨⟨1, E, fun k l => if k = 0 then row.data l else 0⟩, ?_, by rw [← hC, h1], rfl, ?_⟩
    · simp only [edgeToSubtour, if_pos h1, k1, Option.bind_eq_bind, Option.bind_some,
        List.getElem?_eq_getElem (show 0 < deltas.length by omega)]
      simp only [Option.bind_eq_bind] at r1
      rw [r1, Option.bind_some, Mat.pushRow, if_pos r2]
    · intro k hk e he
      obtain rfl : k = 0 := by omega
      have hel := hd _ (List.getElem_mem hk) e he
      refine ⟨x e (edges[e]'(by omega)).1 + x e (edges[e]'(by omega)).2, 0, ?_⟩
      simp only [if_true]
      rw [r3 e he, k3 e (by omega)]
      cases cost.data e with
      | fin q => simp
      | _ => rfl
  · obtain ⟨sub, s1, s2⟩ := addRows_is hs (Arr.fill_is E 0)
    obtain ⟨r, q1, q2, q3, q4⟩ := loopUp_inv (n := deltas.length) (body := fun i (out : Mat Num) => do
      let l ← deltas[i]?
      let row ← loopList l (fun e row => do
        let s ← sub.rd e
        let x ← comb.rd e
        let c ← cost.rd e
        let own ← S.rd i e
        row.wr e (s + x + c - own)) (Arr.fill E 0)
      out.pushRow row) (s := (⟨0, E, fun _ _ => 0⟩ : Mat Num))
      (fun i r => r.rows = i ∧ r.cols = E ∧ ∀ k, ∀ hk : k < deltas.length, k < i → ∀ e ∈ deltas[k], ∃ p q, r.data k e = fin p + cost.data e - fin q)
      ⟨rfl, rfl, fun k _ h => absurd h (by omega)⟩
      (by
        rintro i hi r ⟨p1, p2, p3⟩
        obtain ⟨row, r1, r2, r3⟩ := writeList_num (E := E) (l := deltas[i])
          (f := fun e => sub.data e + comb.data e + cost.data e - S.data i e)
          (body := fun e (row : Arr Num) => do
            let s ← sub.rd e
            let x ← comb.rd e
            let c ← cost.rd e
            let own ← S.rd i e
            row.wr e (s + x + c - own)) (fun e he => hd _ (List.getElem_mem hi) e he)
          (fun e he row => by
            simp only [Arr.rd_of_lt (show e < comb.size by omega), Arr.rd_of_lt (show e < cost.size by omega), Arr.rd_of_lt (show e < sub.size by rw [s2.1]; exact he),
              Mat.rd_of_lt (show i < S.rows by rw [hS.1]; omega) (show e < S.cols by rw [hS.2.1]; exact he), Option.bind_eq_bind, Option.bind_some])
        refine ⟨⟨r.rows + 1, r.cols, fun k l => if k = r.rows then row.data l else r.data k l⟩, ?_, by simp only; omega, p2, ?_⟩
        · simp only [List.getElem?_eq_getElem hi, Option.bind_eq_bind, Option.bind_some]
          simp only [Option.bind_eq_bind] at r1
          rw [r1, Option.bind_some, Mat.pushRow, if_pos (by rw [r2, p2])]
        · intro k hk hki e he
          simp only [p1]
          by_cases hke : k = i
          · subst hke
            have hel := hd _ (List.getElem_mem hk) e he
            refine ⟨0 + (Finset.range C).sum (fun j => s j e) + (x e (edges[e]'(by omega)).1 + x e (edges[e]'(by omega)).2), s k e, ?_⟩
            rw [if_pos rfl, r3 e he, s2.2 e hel, k3 e (by omega), hs.2.2 k (by omega) e hel, fin_add]
          · rw [if_neg hke]
            exact p3 k hk (by omega) e he)
    refine ⟨r, ?_, by omega, q3, fun k hk e he => q4 k hk hk e he⟩
    simp only [edgeToSubtour, if_neg h1, show (0 : Num) = fin 0 from rfl, s1, k1, Option.bind_eq_bind, Option.bind_some]
    simp only [Option.bind_eq_bind] at q1
    exact q1

theorem edgeToDegreeAugmented_num (hok : EdgesOk n edges) (hE : edges.length = E) {C : ℕ} {D S cost out : Mat Num}
    (hD : FinM D E n) (hS : FinM S C E) (hcr : cost.rows = E) (hcc : cost.cols = n) (hr : out.rows = E) (hc : out.cols = n) :
    ∃ r, edgeToDegreeAugmented E D S edges cost out = some r ∧ r.rows = E ∧ r.cols = n ∧
      ∀ e, ∀ he : e < edges.length, ∀ v < n,
        ((v = edges[e].1 ∨ v = edges[e].2) → ∃ p, r.data e v = fin p + cost.data e v) ∧
        (v ≠ edges[e].1 → v ≠ edges[e].2 → r.data e v = out.data e v) := by
  obtain ⟨x, hx⟩ := hD.is
  obtain ⟨s, hs⟩ := hS.is
  obtain ⟨sub, s1, s2⟩ := addRows_is hs (Arr.fill_is E 0)
  obtain ⟨F, h1, h2, h3, h4, h5⟩ := loopUp_inv (n := edges.length) (body := fun i (out : Mat Num) => do
    let e ← edges[i]?
    let s ← sub.rd i
    let x ← D.rd i e.2
    let c ← cost.rd i e.1
    let out ← out.wr i e.1 (s + x + c)
    let y ← D.rd i e.1
    let c' ← cost.rd i e.2
    out.wr i e.2 (s + y + c')) (s := out)
    (fun k F => F.rows = E ∧ F.cols = n ∧
      (∀ e, ∀ he : e < edges.length, e < k → ∀ v < n,
        ((v = edges[e].1 ∨ v = edges[e].2) → ∃ p, F.data e v = fin p + cost.data e v) ∧
        (v ≠ edges[e].1 → v ≠ edges[e].2 → F.data e v = out.data e v)) ∧
      ∀ e, k ≤ e → ∀ v, F.data e v = out.data e v)
    ⟨hr, hc, fun e _ hk => absurd hk (by omega), fun _ _ _ => rfl⟩
    (by
      rintro k hk F ⟨f1, f2, f3, f4⟩
      obtain ⟨a, b, d⟩ := EdgesOk.get hok hk
      refine ⟨⟨F.rows, F.cols, fun i l =>
        if i = k ∧ l = edges[k].2 then
          fin (0 + (Finset.range C).sum (fun j => s j k)) + fin (x k edges[k].1) + cost.data k edges[k].2 else
        if i = k ∧ l = edges[k].1 then
          fin (0 + (Finset.range C).sum (fun j => s j k)) + fin (x k edges[k].2) + cost.data k edges[k].1 else F.data i l⟩,
        ?_, f1, f2, ?_, ?_⟩
      · simp only [List.getElem?_eq_getElem hk, Option.bind_eq_bind, Option.bind_some, hx.rd (show k < E by omega) b,
          hx.rd (show k < E by omega) a, Mat.rd_of_lt (show k < cost.rows by omega) (show edges[k].2 < cost.cols by omega),
          Mat.rd_of_lt (show k < cost.rows by omega) (show edges[k].1 < cost.cols by omega),
          s2.rd (show k < E by omega), Mat.wr_of_lt (show k < F.rows by omega) (show edges[k].1 < F.cols by omega)]
        exact Mat.wr_of_lt (show k < F.rows by omega) (show edges[k].2 < F.cols by omega)
      · intro e he hek v hv
        simp only
        by_cases e' : e = k
        · subst e'
          by_cases hb : v = edges[e].2
          · subst hb
            refine ⟨fun _ => ?_, fun _ h => absurd rfl h⟩
            simp only [true_and, if_true, fin_add]
            exact ⟨_, rfl⟩
          · by_cases ha : v = edges[e].1
            · subst ha
              refine ⟨fun _ => ?_, fun h => absurd rfl h⟩
              simp only [true_and, if_true, if_neg d, fin_add]
              exact ⟨_, rfl⟩
            · exact ⟨fun h => absurd h (not_or.mpr ⟨ha, hb⟩), fun _ _ => by simp [ha, hb, f4 e le_rfl v]⟩
        · simp only [e', false_and, if_false]; exact f3 e he (by omega) v hv
      · intro e he v
        simp only [show e ≠ k by omega, false_and, if_false]
        exact f4 e (by omega) v)
  refine ⟨F, ?_, h2, h3, fun e he v hv => h4 e he he v hv⟩
  simp only [edgeToDegreeAugmented, show (0 : Num) = fin 0 from rfl, s1, Option.bind_eq_bind, Option.bind_some]
  simp only [Option.bind_eq_bind] at h1
  exact h1

end

end Verif.Proofs
