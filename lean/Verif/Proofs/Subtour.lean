import Verif.Model.Subtour
import Verif.Proofs.MinScan

/-! The subtour elimination constraint update. -/

namespace Verif.Proofs
open Verif Num Model Spec

section
variable {E C : ℕ} {x : ℕ → ℕ → ℚ} {M : Mat Num}

/-- Closed form of the subtour update. -/
theorem subtourUpdate_eq {deltas : List (List ℕ)} (hC : deltas.length = C)
    (hd : ∀ l ∈ deltas, l.Nodup ∧ l ≠ [] ∧ ∀ e ∈ l, e < E) (hM : M.Is C E x)
    {old : Mat Num} (hr : old.rows = C) (hc : old.cols = E) :
    ∃ out, subtourUpdate E M deltas old = some out ∧ out.rows = C ∧ out.cols = E ∧
      ∀ c, ∀ h : c < deltas.length,
        (∀ e ∈ deltas[c], ∃ w, IsMin (others deltas[c].toFinset (x c) e) w ∧ out.data c e = cmin (-w) (fin 0)) ∧
        ∀ e, e ∉ deltas[c] → out.data c e = old.data c e := by
  obtain ⟨⟨f, b, out⟩, h1, h2, h3, h4, h5, h6, h7⟩ := loopUp_inv (n := deltas.length) (body := subtourBody M deltas)
    (s := (Arr.fill (E + 1) 0, Arr.fill (E + 1) 0, old))
    (fun i st => st.1.size = E + 1 ∧ st.2.1.size = E + 1 ∧ st.2.2.rows = C ∧ st.2.2.cols = E ∧
      (∀ c, ∀ h : c < deltas.length, c < i →
        (∀ e ∈ deltas[c], ∃ w, IsMin (others deltas[c].toFinset (x c) e) w ∧ st.2.2.data c e = cmin (-w) (fin 0)) ∧
        ∀ e, e ∉ deltas[c] → st.2.2.data c e = old.data c e) ∧
      ∀ c, i ≤ c → ∀ e, st.2.2.data c e = old.data c e)
    ⟨rfl, rfl, hr, hc, fun c _ hc => absurd hc (by omega), fun _ _ _ => rfl⟩
    (by
      rintro i hi ⟨f, b, out⟩ ⟨s1, s2, s3, s4, s5, s6⟩
      simp only at s1 s2 s3 s4 s5 s6
      have hiC : i < C := by omega
      obtain ⟨hn, hne, hlt⟩ := hd _ (List.getElem_mem hi)
      generalize hl : deltas[i] = l at hn hne hlt
      obtain ⟨f', b', k1, k2, k3, k4, k5⟩ := scan_spec (msg := fun e => M.rd i e) (m := x i) hn hne hlt
        (fun e he => hM.rd hiC (hlt e he)) s1 s2
      obtain ⟨o', g1, g2, g3, g4, g5⟩ := loopList_inv_idx (l := l) (body := subtourOut f' b' i) (s := out)
        (fun k o => o.rows = C ∧ o.cols = E ∧
          (∀ j, ∀ h : j < l.length, j < k → o.data i l[j] = cmin (-(cmin (f'.data l[j]) (b'.data (l[j] + 1)))) 0) ∧
          ∀ c e, ¬ (c = i ∧ e ∈ l) → o.data c e = out.data c e)
        ⟨s3, s4, fun j hj h => absurd h (by omega), fun _ _ _ => rfl⟩
        (by
          rintro k hk o ⟨o1, o2, o3, o4⟩
          have a := hlt _ (List.getElem_mem hk)
          refine ⟨⟨o.rows, o.cols, fun c e => if c = i ∧ e = l[k] then
              cmin (-(cmin (f'.data l[k]) (b'.data (l[k] + 1)))) 0 else o.data c e⟩, ?_, o1, o2, ?_, ?_⟩
          · simp [subtourOut, Arr.rd, Mat.wr, k3, k4, o1, o2, a, hiC, show l[k] < E + 1 by omega]
          · intro j hj hjk
            by_cases e : j = k
            · subst e; simp
            · have : l[j] ≠ l[k] := fun e' => e ((hn.getElem_inj_iff).mp e')
              simp only [this, and_false, if_false]
              exact o3 j hj (by omega)
          · intro c e h
            have : ¬ (c = i ∧ e = l[k]) := by
              rintro ⟨rfl, rfl⟩; exact h ⟨rfl, List.getElem_mem hk⟩
            simp only [this, if_false]
            exact o4 c e h)
      refine ⟨(f', b', o'), ?_, k3, k4, g2, g3, ?_, ?_⟩
      · simp [subtourBody, List.getElem?_eq_getElem hi, hl, k1, k2, g1]
      · intro c hcl hci
        by_cases e : c = i
        · subst e
          rw [hl]
          refine ⟨?_, ?_⟩
          · intro e he
            obtain ⟨j, hj, rfl⟩ := List.mem_iff_getElem.mp he
            exact ⟨_, k5 _ he, g4 j hj hj⟩
          · intro e he
            rw [← s6 c (le_refl _) e]
            exact g5 c e (fun h => he h.2)
        · have hdd : ∀ e, o'.data c e = out.data c e := fun e' => g5 c e' (fun h => e h.1)
          simp only [hdd]
          exact s5 c hcl (by omega)
      · intro c hc' e
        rw [← s6 c (by omega) e]
        exact g5 c e (fun h => absurd h.1 (by omega)))
  exact ⟨out, by simp only [subtourUpdate]; rw [h1]; rfl, h4, h5, fun c h => h6 c h h⟩

end

end Verif.Proofs
