import Verif.Model.KsatIO
import Verif.Proofs.KcIO

namespace Verif.Proofs
open Verif Num Spec Model

section
variable {n C k : ℕ} {used : List ℕ} {conns : List (List ℕ)} {cx : ℕ → ℕ → ℕ} {ty : ℕ → ℕ → ℤ} {w : ℕ → Num}

/-- The attributes of the Python object for a formula given by its numbers. -/
def ksatPyOf (n C k : ℕ) (used : List ℕ) (conns : List (List ℕ)) (cx : ℕ → ℕ → ℕ) (ty : ℕ → ℕ → ℤ) (w : ℕ → Num) : KsatPy where
  numVars := n
  numConstraints := C
  k := k
  used := used
  conns := conns
  conx := table C k cx
  conxType := table C k ty
  cost := listOf n w

theorem ksatStart_spec (hv : ∀ c < C, ∀ s < k, cx c s < n) : ∃ m, ksatStart (ksatPyOf n C k used conns cx ty w) = some m ∧
    m.rows = C ∧ m.cols = n ∧ ∀ c < C, ∀ v < n, m.data c v = if ∃ s < k, cx c s = v then w v else 0 := by
  obtain ⟨m, h1, h2, h3, h4, -⟩ := loopUp_inv (n := C) (body := fun i (m : Mat Num) => loopList ((table C k cx).getD i []) (fun v m => do
      let c ← (listOf n w)[v]?
      m.wr i v c) m) (s := Mat.fill C n 0)
    (fun r m => m.rows = C ∧ m.cols = n ∧ (∀ c < r, ∀ v < n, m.data c v = if ∃ s < k, cx c s = v then w v else 0) ∧
      ∀ c, r ≤ c → ∀ v, m.data c v = 0)
    ⟨rfl, rfl, fun d hd => by omega, fun _ _ _ => rfl⟩
    (by
      rintro i hi m ⟨a1, a2, a3, a4⟩
      have hrow : (table C k cx).getD i [] = listOf k (cx i) := by
        rw [List.getD_eq_getElem?_getD, table_getElem? hi]; rfl
      rw [hrow]
      obtain ⟨m', b1, b2, b3, b4, b5, b6⟩ := loopList_inv_idx (l := listOf k (cx i)) (body := fun v (m : Mat Num) => do
          let c ← (listOf n w)[v]?
          m.wr i v c) (s := m)
        (fun r m => m.rows = C ∧ m.cols = n ∧ (∀ c < i, ∀ v < n, m.data c v = if ∃ s < k, cx c s = v then w v else 0) ∧
          (∀ c, i < c → ∀ v, m.data c v = 0) ∧ ∀ v, m.data i v = if ∃ s < r, cx i s = v then w v else 0)
        ⟨a1, a2, a3, fun d hd => a4 d (by omega), fun v => by
          rw [if_neg (by rintro ⟨s, hs, -⟩; omega)]; exact a4 i le_rfl v⟩
        (by
          rintro j hj m ⟨c1, c2, c3, c4, c5⟩
          have hj' : j < k := by rw [listOf_length] at hj; exact hj
          have e : (listOf k (cx i))[j] = cx i j := by simp [listOf]
          have hlt := hv i hi j hj'
          rw [e, listOf_getElem? hlt]
          simp only [Option.bind_eq_bind, Option.bind_some]
          rw [Mat.wr_of_lt (by omega) (by omega)]
          refine ⟨_, rfl, c1, c2, fun d hd t ht => ?_, fun d hd t => ?_, fun v => ?_⟩
          · show (if d = i ∧ t = cx i j then _ else _) = _
            rw [if_neg (by omega)]; exact c3 d hd t ht
          · show (if d = i ∧ t = cx i j then _ else _) = _
            rw [if_neg (by omega)]; exact c4 d hd t
          · show (if i = i ∧ v = cx i j then _ else _) = _
            by_cases ev : v = cx i j
            · subst ev; rw [if_pos ⟨rfl, rfl⟩, if_pos ⟨j, by omega, rfl⟩]
            · rw [if_neg (by rintro ⟨-, h⟩; exact ev h), c5 v]
              congr 1
              refine propext ⟨?_, ?_⟩
              · rintro ⟨s, s1, s2⟩; exact ⟨s, by omega, s2⟩
              · rintro ⟨s, s1, s2⟩
                refine ⟨s, ?_, s2⟩
                rcases Nat.lt_succ_iff_lt_or_eq.mp s1 with h | h
                · exact h
                · subst h; exact absurd s2.symm ev)
      rw [listOf_length] at b6
      refine ⟨m', b1, b2, b3, fun d hd t ht => ?_, fun d hd t => b5 d (by omega) t⟩
      by_cases e : d = i
      · subst e; exact b6 t
      · exact b4 d (by omega) t ht)
  refine ⟨m, ?_, h2, h3, h4⟩
  simp only [ksatStart, ksatPyOf, table_length]
  exact h1

theorem ksatFlatten_spec (hv : ∀ c < C, ∀ s < k, cx c s < n) : ∃ f, ksatFlatten (ksatPyOf n C k used conns cx ty w) = some f ∧
    f.used = used ∧ f.conns = conns.flatten ∧ f.sizes = conns.map List.length ∧ f.conx = (table C k cx).flatten ∧
    f.conxType = (table C k ty).flatten ∧ f.cost = listOf n w ∧
    f.messages = (table C n (fun c v => if ∃ s < k, cx c s = v then w v else 0)).flatten := by
  obtain ⟨m, a1, a2, a3, a4⟩ := ksatStart_spec (used := used) (conns := conns) (ty := ty) (w := w) hv
  refine ⟨{ used := used, conns := conns.flatten, sizes := conns.map List.length, conx := (table C k cx).flatten,
            conxType := (table C k ty).flatten, cost := listOf n w, messages := flattenMat m }, ?_, rfl, rfl, rfl, rfl, rfl, rfl,
    flattenMat_congr a2 a3 a4⟩
  have e1 : (ksatPyOf n C k used conns cx ty w).conx = table C k cx := rfl
  have e2 : (ksatPyOf n C k used conns cx ty w).conxType = table C k ty := rfl
  simp only [ksatFlatten, a1, e1, e2, flattenRows_table, Option.bind_eq_bind, Option.bind_some]
  rfl

/-- The lists as rebuilt: those of used variables, cut one after the other. -/
theorem connections_decoded (hl : conns.length = n) {used : List ℕ} (hu : ∀ v < n, v ∉ used → conns.getD v [] = []) :
    loopUp n (fun j (s : List (List ℕ) × ℕ) =>
      if j ∈ used then do
        let size ← (conns.map List.length)[j]?
        let l ← slice conns.flatten s.2 (s.2 + size)
        some (s.1 ++ [l], s.2 + size)
      else some (s.1 ++ [[]], s.2)) (([] : List (List ℕ)), 0) = some (conns, conns.flatten.length) := by
  obtain ⟨s, h1, h2, h3⟩ := loopUp_inv (n := n) (body := fun j (s : List (List ℕ) × ℕ) =>
      if j ∈ used then do
        let size ← (conns.map List.length)[j]?
        let l ← slice conns.flatten s.2 (s.2 + size)
        some (s.1 ++ [l], s.2 + size)
      else some (s.1 ++ [[]], s.2)) (s := (([] : List (List ℕ)), 0))
    (fun r s => s.1 = conns.take r ∧ s.2 = ((conns.map List.length).take r).sum) ⟨by simp, by simp⟩
    (by
      rintro j hj ⟨l, o⟩ ⟨a1, a2⟩
      simp only at a1 a2
      have hj' : j < conns.length := by omega
      have htake : conns.take (j + 1) = conns.take j ++ [conns[j]] := List.take_succ_eq_append_getElem hj'
      have hsum : ((conns.map List.length).take (j + 1)).sum = ((conns.map List.length).take j).sum + conns[j].length := by
        rw [List.take_succ_eq_append_getElem (by simpa using hj')]; simp
      by_cases hm : j ∈ used
      · rw [if_pos hm]
        have e : (conns.map List.length)[j]? = some conns[j].length := by simp [hj']
        rw [e]
        simp only [Option.bind_eq_bind, Option.bind_some, a2, slice_pieces conns hj']
        exact ⟨_, rfl, by rw [htake, a1], hsum.symm⟩
      · rw [if_neg hm]
        have e : conns[j] = [] := by have := hu j hj hm; simpa [hj'] using this
        exact ⟨_, rfl, by rw [htake, a1, e], by rw [hsum, e]; simpa using a2⟩)
  rw [h1]
  have e : s = (conns, conns.flatten.length) := by
    refine Prod.ext ?_ ?_
    · rw [h2, List.take_of_length_le (by omega)]
    · rw [h3, List.take_of_length_le (by simp; omega), List.length_flatten]
  rw [e]

/-- Lists of variables that are not used are always rebuilt as empty. -/
theorem connections_unused {used : List ℕ} {sizes flat : List ℕ} {out : List (List ℕ)} {o : ℕ}
    (h : loopUp n (fun j (s : List (List ℕ) × ℕ) =>
      if j ∈ used then do
        let size ← sizes[j]?
        let l ← slice flat s.2 (s.2 + size)
        some (s.1 ++ [l], s.2 + size)
      else some (s.1 ++ [[]], s.2)) (([] : List (List ℕ)), 0) = some (out, o)) :
    out.length = n ∧ ∀ v < n, v ∉ used → out.getD v [] = [] := by
  induction n generalizing out o with
  | zero => cases h; exact ⟨rfl, fun v hv => by omega⟩
  | succ n ih =>
    rw [loopUp] at h
    obtain ⟨⟨l, o'⟩, h1, h2⟩ := Option.bind_eq_some_iff.mp h
    obtain ⟨i1, i2⟩ := ih h1
    have key : ∀ x, out = l ++ [x] → (n ∉ used → x = []) → out.length = n + 1 ∧ ∀ v < n + 1, v ∉ used → out.getD v [] = [] := by
      rintro x rfl hx
      refine ⟨by simp [i1], fun v hv hn => ?_⟩
      by_cases e : v = n
      · subst e; simp [List.getD_eq_getElem?_getD, i1, hx hn]
      · have hlt : v < l.length := by omega
        rw [List.getD_eq_getElem?_getD, List.getElem?_append_left hlt, ← List.getD_eq_getElem?_getD]
        exact i2 v (by omega) hn
    by_cases hm : n ∈ used
    · rw [if_pos hm] at h2
      obtain ⟨sz, -, h3⟩ := Option.bind_eq_some_iff.mp h2
      obtain ⟨x, -, h4⟩ := Option.bind_eq_some_iff.mp h3
      cases h4
      exact key x rfl fun hn => absurd hm hn
    · rw [if_neg hm] at h2
      cases h2
      exact key [] rfl fun _ => rfl

theorem ksatDecode_spec {flag : Bool} {alpha : ℚ} {f : KsatFlat} {A : ℕ → ℕ → Num} (h1 : f.used = used)
    (h2 : f.conns = conns.flatten) (h3 : f.sizes = conns.map List.length) (h4 : f.conx = (table C k cx).flatten)
    (h5 : f.conxType = (table C k ty).flatten) (h6 : f.cost = listOf n w) (h7 : f.messages = (table C n A).flatten)
    (hl : conns.length = n) (hu : ∀ v < n, v ∉ used → conns.getD v [] = []) :
    ∃ inp a, ksatDecode n C used.length k flag alpha f = some (inp, a) ∧
      inp.numVars = n ∧ inp.numConstraints = C ∧ inp.k = k ∧ inp.flag = flag ∧ inp.alpha = alpha ∧ inp.used = used ∧ inp.conns = conns ∧
      (inp.conx.rows = C ∧ inp.conx.cols = k ∧ ∀ c < C, ∀ s < k, inp.conx.data c s = cx c s) ∧
      (inp.conxType.rows = C ∧ inp.conxType.cols = k ∧ ∀ c < C, ∀ s < k, inp.conxType.data c s = ty c s) ∧
      inp.cost.size = n ∧ (∀ v < n, inp.cost.data v = w v) ∧
      a.rows = C ∧ a.cols = n ∧ ∀ c < C, ∀ v < n, a.data c v = A c v := by
  obtain ⟨s, b1, b2, b3, b4, b5, b6, b7, b8, b9, b10⟩ := loopUp_inv (n := C) (body := fun i (s : Mat ℕ × Mat ℤ × Mat Num) => do
      let c ← slice f.conx (k * i) (k * (i + 1))
      let conx ← s.1.wrRow i (Arr.ofList c)
      let t ← slice f.conxType (k * i) (k * (i + 1))
      let ty ← s.2.1.wrRow i (Arr.ofList t)
      let m ← slice f.messages (n * i) (n * (i + 1))
      let v2k ← s.2.2.wrRow i (Arr.ofList m)
      some (conx, ty, v2k))
    (s := (Mat.fill C k (0 : ℕ), Mat.fill C k (0 : ℤ), Mat.fill C n (0 : Num)))
    (fun r s => s.1.rows = C ∧ s.1.cols = k ∧ (∀ c < r, ∀ j < k, s.1.data c j = cx c j) ∧ s.2.1.rows = C ∧ s.2.1.cols = k ∧
      (∀ c < r, ∀ j < k, s.2.1.data c j = ty c j) ∧ s.2.2.rows = C ∧ s.2.2.cols = n ∧ ∀ c < r, ∀ v < n, s.2.2.data c v = A c v)
    ⟨rfl, rfl, fun d hd => by omega, rfl, rfl, fun d hd => by omega, rfl, rfl, fun d hd => by omega⟩
    (by
      rintro d hd s ⟨c1, c2, c3, c4, c5, c6, c7, c8, c9⟩
      rw [h4, h5, h7, slice_table hd, slice_table hd, slice_table hd]
      simp only [Option.bind_eq_bind, Option.bind_some]
      rw [Mat.wrRow_of_lt (by omega) (by rw [ofList_size, c2]), Mat.wrRow_of_lt (by omega) (by rw [ofList_size, c5]),
        Mat.wrRow_of_lt (by omega) (by rw [ofList_size, c8])]
      refine ⟨_, rfl, c1, c2, fun e he t ht => ?_, c4, c5, fun e he t ht => ?_, c7, c8, fun e he t ht => ?_⟩
      · show (if e = d then _ else _) = _
        by_cases hh : e = d
        · subst hh; rw [if_pos rfl, ofList_listOf ht]
        · rw [if_neg hh]; exact c3 e (by omega) t ht
      · show (if e = d then _ else _) = _
        by_cases hh : e = d
        · subst hh; rw [if_pos rfl, ofList_listOf ht]
        · rw [if_neg hh]; exact c6 e (by omega) t ht
      · show (if e = d then _ else _) = _
        by_cases hh : e = d
        · subst hh; rw [if_pos rfl, ofList_listOf ht]
        · rw [if_neg hh]; exact c9 e (by omega) t ht)
  have hc := connections_decoded hl hu
  refine ⟨{ numVars := n, numConstraints := C, k := k, flag := flag, alpha := alpha, used := used, conns := conns,
            conx := s.1, conxType := s.2.1, cost := Arr.ofList (listOf n w) }, s.2.2, ?_, rfl, rfl, rfl, rfl, rfl, rfl, rfl, ⟨b2, b3, b4⟩,
    ⟨b5, b6, b7⟩, ofList_size, fun v hv => ofList_listOf hv, b8, b9, b10⟩
  simp only [Option.bind_eq_bind] at b1 hc
  simp only [ksatDecode, h1, h2, h3, h6, slice_all rfl, slice_all listOf_length, slice_all (show (conns.map List.length).length = n by simpa using hl),
    Option.bind_eq_bind, Option.bind_some]
  rw [b1]
  simp only [Option.bind_some]
  rw [hc]
  rfl

end

end Verif.Proofs
