import Verif.Proofs.KsatIO
import Verif.Properties.KsatRun

/-! # C24: flat input and output arrays of the k-SAT solver -/

namespace Verif.Properties
open Verif Num Spec Model

section
variable {n C k : ℕ} {used : List ℕ} {conns : List (List ℕ)} {cx : ℕ → ℕ → ℕ} {ty : ℕ → ℕ → ℤ}

/-- The attributes of the Python object for the formula with clause entries `cx c s`, signs `ty c s` and variable costs `w v`
(any numbers), with the given list of used variables and lists of clauses per variable. -/
def pythonFormula (n C k : ℕ) (used : List ℕ) (conns : List (List ℕ)) (cx : ℕ → ℕ → ℕ) (ty : ℕ → ℕ → ℤ) (w : ℕ → Num) : KsatPy where
  numVars := n
  numConstraints := C
  k := k
  used := used
  conns := conns
  conx := table C k cx
  conxType := table C k ty
  cost := listOf n w

/-- C24.  If the clauses use variables below `n` and every variable with clauses is in the list of used variables, then the
caller succeeds and the native side rebuilds everything: the used variables, the clause lists of all variables, the clauses,
their signs and the variable costs; the initial message of a variable to a clause is its cost if it occurs there and zero
otherwise. -/
theorem C24_decoded {w : ℕ → Num} (flag : Bool) (alpha : ℚ) (hv : ∀ c < C, ∀ s < k, cx c s < n) (hl : conns.length = n)
    (hu : ∀ v < n, conns.getD v [] ≠ [] → v ∈ used) :
    ∃ f inp a, ksatFlatten (pythonFormula n C k used conns cx ty w) = some f ∧
      ksatDecode n C used.length k flag alpha f = some (inp, a) ∧
      inp.numVars = n ∧ inp.numConstraints = C ∧ inp.k = k ∧ inp.flag = flag ∧ inp.alpha = alpha ∧ inp.used = used ∧ inp.conns = conns ∧
      (inp.conx.rows = C ∧ inp.conx.cols = k ∧ ∀ c < C, ∀ s < k, inp.conx.data c s = cx c s) ∧
      (inp.conxType.rows = C ∧ inp.conxType.cols = k ∧ ∀ c < C, ∀ s < k, inp.conxType.data c s = ty c s) ∧
      inp.cost.size = n ∧ (∀ v < n, inp.cost.data v = w v) ∧
      a.rows = C ∧ a.cols = n ∧ ∀ c < C, ∀ v < n, a.data c v = if ∃ s < k, cx c s = v then w v else 0 := by
  obtain ⟨f, h0, h1, h2, h3, h4, h5, h6, h7⟩ := Proofs.ksatFlatten_spec (used := used) (conns := conns) (ty := ty) (w := w) hv
  obtain ⟨inp, a, hd⟩ := Proofs.ksatDecode_spec (flag := flag) (alpha := alpha) h1 h2 h3 h4 h5 h6 h7 hl
    (fun v hv hn => by by_contra h; exact hn (hu v hv h))
  exact ⟨f, inp, a, h0, hd⟩

/-- C24, the condition on the used variables is needed: if decoding succeeds and gives the caller's lists, then every
variable with clauses is in the list of used variables. -/
theorem C24_used_needed {w : ℕ → Num} {flag : Bool} {alpha : ℚ} {f : KsatFlat} {inp : KsatInputs} {a : Mat Num}
    (hf : ksatFlatten (pythonFormula n C k used conns cx ty w) = some f)
    (hd : ksatDecode n C used.length k flag alpha f = some (inp, a)) (hc : inp.conns = conns) :
    ∀ v < n, conns.getD v [] ≠ [] → v ∈ used := by
  have hfu : f.used = used := by
    obtain ⟨m, -, hf⟩ := Option.bind_eq_some_iff.mp hf
    obtain ⟨c, -, hf⟩ := Option.bind_eq_some_iff.mp hf
    obtain ⟨t, -, hf⟩ := Option.bind_eq_some_iff.mp hf
    cases hf; rfl
  intro v hv hne
  by_contra hn
  obtain ⟨u, h1, hd⟩ := Option.bind_eq_some_iff.mp hd
  obtain ⟨c, -, hd⟩ := Option.bind_eq_some_iff.mp hd
  obtain ⟨sz, -, hd⟩ := Option.bind_eq_some_iff.mp hd
  obtain ⟨⟨m1, m2, m3⟩, -, hd⟩ := Option.bind_eq_some_iff.mp hd
  obtain ⟨⟨l, o⟩, hl, hlast⟩ := Option.bind_eq_some_iff.mp hd
  have hu : u = used := by rw [hfu, Proofs.slice_all rfl] at h1; exact (Option.some.inj h1).symm
  subst hu
  have hlast := Option.some.inj hlast
  have e : inp.conns = l := by rw [← (Prod.mk.inj hlast).1]
  have := (Proofs.connections_unused hl).2 v hv hn
  rw [← e, hc] at this
  exact hne this

/-- C24, whole call: the beliefs that Python stores are, for each variable, the sum of its messages of the last iteration of
the min-sum algorithm on the same formula (as in C13), plus its cost if it is used. -/
theorem C24_call {w : ℕ → ℚ} (flag : Bool) (alpha : ℚ) (hk : 2 ≤ k) (hv : ∀ c < C, ∀ s < k, cx c s < n)
    (hdist : ∀ c < C, ∀ s < k, ∀ s' < k, cx c s = cx c s' → s = s') (hty : ∀ c < C, ∀ s < k, ty c s = 1 ∨ ty c s = -1)
    (hco : ConnectionsOk C k n ⟨C, k, cx⟩ used conns) {x r : ℕ → ℕ → ℕ → ℚ}
    (ht : IsKsatTrace C k n ⟨C, k, cx⟩ ⟨C, k, ty⟩ w flag alpha (fun c v => if ∃ s < k, cx c s = v then w v else 0) x r) (K : ℕ) :
    ksatBeliefs (K + 1) flag alpha (pythonFormula n C k used conns cx ty (fun v => fin (w v))) =
      some (listOf n (fun v => fin ((∑ c ∈ occurrences C k ⟨C, k, cx⟩ v, damped flag alpha (fun i => r i c v) K) +
        if v ∈ used then w v else 0))) := by
  have hocc : ∀ v < n, conns.getD v [] ≠ [] → v ∈ used := by
    intro v hv' hne
    obtain ⟨c, hc⟩ := List.exists_mem_of_ne_nil _ hne
    have := (hco.mem v hv' c).mp hc
    simp only [occurrences, Finset.mem_filter, Finset.mem_range] at this
    exact hco.used_mem c this.1 v this.2
  obtain ⟨f, inp, A, h0, h1, g1, g2, g3, g4, g5, g6, g7, g8, g9, g10, g11, g12, g13, g14⟩ :=
    C24_decoded (cx := cx) (ty := ty) (w := fun v => fin (w v)) flag alpha hv hco.length hocc
  have hcv : ∀ c < C, clauseVars k (inp.conx.data c) = clauseVars k (cx c) := by
    intro c hc
    exact Finset.image_congr fun s hs => g8.2.2 c hc s (Finset.mem_range.mp hs)
  have hoccE : ∀ v, occurrences C k inp.conx v = occurrences C k ⟨C, k, cx⟩ v := by
    intro v
    refine Finset.filter_congr fun c hc => ?_
    rw [hcv c (Finset.mem_range.mp hc)]
  have htab : ClauseTables inp.numConstraints inp.k inp.numVars inp.conx inp.conxType := by
    rw [g1, g2, g3]
    refine ⟨g8.1, g8.2.1, g9.1, g9.2.1, fun c hc s hs => ?_, fun c hc s hs s' hs' e => ?_, fun c hc s hs => ?_⟩
    · rw [g8.2.2 c hc s hs]; exact hv c hc s hs
    · rw [g8.2.2 c hc s hs, g8.2.2 c hc s' hs'] at e; exact hdist c hc s hs s' hs' e
    · rw [g9.2.2 c hc s hs]; exact hty c hc s hs
  have hcon : ConnectionsOk inp.numConstraints inp.k inp.numVars inp.conx inp.used inp.conns := by
    rw [g1, g2, g3, g6, g7]
    exact ⟨hco.used_lt, fun c hc v hvm => hco.used_mem c hc v (by rw [hcv c hc] at hvm; exact hvm), hco.length, hco.nodup,
      fun v hv' c => by rw [hoccE]; exact hco.mem v hv' c⟩
  have hw : inp.cost.Is inp.numVars w := ⟨by omega, fun v hv' => g11 v (by omega)⟩
  have hA : A.Is inp.numConstraints inp.numVars (fun c v => if ∃ s < k, cx c s = v then w v else 0) := by
    refine ⟨by omega, by omega, fun c hc v hv' => ?_⟩
    rw [g14 c (by omega) v (by omega)]
    show _ = fin (if ∃ s < k, cx c s = v then w v else 0)
    by_cases h : ∃ s < k, cx c s = v
    · rw [if_pos h, if_pos h]
    · rw [if_neg h, if_neg h]; rfl
  have htr : IsKsatTrace inp.numConstraints inp.k inp.numVars inp.conx inp.conxType w inp.flag inp.alpha
      (fun c v => if ∃ s < k, cx c s = v then w v else 0) x r := by
    rw [g1, g2, g3, g4, g5]
    refine ⟨ht.init, fun j c hc v hvm => ?_, fun j c hc v hvm => ?_⟩
    · rw [hcv c hc] at hvm ⊢
      have := ht.clause j c hc v hvm
      have e : ClauseSat k (inp.conx.data c) (inp.conxType.data c) = ClauseSat k (cx c) (ty c) := by
        funext S
        refine propext ⟨?_, ?_⟩ <;> rintro ⟨i, hi, h⟩ <;> refine ⟨i, hi, ?_⟩ <;>
          simpa only [g8.2.2 c hc i hi, g9.2.2 c hc i hi] using h
      rw [e]; exact this
    · rw [hcv c hc] at hvm
      rw [hoccE]; exact ht.var j c hc v hvm
  obtain ⟨out, o1, o2⟩ := (C13_ksat_run htab hcon hw (by omega) hA).2 x r htr K
  rw [g1, g2, g3, g4, g5] at o2
  have e1 : out.toList = listOf n (fun v => fin (∑ c ∈ occurrences C k ⟨C, k, cx⟩ v, damped flag alpha (fun i => r i c v) K)) := by
    rw [Arr.toList, o2.1]
    refine List.map_congr_left fun v hv' => ?_
    rw [o2.2 v (List.mem_range.mp hv')]
    show fin (∑ c ∈ occurrences C k inp.conx v, _) = _
    rw [hoccE]
  obtain ⟨u, u1, u2, u3⟩ := loopList_inv_idx (l := used) (body := fun v (u : Arr Num) => do
      let c ← (listOf n (fun v => fin (w v)))[v]?
      u.wr v c) (s := Arr.fill n 0)
    (fun i u => u.size = n ∧ ∀ v, u.data v = if v ∈ used.take i then fin (w v) else 0) ⟨rfl, fun v => by simp [Arr.fill]⟩
    (by
      rintro i hi u ⟨b1, b2⟩
      have hlt := hco.used_lt _ (List.getElem_mem hi)
      rw [Proofs.listOf_getElem? hlt]
      simp only [Option.bind_eq_bind, Option.bind_some]
      rw [Arr.wr_of_lt (by omega)]
      refine ⟨_, rfl, b1, fun v => ?_⟩
      show (if v = used[i] then _ else _) = _
      have hm : v ∈ used.take (i + 1) ↔ v ∈ used.take i ∨ v = used[i] := by
        rw [List.take_succ_eq_append_getElem hi, List.mem_append, List.mem_singleton]
      by_cases e : v = used[i]
      · rw [if_pos e, if_pos (hm.mpr (Or.inr e)), e]
      · rw [if_neg e, b2 v]
        simp only [hm, e, or_false])
  rw [List.take_length] at u3
  have e2 : ksatWrapper (K + 1) n C used.length k flag alpha f (List.replicate n 0) = some out.toList := by
    simp only [ksatWrapper, h1, o1, Option.bind_eq_bind, Option.bind_some]
    rw [Proofs.slice_all (by rw [e1, Proofs.listOf_length])]
    simp only [Option.bind_some]
    rw [if_pos (by rw [e1, Proofs.listOf_length, List.length_replicate]),
      List.drop_eq_nil_of_le (by rw [e1, Proofs.listOf_length, List.length_replicate]), List.append_nil]
  have e3 : (pythonFormula n C k used conns cx ty (fun v => fin (w v))).used = used := rfl
  have e4 : (pythonFormula n C k used conns cx ty (fun v => fin (w v))).cost = listOf n (fun v => fin (w v)) := rfl
  have e5 : (pythonFormula n C k used conns cx ty (fun v => fin (w v))).numVars = n := rfl
  have e6 : (pythonFormula n C k used conns cx ty (fun v => fin (w v))).numConstraints = C := rfl
  have e7 : (pythonFormula n C k used conns cx ty (fun v => fin (w v))).k = k := rfl
  simp only [Option.bind_eq_bind] at u1
  simp only [ksatBeliefs, h0, e3, e4, e5, e6, e7, e2, u1, Option.bind_eq_bind, Option.bind_some]
  rw [if_pos (by rw [e1, Proofs.listOf_length, u2]), e1]
  congr 1
  refine List.ext_getElem (by simp [listOf, Arr.toList, u2]) fun v h1 h2 => ?_
  simp only [listOf, Arr.toList, List.getElem_zipWith, List.getElem_map, List.getElem_range, u3]
  by_cases hm : v ∈ used
  · rw [if_pos hm, if_pos hm]; rfl
  · rw [if_neg hm, if_neg hm]; rfl

end

/-- Four variables, `(a ∨ d) ∧ (¬d ∨ b)`; variable `c` is not used. -/
def c24Py : KsatPy where
  numVars := 4
  numConstraints := 2
  k := 2
  used := [3, 0, 1]
  conns := [[0], [1], [], [0, 1]]
  conx := [[0, 3], [3, 1]]
  conxType := [[1, 1], [-1, 1]]
  cost := [fin 1, fin 2, fin 3, fin 4]

/-- What is passed and rebuilt, and the beliefs after two iterations.  The unused variable has belief zero. -/
example : c24Py = pythonFormula 4 2 2 [3, 0, 1] [[0], [1], [], [0, 1]] (fun c s => ([[0, 3], [3, 1]].getD c []).getD s 0)
      (fun c s => ([[1, 1], [-1, 1]].getD c []).getD s 0) (fun v => fin (v + 1)) ∧
    (ksatFlatten c24Py).map (fun f => (f.conns, f.sizes, f.conx)) = some ([0, 1, 0, 1], [1, 1, 0, 2], [0, 3, 3, 1]) ∧
    ((ksatFlatten c24Py).bind (ksatDecode 4 2 3 2 false 0)).map (fun r => (r.1.conns, flattenMat r.1.conx)) =
      some ([[0], [1], [], [0, 1]], [0, 3, 3, 1]) ∧
    ksatBeliefs 2 false 0 c24Py = some [fin (-5), fin 2, fin 0, fin 5] := by
  refine ⟨?_, by decide +kernel, by decide +kernel, by decide +kernel⟩
  unfold c24Py pythonFormula
  congr 1 <;> decide +kernel

/-- Without variable 1 in the list of used variables its clauses are given to variable 3. -/
example : ((ksatFlatten { c24Py with used := [3, 0] }).bind (ksatDecode 4 2 2 2 false 0)).map (fun r => r.1.conns) =
    some [[0], [], [], [1, 0]] := by decide +kernel

end Verif.Properties
