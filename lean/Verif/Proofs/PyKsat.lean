import Verif.Model.PyKsat
import Verif.Proofs.PyNp
import Verif.Proofs.KsatRun

/-! # The pure Python k-SAT solver computes what the C++ solver computes -/

namespace Verif.Proofs
open Verif Num Model Spec

section
variable {C k n : ℕ} {x : ℕ → ℕ → ℚ} {V : Mat Num} {conx : Mat ℕ} {ty : Mat ℤ}

theorem mem_pyOthers {c v : ℕ} {s : ℤ} {u : ℕ} : u ∈ pyOthers conx ty c v s ↔
    ∃ i < conx.cols, ty.data c i = s ∧ conx.data c i ≠ v ∧ conx.data c i = u := by
  simp [pyOthers, and_assoc]

theorem pyOthers_read (hV : V.Is C n x) (ht : ClauseTables C k n conx ty) {c : ℕ} (hc : c < C) (v : ℕ) (s : ℤ) :
    (pyOthers conx ty c v s).mapM (V.rd c) = some (((pyOthers conx ty c v s).map (x c)).map fin) := by
  rw [List.map_map]
  refine mapM_some fun u hu => ?_
  obtain ⟨i, hi, -, -, rfl⟩ := mem_pyOthers.mp hu
  exact hV.rd hc (ht.conx_lt c hc i (by rw [← ht.conx_cols]; exact hi))

/-- The part of the clause that appears unnegated. -/
theorem pySolid_is (hV : V.Is C n x) (ht : ClauseTables C k n conx ty) {c : ℕ} (hc : c < C) (v : ℕ) :
    ∃ w, IsMin {q | q ∈ (pyOthers conx ty c v 1).map (x c)} w ∧ pySolid V conx ty c v 1 = some (-w) ∧
      pySolid V conx ty c v (-1) = some w := by
  by_cases h : (pyOthers conx ty c v 1).length = 0
  · refine ⟨pinf, ?_, by simp [pySolid, h], by simp [pySolid, h]⟩
    rw [List.length_eq_zero_iff.mp h]
    left; simp
  · have hne : (pyOthers conx ty c v 1).map (x c) ≠ [] := by
      intro e; exact h (by simpa using e)
    obtain ⟨q, h1, h2, h3⟩ := npMin_fin hne
    refine ⟨fin q, isMin_fin h3, ?_, ?_⟩ <;>
      simp only [pySolid, h, if_false, pyOthers_read hV ht hc, Option.bind_eq_bind, Option.bind_some, h1, h2] <;> simp

/-- The part of the clause that appears negated. -/
theorem pyDashed_is (hV : V.Is C n x) (ht : ClauseTables C k n conx ty) {c : ℕ} (hc : c < C) (v : ℕ) :
    ∃ w, IsMin {q | q ∈ (pyOthers conx ty c v (-1)).map (fun u => -x c u)} w ∧ pyDashed V conx ty c v 1 = some (-w) ∧
      pyDashed V conx ty c v (-1) = some w := by
  by_cases h : (pyOthers conx ty c v (-1)).length = 0
  · refine ⟨pinf, ?_, by simp [pyDashed, h], by simp [pyDashed, h]⟩
    rw [List.length_eq_zero_iff.mp h]
    left; simp
  · have hne : (pyOthers conx ty c v (-1)).map (fun u => -x c u) ≠ [] := by
      intro e; exact h (by simpa using e)
    obtain ⟨q, h1, h2, h3⟩ := npMin_fin hne
    have e1 : (((pyOthers conx ty c v (-1)).map (x c)).map fin).map (fun y => -y) =
        ((pyOthers conx ty c v (-1)).map (fun u => -x c u)).map fin := by simp [Function.comp_def]
    have e2 : ((((pyOthers conx ty c v (-1)).map (fun u => -x c u)).map fin).map (fun y => -y)) =
        ((pyOthers conx ty c v (-1)).map (x c)).map fin := by simp [Function.comp_def]
    rw [e2] at h2
    refine ⟨fin q, isMin_fin h3, ?_, ?_⟩ <;>
      simp only [pyDashed, h, if_false, pyOthers_read hV ht hc, Option.bind_eq_bind, Option.bind_some, e1, h1, h2] <;> simp

/-- The other literals are the unnegated ones and the negated ones. -/
theorem pyOthers_union (ht : ClauseTables C k n conx ty) {c : ℕ} (hc : c < C) {s : ℕ} (hs : s < k) :
    ({q | q ∈ (pyOthers conx ty c (conx.data c s) 1).map (x c)} ∪
      {q | q ∈ (pyOthers conx ty c (conx.data c s) (-1)).map (fun u => -x c u)} : Set ℚ) =
    others (Finset.range k) (litVal x conx ty c) s := by
  ext q
  simp only [Set.mem_union, Set.mem_ofPred_eq, List.mem_map, mem_pyOthers, others, Finset.mem_range]
  constructor
  · rintro (⟨u, ⟨i, hi, h1, h2, rfl⟩, rfl⟩ | ⟨u, ⟨i, hi, h1, h2, rfl⟩, rfl⟩)
    · exact ⟨i, by rw [← ht.conx_cols]; exact hi, fun e => h2 (by rw [e]), by simp [litVal, h1]⟩
    · exact ⟨i, by rw [← ht.conx_cols]; exact hi, fun e => h2 (by rw [e]), by simp [litVal, h1]⟩
  · rintro ⟨i, hi, hne, rfl⟩
    have h2 : conx.data c i ≠ conx.data c s := fun e => hne (ht.conx_inj c hc i hi s hs e)
    rcases ht.sign c hc i hi with h | h
    · left; exact ⟨_, ⟨i, by rw [ht.conx_cols]; exact hi, h, h2, rfl⟩, by simp [litVal, h]⟩
    · right; exact ⟨_, ⟨i, by rw [ht.conx_cols]; exact hi, h, h2, rfl⟩, by simp [litVal, h]⟩

theorem pyKsatOut_is (hV : V.Is C n x) (ht : ClauseTables C k n conx ty) {c : ℕ} (hc : c < C) {s : ℕ} (hs : s < k)
    {mu : Num} (hmu : IsLitMsg k (litVal x conx ty c) s mu) {out : Mat Num} (hr : out.rows = C) (hcc : out.cols = n) :
    pyKsatOut V conx ty c s out = some ⟨C, n, fun i j => if i = c ∧ j = conx.data c s then mu * fin (ty.data c s : ℚ)
      else out.data i j⟩ := by
  obtain ⟨w1, a1, a2, a3⟩ := pySolid_is hV ht hc (conx.data c s)
  obtain ⟨w2, b1, b2, b3⟩ := pyDashed_is hV ht hc (conx.data c s)
  have hw := a1.union b1
  rw [pyOthers_union ht hc hs] at hw
  have hm := atLeastOne_message (Finset.mem_range.mpr hs) hw
  have hmu' : mu = cmin (-(cmin w1 w2)) (fin 0) := IsMessage.unique hmu hm
  have hlt := ht.conx_lt c hc s hs
  have hval : ∀ w : Num, (w = cmin w1 w2) → (cmin 0 (-w) = cmin (-w) (fin 0) * fin 1) ∧
      (cmax 0 w = cmin (-w) (fin 0) * fin (-1)) := by
    rintro w rfl
    rcases hw with ⟨-, e⟩ | ⟨q, e, -⟩ <;> rw [e]
    · decide
    · simp only [neg_fin, zero_def, cmin_fin, cmax_fin, fin_mul, mul_one, mul_neg]
      refine ⟨by rw [min_comm], ?_⟩
      have := maxNegNeg (-q) 0
      rw [neg_neg, neg_zero] at this
      rw [max_comm, this]
  have h0 : conx.rd c s = some (conx.data c s) :=
    Mat.rd_of_lt (by rw [ht.conx_rows]; exact hc) (by rw [ht.conx_cols]; exact hs)
  have h1 : ty.rd c s = some (ty.data c s) :=
    Mat.rd_of_lt (by rw [ht.ty_rows]; exact hc) (by rw [ht.ty_cols]; exact hs)
  simp only [pyKsatOut, h0, h1, Option.bind_eq_bind, Option.bind_some]
  rcases ht.sign c hc s hs with h | h
  · rw [h, a2, b2]
    simp only [Option.bind_some, if_true, neg_cmin_eq a1 b1]
    rw [Mat.wr_of_lt (by rw [hr]; exact hc) (by rw [hcc]; exact hlt), (hval _ rfl).1, hmu', hr, hcc]
    simp
  · rw [h, a3, b3]
    simp only [Option.bind_some, show ¬ ((-1 : ℤ) = 1) by decide, if_false]
    rw [Mat.wr_of_lt (by rw [hr]; exact hc) (by rw [hcc]; exact hlt), (hval _ rfl).2, hmu', hr, hcc]
    simp

/-- The whole clause update in Python has the closed form of the C++ update. -/
theorem pyKsatUpdate_agree (hV : V.Is C n x) (ht : ClauseTables C k n conx ty) {old : Mat Num} (hr : old.rows = C)
    (hcc : old.cols = n) :
    AgreeMat C n (pyKsatUpdate C n V conx ty) (ksatToVariableUpdate C k V old conx ty) := by
  obtain ⟨q, q1, q2, q3, q4⟩ := ksatToVariableUpdate_lit hV ht hr hcc
  obtain ⟨p, p1, p2, p3, p4⟩ := loopUp_inv (n := C) (body := fun c out => loopUp conx.cols (pyKsatOut V conx ty c) out)
    (s := Mat.fill C n 0) (fun m out => out.rows = C ∧ out.cols = n ∧ ∀ c < C, ∀ j < n, out.data c j =
      if c < m then q.data c j else 0)
    ⟨rfl, rfl, fun _ _ _ _ => by simp [Mat.fill]⟩
    (by
      rintro c hc out ⟨o1, o2, o3⟩
      obtain ⟨r, r1, r2, r3, r4⟩ := loopUp_inv (n := conx.cols) (body := pyKsatOut V conx ty c) (s := out)
        (fun m out => out.rows = C ∧ out.cols = n ∧ ∀ i < C, ∀ j < n, out.data i j =
          if i < c ∨ (i = c ∧ ∃ s < m, conx.data c s = j) then q.data i j else 0)
        ⟨o1, o2, fun i hi j hj => by rw [o3 i hi j hj]; simp⟩
        (by
          rintro s hs o ⟨g1, g2, g3⟩
          have hs' : s < k := by rw [← ht.conx_cols]; exact hs
          obtain ⟨mu, m1, m2⟩ := (q4 c hc).1 s hs'
          refine ⟨_, pyKsatOut_is hV ht hc hs' m1 g1 g2, rfl, rfl, fun i hi j hj => ?_⟩
          simp only
          by_cases h : i = c ∧ j = conx.data c s
          · rw [if_pos h, ← m2, h.1, h.2, if_pos (Or.inr ⟨rfl, s, by omega, rfl⟩)]
          · rw [if_neg h, g3 i hi j hj]
            have : (i < c ∨ (i = c ∧ ∃ s' < s, conx.data c s' = j)) ↔ (i < c ∨ (i = c ∧ ∃ s' < s + 1, conx.data c s' = j)) := by
              constructor
              · rintro (h1 | ⟨h1, s', h2, h3⟩)
                · exact Or.inl h1
                · exact Or.inr ⟨h1, s', by omega, h3⟩
              · rintro (h1 | ⟨h1, s', h2, h3⟩)
                · exact Or.inl h1
                · refine Or.inr ⟨h1, s', ?_, h3⟩
                  have : s' ≠ s := by rintro rfl; exact h ⟨h1, h3.symm⟩
                  omega
            by_cases h' : i < c ∨ (i = c ∧ ∃ s' < s, conx.data c s' = j)
            · rw [if_pos h', if_pos (this.mp h')]
            · rw [if_neg h', if_neg (fun e => h' (this.mpr e))])
      refine ⟨r, r1, r2, r3, fun i hi j hj => ?_⟩
      rw [r4 i hi j hj]
      by_cases h1 : i < c
      · rw [if_pos (Or.inl h1), if_pos (by omega)]
      · by_cases h2 : i = c
        · subst h2
          rw [if_pos (by omega : i < i + 1)]
          by_cases h3 : ∃ s < conx.cols, conx.data i s = j
          · rw [if_pos (Or.inr ⟨rfl, h3⟩)]
          · rw [if_neg (by rintro (h | ⟨-, h⟩); exacts [h1 h, h3 h])]
            refine ((q4 i hi).2 j fun s hs e => h3 ⟨s, by rw [ht.conx_cols]; exact hs, e⟩).symm
        · rw [if_neg (by rintro (h | ⟨h, -⟩); exacts [h1 h, h2 h]), if_neg (by omega)])
  exact ⟨p, q, p1, q1, p2, q2, p3, q3, fun c hc j hj => by rw [p4 c hc j hj, if_pos hc]⟩

theorem pyUsedCosts_eq (used : List ℕ) (cost : Arr Num) : pyUsedCosts n used cost = usedCosts n used cost := rfl

/-- The variable update in Python, on a table of clause messages that is zero outside the clauses. -/
theorem pyVariableUpdate_is {K : Mat Num} (hK : K.Is C n x) {used : List ℕ} (hu : ∀ v ∈ used, v < n)
    {conns : List (List ℕ)} (hlen : conns.length = n) (hcl : ∀ l ∈ conns, ∀ c ∈ l, c < C) {cost : Arr Num} {w : ℕ → ℚ}
    (hw : cost.Is n w) :
    ∃ r, pyVariableUpdate C n K used cost conns = some r ∧ r.Is C n (fun c v =>
      if v ∈ used ∧ c ∈ conns.getD v [] then (∑ i ∈ Finset.range C, x i v) + w v - x c v else 0) := by
  obtain ⟨costs, c1, c2⟩ := usedCosts_is hu hw
  have hs := npSumAxis0_is hK
  have hsum : (⟨n, fun i => (npSumAxis0 K).data i + costs.data i⟩ : Arr Num).Is n
      (fun v => (∑ i ∈ Finset.range C, x i v) + if v ∈ used then w v else 0) :=
    ⟨rfl, fun i hi => by simp only [hs.2 i hi, c2.2 i hi, fin_add]⟩
  set sums : Arr Num := ⟨n, fun i => (npSumAxis0 K).data i + costs.data i⟩ with hsums
  have hadd : npAdd1 (npSumAxis0 K) costs = some sums := by
    rw [npAdd1, if_pos (by rw [hs.1, c2.1]), hs.1]
  obtain ⟨r, h1, h2⟩ := loopList_inv_idx (l := used) (body := fun v (out : Mat Num) => do
      let l ← conns[v]?
      loopList l (fun c out => do
        let s ← sums.rd v
        let x ← K.rd c v
        out.wr c v (s - x)) out) (s := Mat.fill C n 0)
    (fun m r => r.Is C n (fun c v => if v ∈ used.take m ∧ c ∈ conns.getD v [] then
      (∑ i ∈ Finset.range C, x i v) + w v - x c v else 0))
    ⟨rfl, rfl, fun _ _ _ _ => by simp [Mat.fill]; rfl⟩
    (by
      intro m hm r hr
      have hv : used[m] < n := hu _ (List.getElem_mem hm)
      have hvu : used[m] ∈ used := List.getElem_mem hm
      have htk : ∀ u, u ∈ used.take (m + 1) ↔ u ∈ used.take m ∨ u = used[m] := by
        intro u; rw [List.take_succ_eq_append_getElem hm, List.mem_append, List.mem_singleton]
      set v := used[m] with hvdef
      have hv' : v < conns.length := by rw [hlen]; exact hv
      have hgd : conns.getD v [] = conns[v] := by simp [hv']
      simp only [List.getElem?_eq_getElem hv', Option.bind_eq_bind, Option.bind_some]
      obtain ⟨r', p1, p2⟩ := loopList_inv_idx (l := conns[v]) (body := fun c (out : Mat Num) =>
          (sums.rd v).bind fun s => (K.rd c v).bind fun x => out.wr c v (s - x)) (s := r)
        (fun t r' => r'.Is C n (fun c u => if (u ∈ used.take m ∧ c ∈ conns.getD u []) ∨ (u = v ∧ c ∈ conns[v].take t) then
          (∑ i ∈ Finset.range C, x i u) + w u - x c u else 0))
        (hr.congr fun c _ u _ => by simp)
        (by
          intro t ht r' hr'
          have hc : conns[v][t] < C := hcl _ (List.getElem_mem hv') _ (List.getElem_mem ht)
          have hmem : ∀ c', c' ∈ conns[v].take (t + 1) ↔ c' ∈ conns[v].take t ∨ c' = conns[v][t] := by
            intro c'; rw [List.take_succ_eq_append_getElem ht, List.mem_append, List.mem_singleton]
          set c := conns[v][t] with hcdef
          obtain ⟨r'', q1, q2⟩ := hr'.wr hc hv ((∑ i ∈ Finset.range C, x i v) + w v - x c v)
          refine ⟨r'', ?_, q2.congr fun c' _ u _ => ?_⟩
          · rw [hsum.rd hv, Option.bind_some, hK.rd hc hv, Option.bind_some, if_pos hvu, fin_sub]
            exact q1
          · by_cases hcu : c' = c ∧ u = v
            · rw [if_pos hcu, if_pos (Or.inr ⟨hcu.2, (hmem c').mpr (Or.inr hcu.1)⟩), hcu.1, hcu.2]
            · rw [if_neg hcu]
              congr 1
              simp only [hmem, eq_iff_iff]
              constructor
              · rintro (h | ⟨h1, h2⟩)
                · exact Or.inl h
                · exact Or.inr ⟨h1, Or.inl h2⟩
              · rintro (h | ⟨h1, h2 | h2⟩)
                · exact Or.inl h
                · exact Or.inr ⟨h1, h2⟩
                · exact absurd ⟨h2, h1⟩ hcu)
      refine ⟨r', p1, p2.congr fun c _ u _ => ?_⟩
      congr 1
      simp only [htk, List.take_length, eq_iff_iff]
      constructor
      · rintro (⟨h1, h2⟩ | ⟨h1, h2⟩)
        · exact ⟨Or.inl h1, h2⟩
        · exact ⟨Or.inr h1, by rw [h1, hgd]; exact h2⟩
      · rintro ⟨h1 | h1, h2⟩
        · exact Or.inl ⟨h1, h2⟩
        · exact Or.inr ⟨h1, by rw [h1, hgd] at h2; exact h2⟩)
  refine ⟨r, ?_, h2.congr fun c _ u _ => by rw [List.take_length]⟩
  simp only [pyVariableUpdate, pyUsedCosts_eq, c1, hadd, Option.bind_eq_bind, Option.bind_some]
  simp only [Option.bind_eq_bind] at h1
  exact h1

theorem conns_lt {used : List ℕ} {conns : List (List ℕ)} (hco : ConnectionsOk C k n conx used conns) :
    ∀ l ∈ conns, ∀ c ∈ l, c < C := by
  intro l hl c hc
  obtain ⟨v, hv, rfl⟩ := List.mem_iff_getElem.mp hl
  have hv' : v < n := by rw [← hco.length]; exact hv
  exact Finset.mem_range.mp (Finset.mem_filter.mp ((hco.mem v hv' c).mp (by simpa [hv] using hc))).1

/-- With the variable lists of the formula and no messages outside the clauses, both variable updates agree. -/
theorem pyVariableUpdate_agree {K : Mat Num} (hK : K.Is C n x) {used : List ℕ}
    {conns : List (List ℕ)} (hco : ConnectionsOk C k n conx used conns) {cost : Arr Num} {w : ℕ → ℚ} (hw : cost.Is n w)
    (hz : ∀ c < C, ∀ v < n, v ∉ clauseVars k (conx.data c) → x c v = 0) {V : Mat Num} (hr : V.rows = C) (hc : V.cols = n) :
    ∃ g p q, pyVariableUpdate C n K used cost conns = some p ∧ variableToKsat n K V used cost conns = some q ∧
      p.Is C n g ∧ q.Is C n g := by
  have hcl := conns_lt hco
  obtain ⟨p, p1, p2⟩ := pyVariableUpdate_is hK hco.used_lt hco.length hcl hw
  obtain ⟨q, q1, q2⟩ := variableToKsat_is hK hr hc hco.used_lt hco.length hcl hw
  refine ⟨_, p, q, p1, q1, p2, q2.congr fun c hc v hv => ?_⟩
  have hv' : v < conns.length := by rw [hco.length]; exact hv
  have hnd : (conns.getD v []).Nodup := hco.nodup _ (by simp [hv'])
  have hset : (conns.getD v []).toFinset = occurrences C k conx v := by
    ext c'; rw [List.mem_toFinset, hco.mem v hv]
  have : ((conns.getD v []).map fun c => x c v).sum = ∑ i ∈ Finset.range C, x i v := by
    rw [← List.sum_toFinset _ hnd, hset, occurrences, Finset.sum_filter]
    refine Finset.sum_congr rfl fun i hi => ?_
    by_cases h : v ∈ clauseVars k (conx.data i)
    · rw [if_pos h]
    · rw [if_neg h, hz i (Finset.mem_range.mp hi) v hv h]
  rw [this]

end

section run
variable {inp : KsatInputs} {w : ℕ → ℚ}

/-- The states of the two programs at the start of iteration `j` hold the same messages. -/
structure KsatSame (inp : KsatInputs) (j : ℕ) (s : KsatState) (p : PyKsatState) : Prop where
  inv : KsatInv inp j s
  v2k : p.v2k.Is inp.numConstraints inp.numVars s.v2k.val
  old : j ≠ 0 → inp.flag = true → ∃ o, p.old = some o ∧ o.Is inp.numConstraints inp.numVars s.k2v.val
  off : ∀ c < inp.numConstraints, ∀ v < inp.numVars, v ∉ clauseVars inp.k (inp.conx.data c) → s.k2v.val c v = 0
  extr : p.extr.Is inp.numVars (fun v => ∑ c ∈ Finset.range inp.numConstraints, s.k2v.val c v)

theorem pyKsatIter_same (ht : ClauseTables inp.numConstraints inp.k inp.numVars inp.conx inp.conxType)
    (hco : ConnectionsOk inp.numConstraints inp.k inp.numVars inp.conx inp.used inp.conns) (hw : inp.cost.Is inp.numVars w)
    (hk : 2 ≤ inp.k) (hfa : inp.flag = true → inp.alpha ≠ 0) {j : ℕ} {s : KsatState} {p : PyKsatState} (h : KsatSame inp j s p) :
    ∃ s' p', ksatIter inp j s = some s' ∧ pyKsatIter inp j p = some p' ∧ KsatSame inp (j + 1) s' p' := by
  obtain ⟨d, d1, d2, d3⟩ := ksatToVariableUpdate_fin h.inv.v2k ht h.inv.dummy_rows h.inv.dummy_cols hk
  obtain ⟨d', e', a1, a2, b1, -, b3, -, b5⟩ := pyKsatUpdate_agree h.v2k ht (old := s.dummy) h.inv.dummy_rows h.inv.dummy_cols
  -- the two clause updates read equal tables
  obtain ⟨mP, mP1, mP2, mP3, mP4⟩ := ksatToVariableUpdate_lit h.v2k ht (old := s.dummy) h.inv.dummy_rows h.inv.dummy_cols
  obtain ⟨mC, mC1, mC2, mC3, mC4⟩ := ksatToVariableUpdate_lit h.inv.v2k ht (old := s.dummy) h.inv.dummy_rows h.inv.dummy_cols
  rw [a2] at mP1; rw [d1] at mC1
  obtain rfl := Option.some.inj mP1
  obtain rfl := Option.some.inj mC1
  have hdd : d'.Is inp.numConstraints inp.numVars d.val := by
    refine ⟨b1, b3, fun c hc v hv => ?_⟩
    rw [b5 c hc v hv, ← d2.2.2 c hc v hv]
    by_cases hm : ∃ t < inp.k, inp.conx.data c t = v
    · obtain ⟨t, ht', rfl⟩ := hm
      obtain ⟨mu, m1, m2⟩ := (mP4 c hc).1 t ht'
      obtain ⟨mu', m1', m2'⟩ := (mC4 c hc).1 t ht'
      rw [m2, m2', IsMessage.unique m1 m1']
    · rw [(mP4 c hc).2 v (fun t ht' e => hm ⟨t, ht', e⟩), (mC4 c hc).2 v (fun t ht' e => hm ⟨t, ht', e⟩)]
  obtain ⟨⟨u, o⟩, f1, f2, f3, f4, f5⟩ := processFiltering_step (flag := inp.flag) (alpha := inp.alpha) (k := j)
    (s := (s.k2v, s.old)) d2 h.inv.k2v.1 h.inv.k2v.2.1 (by rw [h.inv.old_rows]) h.inv.old_cols (p := s.k2v.val)
    (fun a b c hc v hv => h.inv.mem a b c hc v hv)
  simp only at f2 f3 f4 f5
  obtain ⟨u', o', g1, g2, g3⟩ := pyFilter_is (k := j) (old := p.old) (p := s.k2v.val) hfa hdd h.old
  have hz : ∀ c < inp.numConstraints, ∀ v < inp.numVars, v ∉ clauseVars inp.k (inp.conx.data c) →
      dampStep inp.flag inp.alpha j (d.val c v) (s.k2v.val c v) = 0 := by
    intro c hc v hv hn
    rw [(d3 c hc).2 v hv hn, h.off c hc v hv hn]
    simp [dampStep]
  obtain ⟨g, V', V, v1, v2, v3, v4⟩ := pyVariableUpdate_agree (V := s.v2k) g2 hco hw hz h.inv.v2k.1 h.inv.v2k.2.1
  obtain ⟨g', W', W, w1, w2, w3, w4⟩ := pyVariableUpdate_agree (V := s.v2k) f2 hco hw hz h.inv.v2k.1 h.inv.v2k.2.1
  -- both variable updates read equal tables
  have hVW : V'.Is inp.numConstraints inp.numVars W.val := by
    obtain ⟨r, r1, r2⟩ := pyVariableUpdate_is g2 hco.used_lt hco.length (conns_lt hco) hw
    obtain ⟨r', r1', r2'⟩ := pyVariableUpdate_is f2 hco.used_lt hco.length (conns_lt hco) hw
    rw [v1] at r1; rw [w1] at r1'
    obtain rfl := Option.some.inj r1
    obtain rfl := Option.some.inj r1'
    refine r2.congr fun c hc v hv => ?_
    rw [w4.val hc hv, ← w3.val hc hv, r2'.val hc hv]
  refine ⟨⟨W, d, u, o⟩, ⟨V', o', npSumAxis0 u'⟩, ?_, ?_,
    ⟨⟨w4.self, f2.self, d2.1, d2.2.1, by rw [f3, h.inv.old_rows], f4, ?_⟩, hVW, ?_, ?_, ?_⟩⟩
  · simp only [ksatIter, d1, f1, w2, Option.bind_eq_bind, Option.bind_some]
  · simp only [pyKsatIter, a1, g1, v1, Option.bind_eq_bind, Option.bind_some]
  · intro _ hf c hc v hv
    rw [f5 hf c hc v hv]
    exact f2.self.2.2 c hc v hv
  · intro _ hf
    obtain ⟨o'', h1, h2⟩ := g3 hf
    exact ⟨o'', h1, h2.congr fun c hc v hv => (f2.val hc hv).symm⟩
  · intro c hc v hv hn
    show u.val c v = 0
    rw [f2.val hc hv, hz c hc v hv hn]
  · refine (npSumAxis0_is g2).congr fun v hv => Finset.sum_congr rfl fun c hc => ?_
    exact (f2.val (Finset.mem_range.mp hc) hv).symm

/-- The two programs return the same outputs after any number of iterations. -/
theorem pyKsatSolve_agree (ht : ClauseTables inp.numConstraints inp.k inp.numVars inp.conx inp.conxType)
    (hco : ConnectionsOk inp.numConstraints inp.k inp.numVars inp.conx inp.used inp.conns) (hw : inp.cost.Is inp.numVars w)
    (hk : 2 ≤ inp.k) (hfa : inp.flag = true → inp.alpha ≠ 0) {V : Mat Num} {x0 : ℕ → ℕ → ℚ}
    (hV : V.Is inp.numConstraints inp.numVars x0) (K : ℕ) :
    AgreeArr inp.numVars (pyKsatSolve inp V K) (ksatSolve inp V K) := by
  have key : ∀ K, ∃ s p, loopUp K (ksatIter inp) (ksatInit inp V) = some s ∧
      loopUp K (pyKsatIter inp) ⟨V, none, Arr.fill inp.numVars 0⟩ = some p ∧ KsatSame inp K s p := by
    intro K
    induction K with
    | zero =>
      refine ⟨_, _, rfl, rfl, ⟨hV.self, ⟨rfl, rfl, fun _ _ _ _ => rfl⟩, rfl, rfl, rfl, rfl, fun h => absurd rfl h⟩,
        hV.self, fun h => absurd rfl h, fun _ _ _ _ _ => rfl, ⟨rfl, fun v _ => ?_⟩⟩
      have : ∀ c, (ksatInit inp V).k2v.val c v = 0 := fun _ => rfl
      simp only [this, Finset.sum_const_zero]
      rfl
    | succ K ih =>
      obtain ⟨s, p, h1, h2, h3⟩ := ih
      obtain ⟨s', p', i1, i2, i3⟩ := pyKsatIter_same ht hco hw hk hfa h3
      exact ⟨s', p', by simp [loopUp, h1, i1], by simp [loopUp, h2, i2], i3⟩
  obtain ⟨s, p, h1, h2, h3⟩ := key K
  obtain ⟨out, o1, o2⟩ := ksatExtrinsic_is h3.inv.k2v (Arr.fill_is inp.numVars 0)
  refine ⟨p.extr, out, ?_, ?_, h3.extr.1, o2.1, fun v hv => ?_⟩
  · simp only [pyKsatSolve, h2, Option.bind_eq_bind, Option.bind_some]
  · simp only [ksatSolve, ksatIterate, h1, Option.bind_eq_bind, Option.bind_some]
    rw [show (Arr.fill inp.numVars (0 : Num)) = Arr.fill inp.numVars (fin 0) from rfl, o1]
    rfl
  · rw [h3.extr.2 v hv, o2.2 v hv]; simp only [zero_add]

end run

end Verif.Proofs
