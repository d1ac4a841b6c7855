import Verif.Model.KsatRun
import Verif.Spec.KsatRun
import Verif.Proofs.Runs
import Verif.Proofs.KsatConstraint
import Verif.Proofs.Equality

/-! # Whole runs of the k-SAT solver -/

namespace Verif.Proofs
open Verif Num Spec Model

/-- Clause messages of one update, in terms of variables; all finite when clauses have at least two literals. -/
theorem ksatToVariableUpdate_fin {C k n : ℕ} {x : ℕ → ℕ → ℚ} {V old : Mat Num} {conx : Mat ℕ} {ty : Mat ℤ}
    (hV : V.Is C n x) (ht : ClauseTables C k n conx ty) (hr : old.rows = C) (hc : old.cols = n) (hk : 2 ≤ k) :
    ∃ out, ksatToVariableUpdate C k V old conx ty = some out ∧ out.Is C n out.val ∧
      ∀ c < C, (∀ v ∈ clauseVars k (conx.data c), IsMessage (clauseVars k (conx.data c))
          (ClauseSat k (conx.data c) (ty.data c)) (x c) v (fin (out.val c v))) ∧
        ∀ v < n, v ∉ clauseVars k (conx.data c) → out.val c v = 0 := by
  obtain ⟨out, h1, h2, h3, h4⟩ := ksatToVariableUpdate_lit hV ht hr hc
  have hmsg : ∀ c < C, ∀ v ∈ clauseVars k (conx.data c), (∃ q, out.data c v = fin q) ∧
      IsMessage (clauseVars k (conx.data c)) (ClauseSat k (conx.data c) (ty.data c)) (x c) v (out.data c v) := by
    intro c hc v hv
    obtain ⟨s, hs, rfl⟩ := Finset.mem_image.mp hv
    rw [Finset.mem_range] at hs
    obtain ⟨mu, hmu, he⟩ := (h4 c hc).1 s hs
    constructor
    · obtain ⟨q, hq, rfl⟩ := hmu.closed hs hk
      exact ⟨_, by rw [he, fin_mul]⟩
    · obtain ⟨a, b, ha, hb, rfl⟩ := hmu
      rw [he]
      exact clause_lift (ht.conx_inj c hc) (ht.sign c hc) (fun j _ => rfl) hs ha hb
  have hoff : ∀ c < C, ∀ v < n, v ∉ clauseVars k (conx.data c) → out.data c v = fin 0 := by
    intro c hc v _ hv
    refine (h4 c hc).2 v ?_
    intro s hs e
    exact hv (Finset.mem_image.mpr ⟨s, Finset.mem_range.mpr hs, e⟩)
  have hfin : out.Is C n out.val := Mat.isFin h2 h3 fun c hc v hv => by
    by_cases h : v ∈ clauseVars k (conx.data c)
    · exact (hmsg c hc v h).1
    · exact ⟨0, hoff c hc v hv h⟩
  refine ⟨out, h1, hfin, fun c hc => ⟨fun v hv => ?_, fun v hv hn => ?_⟩⟩
  · obtain ⟨q, hq⟩ := (hmsg c hc v hv).1
    have := (hmsg c hc v hv).2
    rw [hq] at this
    rw [Mat.val, hq]; exact this
  · rw [Mat.val, hoff c hc v hv hn]; rfl

section run
variable {inp : KsatInputs} {w : ℕ → ℚ}

/-- What holds at the start of iteration `j`. -/
structure KsatInv (inp : KsatInputs) (j : ℕ) (st : KsatState) : Prop where
  v2k : st.v2k.Is inp.numConstraints inp.numVars st.v2k.val
  k2v : st.k2v.Is inp.numConstraints inp.numVars st.k2v.val
  dummy_rows : st.dummy.rows = inp.numConstraints
  dummy_cols : st.dummy.cols = inp.numVars
  old_rows : st.old.rows = inp.numConstraints
  old_cols : st.old.cols = inp.numVars
  mem : j ≠ 0 → inp.flag = true ∧ inp.alpha ≠ 0 → ∀ c < inp.numConstraints, ∀ v < inp.numVars,
    st.old.data c v = fin (st.k2v.val c v)

/-- What one iteration does. -/
structure KsatStep (inp : KsatInputs) (w : ℕ → ℚ) (j : ℕ) (s s' : KsatState) : Prop where
  raw : ∀ c < inp.numConstraints, ∀ v ∈ clauseVars inp.k (inp.conx.data c),
    IsMessage (clauseVars inp.k (inp.conx.data c)) (ClauseSat inp.k (inp.conx.data c) (inp.conxType.data c)) (s.v2k.val c) v
      (fin (s'.dummy.val c v))
  off : ∀ c < inp.numConstraints, ∀ v < inp.numVars, v ∉ clauseVars inp.k (inp.conx.data c) → s'.dummy.val c v = 0
  damp : ∀ c < inp.numConstraints, ∀ v < inp.numVars,
    s'.k2v.val c v = dampStep inp.flag inp.alpha j (s'.dummy.val c v) (s.k2v.val c v)
  out : ∀ c < inp.numConstraints, ∀ v ∈ clauseVars inp.k (inp.conx.data c),
    s'.v2k.val c v = w v + ∑ c' ∈ (occurrences inp.numConstraints inp.k inp.conx v).erase c, s'.k2v.val c' v

theorem ksatIter_step (ht : ClauseTables inp.numConstraints inp.k inp.numVars inp.conx inp.conxType)
    (hco : ConnectionsOk inp.numConstraints inp.k inp.numVars inp.conx inp.used inp.conns) (hw : inp.cost.Is inp.numVars w)
    (hk : 2 ≤ inp.k) {j : ℕ} {s : KsatState} (h : KsatInv inp j s) :
    ∃ s', ksatIter inp j s = some s' ∧ KsatInv inp (j + 1) s' ∧ KsatStep inp w j s s' := by
  obtain ⟨d, d1, d2, d3⟩ := ksatToVariableUpdate_fin h.v2k ht h.dummy_rows h.dummy_cols hk
  obtain ⟨⟨u, o⟩, f1, f2, f3, f4, f5⟩ := processFiltering_step (flag := inp.flag) (alpha := inp.alpha) (k := j)
    (s := (s.k2v, s.old)) d2 h.k2v.1 h.k2v.2.1 (by rw [h.old_rows]) h.old_cols (p := s.k2v.val) (fun a b c hc v hv => h.mem a b c hc v hv)
  simp only at f2 f3 f4 f5
  have hgd : ∀ l ∈ inp.conns, ∃ v < inp.numVars, inp.conns.getD v [] = l := by
    intro l hl
    obtain ⟨v, hv, rfl⟩ := List.mem_iff_getElem.mp hl
    exact ⟨v, by rw [← hco.length]; exact hv, by simp [hv]⟩
  obtain ⟨V, v1, v2⟩ := variableToKsat_is f2 h.v2k.1 h.v2k.2.1 hco.used_lt hco.length (by
    intro l hl c hc
    obtain ⟨v, hv, rfl⟩ := hgd l hl
    exact Finset.mem_range.mp (Finset.mem_filter.mp ((hco.mem v hv c).mp hc)).1) hw
  refine ⟨⟨V, d, u, o⟩, ?_, ⟨v2.self, f2.self, d2.1, d2.2.1, by rw [f3, h.old_rows], f4, ?_⟩, ⟨?_, ?_, ?_, ?_⟩⟩
  · simp only [ksatIter, d1, f1, v1, Option.bind_eq_bind, Option.bind_some]
  · intro _ hf c hc v hv
    rw [f5 hf c hc v hv]
    exact f2.self.2.2 c hc v hv
  · intro c hc v hv; exact (d3 c hc).1 v hv
  · intro c hc v hv hn; exact (d3 c hc).2 v hv hn
  · intro c hc v hv; exact f2.val hc hv
  · intro c hc v hv
    have hvn : v < inp.numVars := hco.used_lt v (hco.used_mem c hc v hv)
    have hocc : c ∈ occurrences inp.numConstraints inp.k inp.conx v := by
      simp only [occurrences, Finset.mem_filter, Finset.mem_range]; exact ⟨hc, hv⟩
    have hcm : c ∈ inp.conns.getD v [] := (hco.mem v hvn c).mpr hocc
    have hnd : (inp.conns.getD v []).Nodup := by
      have hv' : v < inp.conns.length := by rw [hco.length]; exact hvn
      refine hco.nodup _ ?_
      simp [hv']
    have hset : (inp.conns.getD v []).toFinset = occurrences inp.numConstraints inp.k inp.conx v := by
      ext c'; rw [List.mem_toFinset, hco.mem v hvn]
    show V.val c v = _
    rw [v2.val hc hvn, if_pos ⟨hco.used_mem c hc v hv, hcm⟩, ← List.sum_toFinset _ hnd, hset, ← Finset.add_sum_erase _ _ hocc]
    have : ∀ c' ∈ (occurrences inp.numConstraints inp.k inp.conx v).erase c,
        dampStep inp.flag inp.alpha j (d.val c' v) (s.k2v.val c' v) = u.val c' v := by
      intro c' hc'
      have := Finset.mem_range.mp (Finset.mem_filter.mp (Finset.mem_of_mem_erase hc')).1
      exact (f2.val this hvn).symm
    rw [Finset.sum_congr rfl this]
    ring

theorem ksatExtrinsic_is {C n : ℕ} {K : Mat Num} {x : ℕ → ℕ → ℚ} (hK : K.Is C n x) {out : Arr Num} {y : ℕ → ℚ} (ho : out.Is n y) :
    ∃ r, ksatExtrinsic n C K out = some r ∧ r.Is n (fun v => y v + ∑ c ∈ Finset.range C, x c v) := by
  obtain ⟨r, h1, h2⟩ := loopUp_inv (n := n) (body := fun i (out : Arr Num) => loopUp C (fun j out => do
      let o ← out.rd i
      let x ← K.rd j i
      out.wr i (o + x)) out) (s := out)
    (fun k r => r.Is n (fun v => if v < k then y v + ∑ c ∈ Finset.range C, x c v else y v))
    (ho.congr fun _ _ => by simp)
    (by
      intro k hk r hr
      obtain ⟨r', p1, p2⟩ := loopUp_inv (n := C) (body := fun j (out : Arr Num) => do
          let o ← out.rd k
          let x ← K.rd j k
          out.wr k (o + x)) (s := r)
        (fun j r' => r'.Is n (fun v => if v < k then y v + ∑ c ∈ Finset.range C, x c v else
          if v = k then y v + ∑ c ∈ Finset.range j, x c v else y v))
        (hr.congr fun v _ => by by_cases h : v = k <;> simp [h])
        (by
          intro j hj r' hr'
          obtain ⟨r'', q1, q2⟩ := hr'.wr hk (y k + ∑ c ∈ Finset.range (j + 1), x c k)
          refine ⟨r'', ?_, q2.congr fun v _ => ?_⟩
          · simp only [hr'.rd hk, hK.rd hj hk, Option.bind_eq_bind, Option.bind_some, lt_irrefl, if_false, if_true, fin_add]
            rw [Finset.sum_range_succ, ← add_assoc] at q1
            exact q1
          · by_cases h : v = k
            · simp [h]
            · simp [h])
      refine ⟨r', p1, p2.congr fun v _ => ?_⟩
      by_cases h : v = k
      · simp [h]
      · by_cases h' : v < k
        · rw [if_pos h', if_pos (by omega)]
        · rw [if_neg h', if_neg h, if_neg (by omega)])
  exact ⟨r, h1, h2.congr fun v hv => by simp [hv]⟩

/-- A whole run: its messages form a trace of the specification, and the outputs are the sums of the clause messages. -/
theorem ksat_run (ht : ClauseTables inp.numConstraints inp.k inp.numVars inp.conx inp.conxType)
    (hco : ConnectionsOk inp.numConstraints inp.k inp.numVars inp.conx inp.used inp.conns) (hw : inp.cost.Is inp.numVars w)
    (hk : 2 ≤ inp.k) {V : Mat Num} {x0 : ℕ → ℕ → ℚ} (hV : V.Is inp.numConstraints inp.numVars x0) :
    ∃ x r, IsKsatTrace inp.numConstraints inp.k inp.numVars inp.conx inp.conxType w inp.flag inp.alpha x0 x r ∧
      ∀ K, ∃ out, ksatSolve inp V (K + 1) = some out ∧ out.Is inp.numVars (fun v =>
        ∑ c ∈ occurrences inp.numConstraints inp.k inp.conx v, damped inp.flag inp.alpha (fun i => r i c v) K) := by
  obtain ⟨st, s0, hst⟩ := loop_trace (body := ksatIter inp) (s0 := ksatInit inp V) (KsatInv inp) (KsatStep inp w)
    ⟨hV.self, ⟨rfl, rfl, fun _ _ _ _ => rfl⟩, rfl, rfl, rfl, rfl, fun h => absurd rfl h⟩
    (fun j s h => ksatIter_step ht hco hw hk h)
  have hdamp : ∀ c < inp.numConstraints, ∀ v < inp.numVars, ∀ j,
      (st (j + 1)).k2v.val c v = damped inp.flag inp.alpha (fun i => (st (i + 1)).dummy.val c v) j := by
    intro c hc v hv j
    refine damped_of_step (d := fun j => (st (j + 1)).k2v.val c v) (r := fun i => (st (i + 1)).dummy.val c v) ?_ ?_ j
    · intro p
      have := (hst 0).2.2.damp c hc v hv
      simp only [dampStep] at this ⊢
      simpa using this
    · intro j; exact (hst (j + 1)).2.2.damp c hc v hv
  have hvn : ∀ c < inp.numConstraints, ∀ v ∈ clauseVars inp.k (inp.conx.data c), v < inp.numVars :=
    fun c hc v hv => hco.used_lt v (hco.used_mem c hc v hv)
  refine ⟨fun j c v => (st j).v2k.val c v, fun j c v => (st (j + 1)).dummy.val c v, ⟨?_, ?_, ?_⟩, ?_⟩
  · intro c hc v hv; simp only [s0]; exact hV.val hc hv
  · intro j c hc v hv; exact (hst j).2.2.raw c hc v hv
  · intro j c hc v hv
    rw [(hst j).2.2.out c hc v hv]
    congr 1
    refine Finset.sum_congr rfl fun c' hc' => ?_
    exact hdamp c' (Finset.mem_range.mp (Finset.mem_filter.mp (Finset.mem_of_mem_erase hc')).1) v (hvn c hc v hv) j
  · intro K
    obtain ⟨out, o1, o2⟩ := ksatExtrinsic_is (hst (K + 1)).2.1.k2v (Arr.fill_is inp.numVars 0)
    refine ⟨out, ?_, o2.congr fun v hv => ?_⟩
    · simp only [ksatSolve, ksatIterate, (hst (K + 1)).1, Option.bind_eq_bind, Option.bind_some]
      rw [show (Arr.fill inp.numVars (0 : Num)) = Arr.fill inp.numVars (fin 0) from rfl, o1]
      rfl
    · rw [zero_add, occurrences, Finset.sum_filter]
      refine Finset.sum_congr rfl fun c hc => ?_
      have hc := Finset.mem_range.mp hc
      rw [hdamp c hc v hv K]
      by_cases h : v ∈ clauseVars inp.k (inp.conx.data c)
      · rw [if_pos h]
      · rw [if_neg h]
        have : ∀ i, (st (i + 1)).dummy.val c v = 0 := fun i => (hst i).2.2.off c hc v hv h
        simp [damped, this]

/-- Traces are unique where they are specified. -/
theorem ksatTrace_unique {C k n : ℕ} {conx : Mat ℕ} {ty : Mat ℤ} {flag : Bool} {alpha : ℚ} {x0 : ℕ → ℕ → ℚ}
    {x r x' r' : ℕ → ℕ → ℕ → ℚ} (ht : ClauseTables C k n conx ty) (h : IsKsatTrace C k n conx ty w flag alpha x0 x r)
    (h' : IsKsatTrace C k n conx ty w flag alpha x0 x' r') (j : ℕ) :
    ∀ c < C, ∀ v ∈ clauseVars k (conx.data c), x j c v = x' j c v ∧ r j c v = r' j c v := by
  have hlt : ∀ c < C, ∀ v ∈ clauseVars k (conx.data c), v < n := by
    intro c hc v hv
    obtain ⟨s, hs, rfl⟩ := Finset.mem_image.mp hv
    exact ht.conx_lt c hc s (Finset.mem_range.mp hs)
  have hr : ∀ j, (∀ c < C, ∀ v ∈ clauseVars k (conx.data c), x j c v = x' j c v) →
      ∀ c < C, ∀ v ∈ clauseVars k (conx.data c), r j c v = r' j c v := by
    intro j hx c hc v hv
    have h1 := h.clause j c hc v hv
    have h2 := h'.clause j c hc v hv
    have : IsMessage (clauseVars k (conx.data c)) (ClauseSat k (conx.data c) (ty.data c)) (x j c) v (fin (r' j c v)) :=
      h2.congr_in (fun u hu => (hx c hc u hu).symm) hv
    exact Num.fin.inj (h1.unique this)
  have hx : ∀ j, (∀ i < j + 1, ∀ c < C, ∀ v ∈ clauseVars k (conx.data c), x i c v = x' i c v ∧ r i c v = r' i c v) := by
    intro j
    induction j with
    | zero =>
      intro i hi c hc v hv
      obtain rfl : i = 0 := by omega
      have hx0 : ∀ c < C, ∀ v ∈ clauseVars k (conx.data c), x 0 c v = x' 0 c v := fun c hc v hv => by
        rw [h.init c hc v (hlt c hc v hv), h'.init c hc v (hlt c hc v hv)]
      exact ⟨hx0 c hc v hv, hr 0 hx0 c hc v hv⟩
    | succ j ih =>
      have hxs : ∀ c < C, ∀ v ∈ clauseVars k (conx.data c), x (j + 1) c v = x' (j + 1) c v := by
        intro c hc v hv
        rw [h.var j c hc v hv, h'.var j c hc v hv]
        congr 1
        refine Finset.sum_congr rfl fun c' hc' => ?_
        have hm := Finset.mem_filter.mp (Finset.mem_of_mem_erase hc')
        exact damped_congr fun i hi => (ih i (by omega) c' (Finset.mem_range.mp hm.1) v hm.2).2
      intro i hi c hc v hv
      by_cases e : i = j + 1
      · subst e; exact ⟨hxs c hc v hv, hr (j + 1) hxs c hc v hv⟩
      · exact ih i (by omega) c hc v hv
  exact hx j j (by omega)

end run
end Verif.Proofs
