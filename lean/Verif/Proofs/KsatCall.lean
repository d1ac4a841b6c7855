import Verif.Model.KsatCall
import Verif.Proofs.ForestLimits
import Verif.Proofs.Incidence
import Verif.Properties.KsatIO
import Verif.Properties.KsatPost

/-! From formula tables to the solver, and min-sum on formulas without cycles. -/

namespace Verif.Proofs
open Verif Num Spec Model Properties

/-- Variable and sign of literal `s` of clause `c`. -/
def litVar (t : KsatTables) (c s : ℕ) : ℕ := ((t.clauses.getD c []).getD s (0, 0)).1
def litSign (t : KsatTables) (c s : ℕ) : ℤ := ((t.clauses.getD c []).getD s (0, 0)).2

section
variable {n k : ℕ} {t : KsatTables} (hf : KFormula n k t.clauses t.used t.conns)
include hf

theorem getD_mem {c : ℕ} (hc : c < t.clauses.length) : t.clauses.getD c [] ∈ t.clauses := by
  rw [List.getD_eq_getElem?_getD, List.getElem?_eq_getElem hc]; exact List.getElem_mem hc

theorem lit_mem {c s : ℕ} (hc : c < t.clauses.length) (hs : s < k) : (litVar t c s, litSign t c s) ∈ t.clauses.getD c [] := by
  have hs' : s < (t.clauses.getD c []).length := by rw [(hf.clause _ (getD_mem hf hc)).1]; exact hs
  show (t.clauses.getD c []).getD s (0, 0) ∈ _
  rw [List.getD_eq_getElem?_getD (l := t.clauses.getD c []), List.getElem?_eq_getElem hs']; exact List.getElem_mem hs'

theorem mem_lit {c : ℕ} (hc : c < t.clauses.length) {l : ℕ × ℤ} (hl : l ∈ t.clauses.getD c []) :
    ∃ s < k, l = (litVar t c s, litSign t c s) := by
  obtain ⟨s, hs, e⟩ := List.getElem_of_mem hl
  refine ⟨s, by rw [(hf.clause _ (getD_mem hf hc)).1] at hs; exact hs, ?_⟩
  show _ = (t.clauses.getD c []).getD s (0, 0)
  rw [List.getD_eq_getElem?_getD (l := t.clauses.getD c []), List.getElem?_eq_getElem hs, e]; rfl

theorem clauseVars_eq {c : ℕ} (hc : c < t.clauses.length) : clauseVars k (litVar t c) = varsOf t.clauses c := by
  ext v
  simp only [clauseVars, varsOf, Finset.mem_image, Finset.mem_range, List.mem_toFinset, List.mem_map]
  constructor
  · rintro ⟨s, hs, rfl⟩; exact ⟨_, lit_mem hf hc hs, rfl⟩
  · rintro ⟨l, hl, rfl⟩
    obtain ⟨s, hs, e⟩ := mem_lit hf hc hl
    exact ⟨s, hs, by rw [e]⟩

theorem object_eq (w : ℕ → Num) : ksatObject n k t (listOf n w) =
    pythonFormula n t.clauses.length k t.used (t.conns.map (List.map Prod.fst)) (litVar t) (litSign t) w := by
  have htab : ∀ {α : Type} (f : ℕ × ℤ → α), t.clauses.map (List.map f) =
      table t.clauses.length k (fun c s => f ((t.clauses.getD c []).getD s (0, 0))) := by
    intro α f
    refine List.ext_getElem (by simp [table]) fun c h1 h3 => ?_
    have hc : c < t.clauses.length := by simpa using h1
    simp only [table, List.getElem_map, List.getElem_range]
    have hlen : t.clauses[c].length = k := (hf.clause _ (List.getElem_mem hc)).1
    refine List.ext_getElem (by simp [hlen]) fun s h1 h3 => ?_
    have hs : s < t.clauses[c].length := by simpa using h1
    simp [List.getD_eq_getElem?_getD, hc, hs]
  simp only [ksatObject, pythonFormula, htab]
  rfl

theorem lit_lt {c : ℕ} (hc : c < t.clauses.length) {s : ℕ} (hs : s < k) : litVar t c s < n :=
  hf.tables.used_lt _ (hf.tables.used_mem _ (getD_mem hf hc) _ (lit_mem hf hc hs))

theorem lit_inj {c : ℕ} (hc : c < t.clauses.length) : ∀ s < k, ∀ s' < k, litVar t c s = litVar t c s' → s = s' := by
  intro s hs s' hs' e
  obtain ⟨a1, a2, -⟩ := hf.clause _ (getD_mem hf hc)
  have b : s < ((t.clauses.getD c []).map Prod.fst).length := by rw [List.length_map, a1]; exact hs
  have b' : s' < ((t.clauses.getD c []).map Prod.fst).length := by rw [List.length_map, a1]; exact hs'
  refine (List.Nodup.getElem_inj_iff a2 (hi := b) (hj := b')).mp ?_
  rw [List.length_map] at b b'
  simp only [litVar, List.getD_eq_getElem?_getD (l := t.clauses.getD c []), List.getElem?_eq_getElem b, List.getElem?_eq_getElem b',
    Option.getD_some] at e
  simpa using e

theorem lit_sign {c : ℕ} (hc : c < t.clauses.length) {s : ℕ} (hs : s < k) : litSign t c s = 1 ∨ litSign t c s = -1 :=
  (hf.clause _ (getD_mem hf hc)).2.2 _ (lit_mem hf hc hs)

theorem connections_ok : ConnectionsOk t.clauses.length k n ⟨t.clauses.length, k, litVar t⟩ t.used (t.conns.map (List.map Prod.fst)) := by
  have h4 := hf.tables
  refine ⟨h4.used_lt, fun c hc v hv => ?_, by simp [hf.length], fun l hl => ?_, fun v hv c => ?_⟩
  · rw [clauseVars_eq hf hc, varsOf, List.mem_toFinset] at hv
    obtain ⟨l, hl, rfl⟩ := List.mem_map.mp hv
    exact h4.used_mem _ (getD_mem hf hc) l hl
  · obtain ⟨r, hr, rfl⟩ := List.mem_map.mp hl
    obtain ⟨v, hv, rfl⟩ := List.getElem_of_mem hr
    have := hf.nodup v
    rwa [List.getD_eq_getElem?_getD, List.getElem?_eq_getElem hv] at this
  · have e : (t.conns.map (List.map Prod.fst)).getD v [] = (t.conns.getD v []).map Prod.fst := by
      have hv' : v < t.conns.length := by rw [hf.length]; exact hv
      simp [List.getD_eq_getElem?_getD, hv']
    rw [e]
    simp only [occurrences, Finset.mem_filter, Finset.mem_range]
    constructor
    · intro hm
      obtain ⟨⟨c', s⟩, hp', rfl⟩ := List.mem_map.mp hm
      have hl := (h4.mem v c' s).mp hp'
      have hc : c' < t.clauses.length := by
        by_contra hn
        rw [List.getD_eq_getElem?_getD, List.getElem?_eq_none (by omega)] at hl
        simp at hl
      refine ⟨hc, ?_⟩
      show v ∈ clauseVars k (litVar t c')
      rw [clauseVars_eq hf hc, varsOf, List.mem_toFinset]
      exact List.mem_map.mpr ⟨_, hl, rfl⟩
    · rintro ⟨hc, hv⟩
      have hv : v ∈ clauseVars k (litVar t c) := hv
      rw [clauseVars_eq hf hc, varsOf, List.mem_toFinset] at hv
      obtain ⟨⟨v', s⟩, hl, rfl⟩ := List.mem_map.mp hv
      exact List.mem_map.mpr ⟨(c, s), (h4.mem v' c s).mpr hl, rfl⟩

theorem clause_tables : ClauseTables t.clauses.length k n ⟨t.clauses.length, k, litVar t⟩ ⟨t.clauses.length, k, litSign t⟩ :=
  ⟨rfl, rfl, rfl, rfl, fun _ hc _ hs => lit_lt hf hc hs, fun _ hc => lit_inj hf hc, fun _ hc _ hs => lit_sign hf hc hs⟩

/-- The messages of the run exist, and the beliefs are their sums. -/
theorem call_trace (hk : 2 ≤ k) (w : ℕ → ℚ) (flag : Bool) (alpha : ℚ) :
    ∃ x r, IsKsatTrace t.clauses.length k n ⟨t.clauses.length, k, litVar t⟩ ⟨t.clauses.length, k, litSign t⟩ w flag alpha
        (fun c v => if ∃ s < k, litVar t c s = v then w v else 0) x r ∧
      ∀ K, ksatBeliefs (K + 1) flag alpha (ksatObject n k t (listOf n (fun v => fin (w v)))) =
        some (listOf n (fun v => fin ((∑ c ∈ occurrences t.clauses.length k ⟨t.clauses.length, k, litVar t⟩ v,
          damped flag alpha (fun i => r i c v) K) + if v ∈ t.used then w v else 0))) := by
  let inp : KsatInputs := ⟨n, t.clauses.length, k, flag, alpha, t.used, t.conns.map (List.map Prod.fst),
    ⟨t.clauses.length, k, litVar t⟩, ⟨t.clauses.length, k, litSign t⟩, ⟨n, fun v => fin (w v)⟩⟩
  obtain ⟨⟨x, r, h⟩, -⟩ := C13_ksat_run (inp := inp) (clause_tables hf) (connections_ok hf) (w := w) ⟨rfl, fun v _ => rfl⟩ hk
    (V := Mat.ofRat t.clauses.length n (fun c v => if ∃ s < k, litVar t c s = v then w v else 0))
    (x0 := fun c v => if ∃ s < k, litVar t c s = v then w v else 0) (by exact Mat.ofRat_is _ _ _)
  refine ⟨x, r, h, fun K => ?_⟩
  rw [object_eq hf]
  exact C24_call flag alpha hk (fun c hc s hs => lit_lt hf hc hs) (fun c hc => lit_inj hf hc) (fun c hc s hs => lit_sign hf hc hs)
    (connections_ok hf) h K

theorem clauseSat_iff {c : ℕ} (hc : c < t.clauses.length) (S : Finset ℕ) :
    ClauseSat k (litVar t c) (litSign t c) (S ∩ clauseVars k (litVar t c)) ↔ ∃ l ∈ t.clauses.getD c [], LitTrue (fun v => decide (v ∈ S)) l := by
  have hin : ∀ s < k, (litVar t c s ∈ S ∩ clauseVars k (litVar t c) ↔ litVar t c s ∈ S) := by
    intro s hs
    simp only [Finset.mem_inter, clauseVars, Finset.mem_image, Finset.mem_range]
    exact ⟨fun h => h.1, fun h => ⟨h, s, hs, rfl⟩⟩
  constructor
  · rintro ⟨s, hs, h⟩
    refine ⟨_, lit_mem hf hc hs, ?_⟩
    rw [hin s hs] at h
    simpa [LitTrue] using h
  · rintro ⟨l, hl, h⟩
    obtain ⟨s, hs, rfl⟩ := mem_lit hf hc hl
    refine ⟨s, hs, ?_⟩
    rw [hin s hs]
    simpa [LitTrue] using h

theorem allHold_iff {order : List ℕ} (hp : order.Perm (List.range t.clauses.length)) (S : Finset ℕ) :
    AllHold (fun c => clauseVars k (litVar t c)) (fun c => ClauseSat k (litVar t c) (litSign t c)) order S ↔ Satisfies t.clauses S := by
  simp only [AllHold, Satisfies, violated, hp.mem_iff, List.mem_range, List.filter_eq_nil_iff, decide_eq_true_eq]
  constructor
  · intro h c hc hall
    obtain ⟨l, hl, ht⟩ := (clauseSat_iff hf hc S).mp (h c hc)
    exact hall l hl ht
  · intro h c hc
    rw [clauseSat_iff hf hc]
    have := h c hc
    push Not at this
    exact this

/-- Both kinds of limit of the beliefs on a formula without cycles. -/
theorem belief_limit (hk : 2 ≤ k) (hac : (incidence t.clauses.length (varsOf t.clauses)).IsAcyclic) {w : ℕ → ℚ} {flag : Bool} {alpha : ℚ}
    {x0 : ℕ → ℕ → ℚ} {x r : ℕ → ℕ → ℕ → ℚ} (h : IsKsatTrace t.clauses.length k n ⟨t.clauses.length, k, litVar t⟩
      ⟨t.clauses.length, k, litSign t⟩ w flag alpha x0 x r) {Lim : ℕ → (ℕ → ℚ) → ℚ → Prop} (L : Limits Lim)
    (hd : ∀ t a s, Lim t s a → Lim t (fun j => damped flag alpha s j) a) {v : ℕ} (hv : v ∈ t.used) :
    ∃ m, MarginalDiff t.used.toFinset (Satisfies t.clauses) w v m ∧ Lim (2 * t.clauses.length)
      (fun K => (∑ c ∈ occurrences t.clauses.length k ⟨t.clauses.length, k, litVar t⟩ v, damped flag alpha (fun i => r i c v) K) +
        if v ∈ t.used then w v else 0) m := by
  obtain ⟨order, hp, hF⟩ := forest_of_acyclic hac (fun c hc => by
    rw [← clauseVars_eq hf hc]
    exact ⟨litVar t c 0, Finset.mem_image.mpr ⟨0, Finset.mem_range.mpr (by omega), rfl⟩⟩)
  have hmem : ∀ {c}, c ∈ order ↔ c < t.clauses.length := by intro c; rw [hp.mem_iff, List.mem_range]
  have hocc : ∀ v, order.toFinset.filter (fun c => v ∈ clauseVars k (litVar t c)) =
      occurrences t.clauses.length k ⟨t.clauses.length, k, litVar t⟩ v := by
    intro v
    ext c
    simp only [occurrences, Finset.mem_filter, List.mem_toFinset, hmem, Finset.mem_range]
  have hF' : Forest (fun c => clauseVars k (litVar t c)) order := by
    have : ∀ l : List ℕ, (∀ c ∈ l, c < t.clauses.length) → Forest (varsOf t.clauses) l → Forest (fun c => clauseVars k (litVar t c)) l := by
      intro l
      induction l with
      | nil => intro _ _; trivial
      | cons c l ih =>
        rintro hl ⟨⟨u, hu, hs⟩, h2⟩
        have hc := hl c (by simp)
        refine ⟨⟨u, by beta_reduce; rw [clauseVars_eq hf hc]; exact hu, fun c' hc' v hv hv' => ?_⟩, ih (fun c' hc' => hl c' (by simp [hc'])) h2⟩
        beta_reduce at hv hv'
        rw [clauseVars_eq hf hc] at hv
        rw [clauseVars_eq hf (hl c' (by simp [hc']))] at hv'
        exact hs c' hc' v hv hv'
    exact this order (fun c hc => hmem.mp hc) hF
  have hvars : ∀ c ∈ order, clauseVars k (litVar t c) ⊆ t.used.toFinset := by
    intro c hc v hv
    exact List.mem_toFinset.mpr ((connections_ok hf).used_mem c (hmem.mp hc) v hv)
  obtain ⟨m, h1, h2⟩ := forest_limit L (V := fun c => clauseVars k (litVar t c)) (P := fun c => ClauseSat k (litVar t c) (litSign t c))
    order (hp.nodup_iff.mpr List.nodup_range) hF' t.used.toFinset hvars w x r (fun j c v => damped flag alpha (fun i => r i c v) j)
    (fun j c hc v hv => h.clause j c (hmem.mp hc) v hv) (fun c hc v hv T a hl => hd T a _ hl)
    (fun c hc v hv => lim_congr (L.const 0 0) fun j => by rw [hocc, h.var j c (hmem.mp hc) v hv]; ring) v (List.mem_toFinset.mpr hv)
  refine ⟨m, marg_congr h1 (fun S _ => allHold_iff hf hp S) (fun _ _ => rfl), ?_⟩
  rw [hp.length_eq, List.length_range] at h2
  refine lim_congr h2 fun j => ?_
  rw [if_pos hv, hocc]; ring

theorem used_of_lit {c : ℕ} {l : ℕ × ℤ} (hl : l ∈ t.clauses.getD c []) : l.1 ∈ t.used := by
  by_cases hc : c < t.clauses.length
  · exact hf.tables.used_mem _ (getD_mem hf hc) l hl
  · rw [List.getD_eq_getElem?_getD, List.getElem?_eq_none (by omega)] at hl
    simp at hl

/-- The violated clauses depend only on the values of the used variables. -/
theorem violated_congr {σ τ : ℕ → Bool} (h : ∀ v ∈ t.used, σ v = τ v) : violated t.clauses σ = violated t.clauses τ := by
  refine List.filter_congr fun c _ => ?_
  have : ∀ l ∈ t.clauses.getD c [], (LitTrue σ l ↔ LitTrue τ l) := by
    intro l hl
    rw [LitTrue, LitTrue, h _ (used_of_lit hf hl)]
  exact decide_eq_decide.mpr ⟨fun g l hl => (this l hl).not.mp (g l hl), fun g l hl => (this l hl).not.mpr (g l hl)⟩

theorem usedWith_some {hard : List Bool} (hn : hard.length = n) (d : Bool) : ∃ l, usedWith t hard d = some l ∧
    ∀ v, v ∈ l ↔ v ∈ t.used ∧ asgn hard v = d := by
  obtain ⟨s, h1, -, h3, h4⟩ := C28_report hf.tables hn
  simp only [getSummary] at h1
  obtain ⟨a, ha, h1⟩ := Option.bind_eq_some_iff.mp h1
  obtain ⟨b, hb, h1⟩ := Option.bind_eq_some_iff.mp h1
  obtain rfl := Option.some.inj h1
  cases d with
  | true => exact ⟨a, ha, h3⟩
  | false => exact ⟨b, hb, h4⟩

/-- The part of the call after the native solver. -/
theorem call_of_beliefs {numIter : ℕ} {flag : Bool} {alpha : ℚ} {thr : Num} {order order' : List ℕ → List ℕ} (ho : ∀ l, (order l).Perm l)
    (ho' : ∀ l, (order' l).Perm l) {post : Bool} {pp : ℕ} {sol : List Bool} (hs : sol = [] ∨ sol.length = n) {cost beliefs : List Num}
    (hb : ksatBeliefs numIter flag alpha (ksatObject n k t cost) = some beliefs) (hl : beliefs.length = n) :
    ∃ res, ksatCall n k numIter flag alpha thr order order' post pp sol t cost = some res ∧ res.beliefs = beliefs ∧
      decideAndPost t thr order order' post pp beliefs = some res.post ∧
      (res.requiredPP = true ↔ post = true ∧ violated t.clauses (asgn (hardDecisions thr beliefs)) ≠ []) ∧
      averageSimilarity t sol res.post.sum = some res.similarity := by
  obtain ⟨s, h1, h2, -⟩ := C28_report (hard := hardDecisions thr beliefs) hf.tables (by simp [hardDecisions, hl])
  obtain ⟨st, g1, -⟩ := C30_reported hf.tables ho ho' post pp thr hl
  have hsim : ∃ sim, averageSimilarity t sol st.sum = some sim := by
    unfold averageSimilarity
    split
    · rename_i hc
      have hn : sol.length = n := by
        rcases hs with rfl | h
        · exact absurd rfl hc.1
        · exact h
      obtain ⟨a, ha, -⟩ := usedWith_some hf hn true
      obtain ⟨b, hb, -⟩ := usedWith_some hf hn false
      simp only [ha, hb, Option.bind_eq_bind, Option.bind_some]
      exact ⟨_, rfl⟩
    · exact ⟨_, rfl⟩
  obtain ⟨sim, hsim⟩ := hsim
  refine ⟨⟨beliefs, st, s.unsat.length != 0 && post, sim⟩, ?_, rfl, g1, ?_, hsim⟩
  · simp only [ksatCall, hb, h1, g1, hsim, Option.bind_eq_bind, Option.bind_some]
  · show (s.unsat.length != 0 && post) = true ↔ _
    rw [h2]
    simp only [Bool.and_eq_true, bne_iff_ne, ne_eq, List.length_eq_zero_iff]
    exact and_comm

theorem hard_val {thr : ℚ} {b : ℕ → ℚ} {v : ℕ} (hv : v ∈ t.used) :
    asgn (hardDecisions (fin thr) (listOf n (fun v => fin (b v)))) v = decide (b v ≤ thr) := by
  have hvn := hf.tables.used_lt v hv
  simp only [asgn, hardDecisions, listOf, List.map_map, List.getD_eq_getElem?_getD, List.getElem?_map, List.getElem?_range hvn,
    Option.map_some, Option.getD_some, Function.comp, Num.lt]
  by_cases h : thr < b v
  · simp [h]
  · simp [h, not_lt.mp h]

/-- Beliefs on the right side of the threshold give the assignment `S`. -/
theorem call_of_signs {numIter : ℕ} {flag : Bool} {alpha thr : ℚ} {order order' : List ℕ → List ℕ} (ho : ∀ l, (order l).Perm l)
    (ho' : ∀ l, (order' l).Perm l) {post : Bool} {pp : ℕ} {sol : List Bool} (hs : sol = [] ∨ sol.length = n) {cost : List Num} {b : ℕ → ℚ}
    (hb : ksatBeliefs numIter flag alpha (ksatObject n k t cost) = some (listOf n (fun v => fin (b v)))) {S : Finset ℕ}
    (hS : S ⊆ t.used.toFinset) (hsat : Satisfies t.clauses S) (hlt : ∀ v ∈ t.used, (b v ≤ thr ↔ v ∈ S)) :
    ∃ res, ksatCall n k numIter flag alpha (fin thr) order order' post pp sol t cost = some res ∧ res.post.flag = true ∧
      res.post.sum.unsat = [] ∧ res.requiredPP = false ∧ (∀ v, v ∈ res.post.sum.active ↔ v ∈ S) ∧
      (∀ v, v ∈ res.post.sum.inactive ↔ v ∈ t.used ∧ v ∉ S) := by
  have hl : (listOf n (fun v => fin (b v))).length = n := by simp [listOf]
  obtain ⟨res, h1, -, h3, h4, -⟩ := call_of_beliefs hf ho ho' (thr := fin thr) (post := post) (pp := pp) hs hb hl
  obtain ⟨st, g1, -, g3, g4, g5, g6, g7⟩ := C30_reported hf.tables ho ho' post pp (fin thr) hl
  rw [h3] at g1
  obtain rfl := Option.some.inj g1
  have hv : violated t.clauses (asgn (hardDecisions (fin thr) (listOf n (fun v => fin (b v))))) = [] := by
    rw [← hsat]
    refine violated_congr hf fun v hv => ?_
    rw [hard_val hf hv]
    exact decide_eq_decide.mpr (hlt v hv)
  have hh := g7 hv
  rw [hh] at g3 g4 g5 g6
  refine ⟨res, h1, g3.mpr hv, by rw [g4, hv], ?_, fun v => ?_, fun v => ?_⟩
  · rcases hr : res.requiredPP with _ | _
    · rfl
    · exact absurd hv (h4.mp hr).2
  · rw [g5]
    constructor
    · rintro ⟨hu, h⟩
      rw [hard_val hf hu] at h
      exact (hlt v hu).mp (of_decide_eq_true h)
    · intro h
      have hu := List.mem_toFinset.mp (hS h)
      exact ⟨hu, by rw [hard_val hf hu]; exact decide_eq_true ((hlt v hu).mpr h)⟩
  · rw [g6]
    constructor
    · rintro ⟨hu, h⟩
      rw [hard_val hf hu] at h
      exact ⟨hu, fun hn => of_decide_eq_false h ((hlt v hu).mpr hn)⟩
    · rintro ⟨hu, h⟩
      exact ⟨hu, by rw [hard_val hf hu]; exact decide_eq_false fun hn => h ((hlt v hu).mp hn)⟩

end

theorem undamped {flag : Bool} {alpha : ℚ} (h : flag = false ∨ alpha = 0) (s : ℕ → ℚ) (j : ℕ) : damped flag alpha s j = s j := by
  rw [damped, if_neg]
  rintro ⟨h1, h2⟩
  rcases h with h | h
  · rw [h] at h1; cases h1
  · exact h2 h

/-- The margin of the cheapest assignment shows in the differences. -/
theorem cheapestBy_sign {vars : Finset ℕ} {P : Finset ℕ → Prop} {w : ℕ → ℚ} {δ d : ℚ} {S : Finset ℕ} {v : ℕ}
    (hS : CheapestBy vars P w δ S) (hm : MarginalDiff vars P w v d) : (v ∈ S → d ≤ -δ) ∧ (v ∉ S → δ ≤ d) := by
  obtain ⟨a, c, ⟨⟨U, u1, u2, u3, rfl⟩, ha⟩, ⟨⟨T, t1, t2, t3, rfl⟩, hc⟩, rfl⟩ := hm
  constructor
  · intro hv
    have h1 := ha ⟨S, hS.1, hS.2.1, hv, rfl⟩
    have h2 := hS.2.2 T t1 t2 (fun e => t3 (e ▸ hv))
    linarith
  · intro hv
    have h1 := hc ⟨S, hS.1, hS.2.1, hv, rfl⟩
    have h2 := hS.2.2 U u1 u2 (fun e => hv (e ▸ u3))
    linarith

end Verif.Proofs
