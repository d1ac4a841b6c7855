import Verif.Model.UnitDraws
import Verif.Proofs.PyKcCall
import Verif.Proofs.KsatGen
import Verif.Properties.KcTeams
import Verif.Properties.TspIO
import Verif.Properties.PyTspSolve
import Verif.Properties.UnitTests

/-! Helper lemmas about the inputs that the unit tests draw. -/

namespace Verif.Proofs
open Verif Num Spec Model Properties

/-! ## Assignment -/

theorem mem_utPairs {n : ℕ} {c : ℕ × ℕ} : c ∈ utPairs n ↔ (1 ≤ c.1 ∧ c.1 ≤ n) ∧ 1 ≤ c.2 ∧ c.2 ≤ n := by
  obtain ⟨a, b⟩ := c
  simp only [utPairs, List.mem_flatMap, List.mem_map, List.mem_range, Prod.mk.injEq]
  constructor
  · rintro ⟨-, ⟨i, hi, rfl⟩, -, ⟨j, hj, rfl⟩, rfl, rfl⟩
    omega
  · rintro ⟨⟨h1, h2⟩, h3, h4⟩
    exact ⟨a, ⟨a - 1, by omega, by omega⟩, b, ⟨b - 1, by omega, by omega⟩, rfl, rfl⟩

/-- Two different members. -/
theorem two_le_length {α : Type} {l : List α} {a b : α} (ha : a ∈ l) (hb : b ∈ l) (hab : a ≠ b) : 2 ≤ l.length := by
  match l with
  | [] => simp at ha
  | [x] => simp only [List.mem_singleton] at ha hb; exact absurd (ha.trans hb.symm) hab
  | _ :: _ :: _ => simp

theorem map_eq_listOf {α β : Type} (L : List α) (f : α → β) (d : α) : L.map f = listOf L.length (fun t => f (L.getD t d)) := by
  refine List.ext_getElem (by simp [listOf]) fun i h1 h2 => ?_
  have hi : i < L.length := by simpa using h1
  simp [listOf, hi]

section
variable {caps types : List ℕ}

/-- What the test driver computes is a well-formed problem if every team can be formed within one department. -/
theorem utTable_spec (hne : caps ≠ []) (ht : TypesOk types) (htn : types ≠ [])
    (hcap : ∀ c ∈ caps, ∀ t ∈ types, (crew t).1 + (crew t).2 ≤ c) :
    ∃ T wf, utTable caps types = some (T, table caps.length T wf) ∧ (∀ P, 0 < P → KcProblemOk caps.length T P wf (fun d => caps.getD d 0)) ∧
      (2 ≤ caps.length → 2 ≤ T) := by
  have hlen := List.length_pos_iff.mpr hne
  have hpairs : PairsOk caps.length (utPairs caps.length) := fun c hc => by
    have := mem_utPairs.mp hc; omega
  have hself : ∀ u, 1 ≤ u → u ≤ caps.length → (u, u) ∈ utPairs caps.length := fun u h1 h2 => mem_utPairs.mpr ⟨⟨h1, h2⟩, h1, h2⟩
  have hfit : ∀ c ∈ utPairs caps.length, ∀ t ∈ types, RealKind (c.1, c.2, t) → ∀ x, need (c.1, c.2, t) x ≤ unitCap caps x := by
    intro c hc t htt _ x
    have hx := mem_utPairs.mp hc
    by_cases hin : x = c.1 ∨ x = c.2
    · have hxl : x - 1 < caps.length := by omega
      have hm : unitCap caps x ∈ caps := by
        rw [unitCap, List.getD_eq_getElem?_getD, List.getElem?_eq_getElem hxl]; exact List.getElem_mem hxl
      refine le_trans ?_ (hcap _ hm t htt)
      unfold need
      exact Nat.add_le_add (by split <;> simp) (by split <;> simp)
    · push Not at hin
      simp [need, hin.1, hin.2]
  obtain ⟨G, count, g1, g2, -, g4, g5⟩ := C33_weights_partial (d := noRewards) hpairs ht hfit
  have hprob := fun (P : ℕ) (hP : 0 < P) => teams_problem (count := count) hlen hP hself ht htn hfit g2
  set L := teams (utPairs caps.length) types count with hL
  have hw : G.weights = table caps.length L.length (fun d t => need (L.getD t (0, 0, 0)) (d + 1)) := by
    refine List.ext_getElem (by simp [table, g4]) fun x h1 h2 => ?_
    have hx : x < caps.length := by omega
    have e := (g5 x hx).1
    rw [List.getElem?_eq_getElem h1, map_eq_listOf L _ (0, 0, 0)] at e
    rw [Option.some.inj e]
    simp [table, listOf]
  refine ⟨L.length, _, ?_, hprob, fun h2 => ?_⟩
  · simp only [utTable, g1, (g5 0 hlen).2, Option.bind_eq_bind, Option.bind_some, List.length_map]
    rw [hw, if_pos]
    simp [table]
  · obtain ⟨t, tt⟩ := List.exists_mem_of_ne_nil types htn
    have hm : ∀ u, 1 ≤ u → u ≤ caps.length → (u, u, t) ∈ L := by
      intro u h1 h3
      refine mem_teams.mpr ⟨hself u h1 h3, tt, ?_⟩
      have := ((g2 _ (hself u h1 h3) t tt).1 (Or.inr rfl)).2 (show (1 : ℕ) ∈ _ from fun x => by
        rw [one_mul]; exact hfit _ (hself u h1 h3) t tt (Or.inr rfl) x)
      have h4 : 1 ≤ count (u, u, t) := this
      omega
    exact two_le_length (hm 1 le_rfl (by omega)) (hm 2 (by omega) h2) (by simp)

variable {T : ℕ} {wf : ℕ → ℕ → ℕ}

/-- The departments of a drawn problem. -/
theorem utDrawnDepts_eq (h : utTable caps types = some (T, table caps.length T wf)) (r : ℕ → Num) :
    utDrawnDepts caps types r = some (T, (List.range caps.length).map (fun d => utDept (caps.getD d 0) T (listOf T (wf d)) r)) := by
  simp only [utDrawnDepts, h, Option.bind_eq_bind, Option.bind_some]
  congr 2
  refine List.map_congr_left fun d hd => ?_
  rw [List.mem_range] at hd
  congr 1
  simp [table, listOf, hd]

theorem utDept_ok {P : ℕ} (h : KcProblemOk caps.length T P wf (fun d => caps.getD d 0)) (r : ℕ → ℚ) {d : ℕ} (hd : d < caps.length) :
    DeptOk T (caps.getD d 0) (utDept (caps.getD d 0) T (listOf T (wf d)) (fun t => fin (r t))).nz
      (utDept (caps.getD d 0) T (listOf T (wf d)) (fun t => fin (r t))).sz (utDept (caps.getD d 0) T (listOf T (wf d)) (fun t => fin (r t))).w (wf d) ∧
    (utDept (caps.getD d 0) T (listOf T (wf d)) (fun t => fin (r t))).m.Is T (fun t => if wf d t ≠ 0 then r t else 0) := by
  have hn : (utDept (caps.getD d 0) T (listOf T (wf d)) (fun t => fin (r t))).nz = teamsOf T (wf d) := nonZeroIndices_listOf
  refine ⟨⟨by rw [hn]; exact teamsOf_sorted, fun t => by rw [hn]; exact mem_teamsOf, ?_, rfl, rfl, fun t ht => listOf_getD ht, fun t ht => ?_⟩,
    rfl, fun t ht => ?_⟩
  · obtain ⟨t, t1, t2⟩ := h.used d hd
    exact List.ne_nil_of_mem (a := t) (by rw [hn, mem_teamsOf]; exact ⟨t1, t2⟩)
  · rw [hn, mem_teamsOf] at ht
    exact h.fits d hd t ht.1
  · show (if (listOf T (wf d)).getD t 0 ≠ 0 then fin (r t) else 0) = fin (if wf d t ≠ 0 then r t else 0)
    rw [listOf_getD ht]
    split <;> rfl

theorem utDepts_ok {P : ℕ} (h : KcProblemOk caps.length T P wf (fun d => caps.getD d 0)) (r : ℕ → ℚ) :
    ∀ u ∈ (List.range caps.length).map (fun d => utDept (caps.getD d 0) T (listOf T (wf d)) (fun t => fin (r t))), UtDeptOk T u := by
  intro u hu
  obtain ⟨d, hd, rfl⟩ := List.mem_map.mp hu
  rw [List.mem_range] at hd
  exact ⟨_, _, utDept_ok h r hd⟩

theorem utDrawnInputs_ok {P : ℕ} (h : KcProblemOk caps.length T P wf (fun d => caps.getD d 0)) (ht : utTable caps types = some (T, table caps.length T wf))
    (flag : Bool) (alpha : ℚ) (w : ℕ → ℚ) (R : ℕ → ℕ → ℚ) :
    ∃ inp A, utDrawnInputs caps types P flag alpha (fun t => fin (w t)) (fun p t => fin (R p t)) = some (inp, A) ∧ inp.numDepartments = caps.length ∧
      inp.numTeams = T ∧ inp.numProjects = P ∧ inp.flag = flag ∧ inp.alpha = alpha ∧ KcOk inp wf (fun d => caps.getD d 0) w R ∧
      A.Is caps.length T (fun d t => if wf d t ≠ 0 then w t else 0) := by
  have hg : ∀ d < caps.length, ∀ u, ((List.range caps.length).map (fun d => utDept (caps.getD d 0) T (listOf T (wf d)) (fun t => fin (w t)))).getD d u =
      utDept (caps.getD d 0) T (listOf T (wf d)) (fun t => fin (w t)) := by
    intro d hd u
    simp [hd]
  simp only [utDrawnInputs, utDrawnDepts_eq ht, Option.bind_eq_bind, Option.bind_some]
  refine ⟨_, _, rfl, rfl, rfl, rfl, rfl, rfl, ?_, ?_⟩
  · refine ⟨h.projects, rfl, fun d hd => rfl, by simp, rfl, rfl, fun d hd => ?_, h.two, ⟨rfl, fun t _ => rfl⟩, ⟨rfl, rfl, fun _ _ _ _ => rfl⟩⟩
    have hd : d < caps.length := hd
    obtain ⟨a, -⟩ := utDept_ok h w hd
    have e := hg d hd (utDept 0 T [] (fun t => fin (w t)))
    simp only [e]
    have e2 : (((List.range caps.length).map (fun d => utDept (caps.getD d 0) T (listOf T (wf d)) (fun t => fin (w t)))).map UtDept.nz).getD d [] =
        (utDept (caps.getD d 0) T (listOf T (wf d)) (fun t => fin (w t))).nz := by
      simp [hd]
    rw [e2]
    exact a
  · refine ⟨rfl, rfl, fun d hd t htT => ?_⟩
    simp only [hg d hd (utDept 0 T [] (fun t => fin (w t)))]
    exact (utDept_ok h w hd).2.2 t htT

end

/-! ## k-SAT -/

/-- Invariant of the generator without removal of duplicates; `acc` are the clauses so far. -/
structure PlainOk (n m k : ℕ) (sol : List Bool) (st : GenState) (acc : List (List (ℕ × ℤ))) : Prop where
  slots : st.slots = acc ++ List.replicate (m - acc.length) []
  ok : ∀ cl ∈ acc, ClauseOk n k sol cl
  len : st.conns.length = n
  mem : ∀ v c s, (c, s) ∈ st.conns.getD v [] ↔ (v, s) ∈ acc.getD c []
  nodup : ∀ v, ((st.conns.getD v []).map Prod.fst).Nodup
  used : ∀ v, v ∈ st.used ↔ ∃ cl ∈ acc, v ∈ cl.map Prod.fst

theorem plainStep_spec {n m k : ℕ} {sol : List Bool} {first : ℕ → ℕ} {pick : ℕ → ℕ → ℕ} {sign : ℕ → ℕ → Bool} {c : ℕ} {st : GenState}
    {acc : List (List (ℕ × ℤ))} (hk : 1 ≤ k) (hsol : sol.length = n) (hf : first c < n)
    (hp : ∀ j < k - 1, pick c j < n - 1 - j) (hacc : acc.length = c) (hcm : c < m) (h : PlainOk n m k sol st acc) :
    ∃ st' acc', plainStep n k sol first pick sign c st = some st' ∧ PlainOk n m k sol st' acc' ∧ acc'.length = c + 1 := by
  subst hacc
  obtain ⟨g, a1, a2, a3, a4⟩ := drawClause_spec (sign := sign acc.length) (ic := acc.length) (used := st.used) (conns := st.conns) hk hsol hf hp h.len
  have hclok : ClauseOk n k sol g.cl := ⟨a3, a2.nodup, a2.lt, a2.sign, a4⟩
  have hbase : ∀ v, ∀ p ∈ st.conns.getD v [], p.1 ≠ acc.length := by
    rintro v ⟨c', s⟩ hp' rfl
    have := (h.mem v acc.length s).mp hp'
    rw [List.getD_eq_getElem?_getD, List.getElem?_eq_none le_rfl] at this
    simp at this
  have hlt : acc.length < st.slots.length := by
    rw [h.slots, List.length_append, List.length_replicate]; omega
  have hset : st.slots.set acc.length g.cl = (acc ++ [g.cl]) ++ List.replicate (m - (acc ++ [g.cl]).length) [] := by
    rw [h.slots, List.set_append_right _ _ le_rfl, Nat.sub_self]
    have : m - acc.length = (m - (acc ++ [g.cl]).length) + 1 := by
      rw [List.length_append]; simp; omega
    rw [this, List.replicate_succ, List.set_cons_zero, List.append_assoc]; rfl
  refine ⟨⟨st.slots.set acc.length g.cl, g.used, g.conns, acc.length + 1⟩, acc ++ [g.cl], ?_, ⟨hset, ?_, a2.len, fun v c s => ?_,
    fun v => ?_, fun v => ?_⟩, by simp⟩
  · simp only [plainStep, a1, Option.bind_eq_bind, Option.bind_some]
    rw [if_pos hlt]
  · intro cl hcl
    rcases List.mem_append.mp hcl with hcl | hcl
    · exact h.ok cl hcl
    · rw [List.mem_singleton.mp hcl]; exact hclok
  · show (c, s) ∈ g.conns.getD v [] ↔ _
    rw [a2.conns, List.mem_append, h.mem, mem_added]
    rcases Nat.lt_trichotomy c acc.length with hc | hc | hc
    · rw [List.getD_append _ _ _ _ hc]
      exact ⟨fun hx => hx.elim id (fun hx => by omega), Or.inl⟩
    · subst hc
      rw [List.getD_append_right _ _ _ _ le_rfl, Nat.sub_self, List.getD_eq_getElem?_getD (l := acc), List.getElem?_eq_none le_rfl]
      simp
    · rw [List.getD_append_right _ _ _ _ hc.le, List.getD_eq_getElem?_getD (l := acc), List.getElem?_eq_none hc.le,
        List.getD_eq_getElem?_getD, List.getElem?_eq_none (by simp; omega)]
      simp; omega
  · show ((g.conns.getD v []).map Prod.fst).Nodup
    rw [a2.conns, List.map_append, List.nodup_append]
    refine ⟨h.nodup v, ?_, fun a ha b hb => ?_⟩
    · by_cases hv : v ∈ g.cl.map Prod.fst
      · obtain ⟨s, hs⟩ := added_one (ic := acc.length) a2.nodup hv
        rw [hs]; simp
      · rw [added_nil hv]; simp
    · obtain ⟨p, hp', rfl⟩ := List.mem_map.mp ha
      obtain ⟨q, hq, rfl⟩ := List.mem_map.mp hb
      rw [(mem_added (c := q.1) (s := q.2)).mp hq |>.1]
      exact hbase v p hp'
  · show v ∈ g.used ↔ _
    rw [a2.used, List.mem_append, h.used]
    constructor
    · rintro (⟨cl, hcl, hv⟩ | hv)
      · exact ⟨cl, List.mem_append_left _ hcl, hv⟩
      · exact ⟨g.cl, by simp, hv⟩
    · rintro ⟨cl, hcl, hv⟩
      rcases List.mem_append.mp hcl with hcl | hcl
      · exact Or.inl ⟨cl, hcl, hv⟩
      · rw [List.mem_singleton.mp hcl] at hv; exact Or.inr hv

section
variable {n m k : ℕ} {order : List ℕ → List ℕ} {sol : List Bool} {first : ℕ → ℕ} {pick : ℕ → ℕ → ℕ} {sign : ℕ → ℕ → Bool}

theorem plainFormula_spec (hk : 1 ≤ k) (hsol : sol.length = n) (hf : ∀ c < m, first c < n) (hp : ∀ c < m, ∀ j < k - 1, pick c j < n - 1 - j)
    (ho : ∀ l, (order l).Perm l) :
    ∃ t, plainFormula n m k order sol first pick sign = some t ∧ KFormula n k t.clauses t.used t.conns ∧ t.clauses.length = m ∧
      ∀ cl ∈ t.clauses, ClauseOk n k sol cl := by
  obtain ⟨st, a1, acc, a2, a3⟩ := loopUp_inv (n := m) (body := plainStep n k sol first pick sign)
    (s := ⟨List.replicate m [], [], List.replicate n [], 0⟩)
    (fun c st => ∃ acc, PlainOk n m k sol st acc ∧ acc.length = c)
    ⟨[], ⟨by simp, by simp, by simp, fun v c s => by
      simp only [List.getD_eq_getElem?_getD, List.getElem?_replicate]; by_cases h : v < n <;> simp [h], fun v => by
      simp only [List.getD_eq_getElem?_getD, List.getElem?_replicate]; by_cases h : v < n <;> simp [h], by simp⟩, rfl⟩
    (by
      rintro c hc st ⟨acc, b1, b2⟩
      obtain ⟨st', acc', c1, c2, c3⟩ := plainStep_spec hk hsol (hf c hc) (hp c hc) (sign := sign) b2 hc b1
      exact ⟨st', c1, acc', c2, c3⟩)
  have hs : st.slots = acc := by rw [a2.slots, a3]; simp
  have hu : ∀ v, v ∈ order st.used.dedup ↔ ∃ cl ∈ acc, v ∈ cl.map Prod.fst := by
    intro v; rw [(ho _).mem_iff, List.mem_dedup, a2.used]
  refine ⟨⟨order st.used.dedup, acc, st.conns⟩, ?_, ⟨fun cl hcl => ?_, ⟨a2.mem, fun cl hcl l hl => ?_, fun v hv => ?_⟩, a2.len, a2.nodup⟩, a3, a2.ok⟩
  · simp only [plainFormula, a1, Option.bind_eq_bind, Option.bind_some, hs]
  · exact ⟨(a2.ok cl hcl).len, (a2.ok cl hcl).nodup, (a2.ok cl hcl).sign⟩
  · exact (hu _).mpr ⟨cl, hcl, List.mem_map.mpr ⟨l, hl, rfl⟩⟩
  · obtain ⟨cl, hcl, hv⟩ := (hu v).mp hv
    obtain ⟨l, hl, rfl⟩ := List.mem_map.mp hv
    exact (a2.ok cl hcl).lt l hl

theorem generate_formula (hk : 1 ≤ k) (hsol : sol.length = n) (hf : ∀ c < m, first c < n) (hp : ∀ c < m, ∀ j < k - 1, pick c j < n - 1 - j)
    (ho : ∀ l, (order l).Perm l) :
    ∃ t, generate n m k order sol first pick sign = some t ∧ KFormula n k t.clauses t.used t.conns ∧ (m ≠ 0 → t.clauses ≠ []) := by
  obtain ⟨t, h1, -, h3, -, h5, h6, h7, -, -, -, h11⟩ := C29_generated (sign := sign) hk hsol hf hp ho
  exact ⟨t, h1, ⟨fun cl hcl => ⟨(h3 cl hcl).1, (h3 cl hcl).2.1, fun l hl => ((h3 cl hcl).2.2 l hl).2⟩, h5, h6, h7⟩, h11⟩

variable {t : KsatTables} (h : KFormula n k t.clauses t.used t.conns) (flag : Bool) (alpha : ℚ) (w : ℕ → ℚ)
include h

/-- The tables of a formula as the tests use them. -/
theorem ksatTables_ready :
    let inp := pyKsatInputs flag alpha (ksatObject n k t (listOf n (fun v => fin (w v))))
    ClauseTables inp.numConstraints inp.k inp.numVars inp.conx inp.conxType ∧
      ConnectionsOk inp.numConstraints inp.k inp.numVars inp.conx inp.used inp.conns ∧ inp.cost.Is inp.numVars w ∧
      ∀ c < t.clauses.length, clauseVars k (inp.conx.data c) = varsOf t.clauses c := by
  intro inp
  have e1 : inp.conx = ⟨t.clauses.length, k, litVar t⟩ := tableOfRows_map h Prod.fst
  have e2 : inp.conxType = ⟨t.clauses.length, k, litSign t⟩ := tableOfRows_map h Prod.snd
  refine ⟨by rw [e1, e2]; exact clause_tables h, by rw [e1]; exact connections_ok h, ⟨listOf_length, fun v hv => listOf_getD hv⟩, fun c hc => ?_⟩
  rw [e1]
  exact clauseVars_eq h hc

theorem ksatStart_ready : ∃ V x, ksatStart (ksatObject n k t (listOf n (fun v => fin (w v)))) = some V ∧ V.Is t.clauses.length n x := by
  obtain ⟨V, v1, v2, v3, v4⟩ := ksatStart_spec (used := t.used) (conns := t.conns.map (List.map Prod.fst)) (ty := litSign t)
    (w := fun v => fin (w v)) (C := t.clauses.length) (k := k) (n := n) (cx := litVar t) (fun c hc s hs => lit_lt h hc hs)
  refine ⟨V, fun c v => if ∃ s < k, litVar t c s = v then w v else 0, by rw [object_eq h]; exact v1, v2, v3, fun c hc v hv => ?_⟩
  rw [v4 c hc v hv]
  show _ = fin (if ∃ s < k, litVar t c s = v then w v else 0)
  split <;> rfl

end

/-! ## TSP -/

section
variable {sym : Bool} {n : ℕ} {r : ℕ → ℕ → ℚ}

theorem utEdges_spec (hr : ∀ i j, r i j ≠ 0) :
    AllEdges n (utEdges sym n (fun i j => fin (r i j))) ∧ (utEdges sym n (fun i j => fin (r i j))).length = n * n - n := by
  have := (C34_complete sym n hr).1
  exact ⟨this, allEdges_length this⟩

theorem utEdgeMessages_is (hr : ∀ i j, r i j ≠ 0) (q : ℕ → ℕ → ℚ) :
    ∃ x, (utEdgeMessages n (utEdges sym n (fun i j => fin (r i j))) (fun e v => fin (q e v))).Is (n * n - n) n x ∧
      ∀ e < n * n - n, ∀ v < n, v ≠ src (utEdges sym n (fun i j => fin (r i j))) e → v ≠ dst (utEdges sym n (fun i j => fin (r i j))) e → x e v = 0 := by
  obtain ⟨-, hl⟩ := utEdges_spec (sym := sym) (n := n) hr
  set edges := utEdges sym n (fun i j => fin (r i j))
  refine ⟨fun e v => if v ≠ (edges.getD e (0, 0)).1 ∧ v ≠ (edges.getD e (0, 0)).2 then 0 else q e v, ⟨rfl, rfl, fun e he v hv => ?_⟩,
    fun e _ v _ h1 h2 => if_pos ⟨h1, h2⟩⟩
  have he' : e < edges.length := by omega
  simp only [utEdgeMessages, he', true_and]
  split <;> rfl

theorem utCutMessages_is (n : ℕ) (cuts : List (List ℕ)) (y : ℕ → ℕ → ℚ) :
    ∃ s, (utCutMessages n cuts (fun i e => fin (y i e))).Is cuts.length (n * n - n) s := by
  refine ⟨fun i e => if (cuts.getD i []).contains e then y i e else 0, rfl, rfl, fun i _ e _ => ?_⟩
  simp only [utCutMessages]
  split <;> rfl

/-- The cost tables of a drawn matrix. -/
theorem utTables_is (sym : Bool) (hr : ∀ i j, r i j ≠ 0) :
    ∃ costs table c c2, tspTables n (costMatrix sym n (fun i j => fin (r i j))) (utEdges sym n (fun i j => fin (r i j))) = some (costs, table) ∧
      costs.Is (n * n - n) c ∧ table.Is (n * n - n) n c2 ∧
      ∀ e < n * n - n, ∀ v < n, v ≠ src (utEdges sym n (fun i j => fin (r i j))) e → v ≠ dst (utEdges sym n (fun i j => fin (r i j))) e → c2 e v = 0 := by
  obtain ⟨hall, hl⟩ := utEdges_spec (sym := sym) (n := n) hr
  obtain ⟨C, hC, -⟩ := C34_matrix sym n r
  set edges := utEdges sym n (fun i j => fin (r i j))
  obtain ⟨costs, table, t1, t2, t3, -, t4, t5, t6, -⟩ := tspTables_spec hC.1 hC.2.1 hall.2.1 hl.le
  rw [hl] at t3 t6
  have hlt : ∀ e < n * n - n, src edges e < n ∧ dst edges e < n := fun e he => src_dst_lt hall.2.1 (by omega)
  refine ⟨costs, table, fun e => C (src edges e) (dst edges e), fun e v => if v = src edges e ∨ v = dst edges e then C (src edges e) (dst edges e) else 0, t1,
    ⟨t2, fun e he => ?_⟩, ⟨t4, t5, fun e he v hv => ?_⟩, fun e _ v _ h1 h2 => if_neg (by tauto)⟩
  · rw [t3 e he]; exact hC.2.2 _ (hlt e he).1 _ (hlt e he).2
  · rw [t6 e he v hv]
    show _ = fin (if v = src edges e ∨ v = dst edges e then C (src edges e) (dst edges e) else 0)
    split_ifs
    · exact hC.2.2 _ (hlt e he).1 _ (hlt e he).2
    · rfl

end

end Verif.Proofs
