import Verif.Proofs.PyTspThin
import Verif.Proofs.PyTspLoops
import Verif.Proofs.TspTotal

/-! # Decisions and control flow of the pure Python TSP solver follow the C++ solver -/

namespace Verif.Proofs
open Verif Num Model Spec

theorem rotateBack_append (d : List ℕ) (v : ℕ) : rotateBack (d ++ [v]) = v :: d := by
  simp [rotateBack, List.getLastD_eq_getLast?]

theorem mem_rotateBack {l : List ℕ} (hl : l ≠ []) {x : ℕ} : x ∈ rotateBack l ↔ x ∈ l := by
  obtain ⟨d, v, rfl⟩ : ∃ d v, l = d ++ [v] := ⟨l.dropLast, l.getLast hl, (List.dropLast_append_getLast hl).symm⟩
  rw [rotateBack_append]; simp [or_comm]

theorem length_rotateBack {l : List ℕ} (hl : l ≠ []) : (rotateBack l).length = l.length := by
  obtain ⟨d, v, rfl⟩ : ∃ d v, l = d ++ [v] := ⟨l.dropLast, l.getLast hl, (List.dropLast_append_getLast hl).symm⟩
  rw [rotateBack_append]; simp

theorem isCycle_ne {E : ℕ → ℕ → Prop} {l : List ℕ} (h : IsCycle E l) : l ≠ [] := by
  obtain ⟨u, v, hp, -⟩ := h; exact hp.ne_nil

/-- The steps of a rotated cycle are steps of the relation. -/
theorem pySteps_rotateBack {E : ℕ → ℕ → Prop} {l : List ℕ} (h : IsCycle E l) : ∀ p ∈ pySteps (rotateBack l), E p.1 p.2 := by
  obtain ⟨u, v, ⟨h1, h2, h3, -⟩, hE⟩ := h
  have hl : l ≠ [] := by rintro rfl; simp at h1
  obtain ⟨d, v', rfl⟩ : ∃ d v, l = d ++ [v] := ⟨l.dropLast, l.getLast hl, (List.dropLast_append_getLast hl).symm⟩
  obtain rfl : v' = v := by simpa using h2
  rw [rotateBack_append]
  have hchain : (v' :: d).IsChain E := by
    cases d with
    | nil => simp
    | cons a t =>
      obtain rfl : a = u := by simpa using h1
      refine List.isChain_cons_cons.mpr ⟨hE, ?_⟩
      exact (List.isChain_append.mp h3).1
  have hlast : E ((v' :: d).getLastD 0) v' := by
    cases d using List.reverseRecOn with
    | nil =>
      obtain rfl : v' = u := by simpa using h1
      simpa using hE
    | append_singleton t z =>
      have := (List.isChain_append.mp h3).2.2 z (by simp) v' (by simp)
      rw [← List.cons_append, List.getLastD_eq_getLast?, List.getLast?_append]
      simpa using this
  intro p hp
  unfold pySteps at hp
  rcases List.mem_append.mp hp with hp | hp
  · obtain ⟨i, hi, rfl⟩ := List.mem_iff_getElem.mp hp
    rw [List.getElem_zip]
    rw [List.length_zip, List.length_tail] at hi
    have := List.isChain_iff_getElem.mp hchain i (by omega)
    simpa using this
  · rw [List.mem_singleton.mp hp]; exact hlast

theorem pyStepIndices_some {edges sel : List (ℕ × ℕ)} (hsub : ∀ c ∈ sel, c ∈ edges) {l : List ℕ} (h : IsCycle (Joined sel) l) :
    ∃ idx, pyStepIndices edges (rotateBack l) = some idx := by
  unfold pyStepIndices
  refine ⟨_, mapM_some (g := fun p => edges.findIdx (fun c => c == p)) fun p hp => ?_⟩
  have hp : p ∈ edges := hsub p (pySteps_rotateBack h p (List.mem_filter.mp hp).1)
  rw [List.findIdx?_eq_some_iff_findIdx_eq]
  exact ⟨List.findIdx_lt_length_of_exists ⟨p, hp, by simp⟩, rfl⟩

theorem mem_pyPairs {l : List ℕ} {c : ℕ × ℕ} (hne : c.1 ≠ c.2) : c ∈ pyPairs l ↔ c.1 ∈ l ∧ c.2 ∈ l := by
  unfold pyPairs
  simp only [List.mem_flatMap, List.mem_range, List.mem_map, List.mem_filter, decide_eq_true_eq]
  constructor
  · rintro ⟨i, hi, j, ⟨hj, -⟩, rfl⟩
    rw [List.getD_eq_getElem _ _ hi, List.getD_eq_getElem _ _ hj]
    exact ⟨List.getElem_mem hi, List.getElem_mem hj⟩
  · rintro ⟨h1, h2⟩
    obtain ⟨i, hi, e1⟩ := List.mem_iff_getElem.mp h1
    obtain ⟨j, hj, e2⟩ := List.mem_iff_getElem.mp h2
    refine ⟨i, hi, j, ⟨hj, ?_⟩, ?_⟩
    · rintro rfl; exact hne (e1.symm.trans e2)
    · rw [List.getD_eq_getElem _ _ hi, List.getD_eq_getElem _ _ hj, e1, e2]

theorem pyDelta_eq {n : ℕ} {edges : List (ℕ × ℕ)} (hok : EdgesOk n edges) {l : List ℕ} (hl : l ≠ []) :
    pyDelta edges (rotateBack l) = leavingEdges edges l := by
  unfold pyDelta leavingEdges
  refine List.filter_congr fun i hi => ?_
  have hi := List.mem_range.mp hi
  rw [List.getElem?_eq_getElem hi]
  have hne : edges[i].1 ≠ edges[i].2 := (hok _ (List.getElem_mem hi)).2.2
  simp only [mem_pyPairs hne, mem_rotateBack hl]
  by_cases h1 : edges[i].1 ∈ l <;> by_cases h2 : edges[i].2 ∈ l <;> simp [h1, h2]

/-- The cuts of the two programs. -/
structure SameCuts (deltas pd : List (List ℕ)) (σ : ℕ → ℕ) : Prop extends Thinned deltas pd σ where
  filter : pd.filter (fun d => d ≠ []) = deltas

theorem sameCuts_step {deltas pd : List (List ℕ)} {σ : ℕ → ℕ} (h : SameCuts deltas pd σ) (d : List ℕ) :
    ∃ σ', SameCuts (addDelta d deltas) (if d ∈ pd then pd else pd ++ [d]) σ' ∧ ∀ k < deltas.length, σ' k = σ k := by
  rw [addDelta_eq]
  by_cases hd : d = []
  · subst hd
    rw [if_pos (Or.inl rfl)]
    refine ⟨σ, ?_, fun _ _ => rfl⟩
    split
    · exact h
    · exact ⟨h.toThinned.pushEmpty, by rw [List.filter_append, h.filter]; simp⟩
  · have hm := h.toThinned.mem hd
    by_cases hin : d ∈ deltas
    · rw [if_pos (Or.inr hin), if_pos (hm.mpr hin)]
      exact ⟨σ, h, fun _ _ => rfl⟩
    · rw [if_neg (by simp [hd, hin]), if_neg (fun hh => hin (hm.mp hh))]
      refine ⟨_, ⟨h.toThinned.push d, by rw [List.filter_append, h.filter]; simp [hd]⟩, fun k hk => if_neg (by omega)⟩

theorem sameCuts_fold {edges sel : List (ℕ × ℕ)} {n : ℕ} (hok : EdgesOk n edges) (hsub : ∀ c ∈ sel, c ∈ edges)
    {loops : List (List ℕ)} (hl : ∀ l ∈ loops, IsCycle (Joined sel) l) : ∀ {deltas pd : List (List ℕ)} {σ : ℕ → ℕ}, SameCuts deltas pd σ →
    ∃ pd' σ', loopList (loops.map rotateBack) (pySubtour edges) pd = some pd' ∧
      SameCuts (loops.foldl (fun ds l => addDelta (leavingEdges edges l) ds) deltas) pd' σ' ∧ pd <+: pd' ∧
      (∀ k < deltas.length, σ' k = σ k) ∧ (loops ≠ [] → pd' ≠ []) := by
  induction loops with
  | nil => intro deltas pd σ h; exact ⟨pd, σ, rfl, h, List.prefix_rfl, fun _ _ => rfl, fun hh => absurd rfl hh⟩
  | cons l loops ih =>
    intro deltas pd σ h
    have hc := hl l List.mem_cons_self
    obtain ⟨idx, hidx⟩ := pyStepIndices_some hsub hc
    obtain ⟨σ1, h1, h2⟩ := sameCuts_step h (leavingEdges edges l)
    obtain ⟨pd', σ', i1, i2, i3, i4, i5⟩ := ih (fun l hl' => hl l (List.mem_cons_of_mem _ hl')) h1
    refine ⟨pd', σ', ?_, i2, List.IsPrefix.trans ?_ i3, fun k hk => ?_, fun _ hh => ?_⟩
    · rw [List.map_cons, loopList, pySubtour, hidx, pyDelta_eq hok (isCycle_ne hc)]
      simpa using i1
    · split
      · exact List.prefix_rfl
      · exact List.prefix_append _ _
    · rw [i4 k (lt_of_lt_of_le hk ?_), h2 k hk]
      rw [addDelta_eq]; split <;> simp
    · subst hh
      have := List.prefix_nil.mp i3
      split at this
      · rename_i hm; rw [this] at hm; simp at hm
      · simp at this

/-- What a round leaves in the two programs. -/
structure SameRound (E : ℕ) (st : TspState) (ps : PyTspSolver) : Prop where
  selected : ps.selected = st.selected
  cost : ps.cost = st.cost
  intr : SameArr E ps.intr st.intr
  loops : ps.loops = st.an.subtourPaths.map rotateBack
  cuts : ps.deltas.filter (fun d => d ≠ []) = st.an.deltas
  flags : ps.satisfied = st.an.tourFlag ∧ ps.tourFlag = st.an.tourFlag ∧ st.an.satisfied = st.an.tourFlag
  tour : (st.an.tourFlag = false ∧ ps.tour = none) ∨ (st.an.tourFlag = true ∧ ∃ l x y, l.head? = some x ∧ l.getLast? = some y ∧
    st.an.tour = l ++ [x] ∧ ps.tour = some (y :: l))

theorem pyAnalyse_same {n mc : ℕ} {edges sel : List (ℕ × ℕ)} (hok : EdgesOk n edges) (hsub : ∀ c ∈ sel, c ∈ edges)
    {s s' : TspAnalysis} {σ : ℕ → ℕ} {ps : PyTspSolver} (hps : ps.selected = sel) (hf : s.tourFlag = false ∧ s.satisfied = false)
    (hpf : ps.tourFlag = false ∧ ps.satisfied = false ∧ ps.tour = none) (hc : SameCuts s.deltas ps.deltas σ)
    (ha : analyse n mc edges sel ((buildGraph sel).map Prod.fst) s = some s') :
    ∃ pd sat fl t σ', pyAnalyse n edges ps = some { ps with
        loops := s'.subtourPaths.map rotateBack, deltas := pd, satisfied := sat, tourFlag := fl, tour := t } ∧
      SameCuts s'.deltas pd σ' ∧ ps.deltas <+: pd ∧ (∀ k < s.deltas.length, σ' k = σ k) ∧
      (sat = s'.tourFlag ∧ fl = s'.tourFlag ∧ s'.satisfied = s'.tourFlag) ∧
      ((s'.tourFlag = false ∧ t = none) ∨ (s'.tourFlag = true ∧ ∃ l x y, l.head? = some x ∧ l.getLast? = some y ∧
        s'.tour = l ++ [x] ∧ t = some (y :: l))) ∧
      (s'.subtourPaths ≠ [] → s'.tourFlag = false → pd ≠ []) ∧ (s'.subtourPaths = [] → pd = ps.deltas) := by
  have hord : StartOrder sel ((buildGraph sel).map Prod.fst) := ⟨buildGraph_keys_nodup sel, fun u => mem_keys⟩
  obtain ⟨loops, l1, l2⟩ := pyGetClosedLoops_eq sel
  obtain ⟨loops', k1, k2, -⟩ := getClosedLoops_spec hord
  rw [l1] at k1
  obtain rfl := Option.some.inj k1
  simp only [analyse, l1, Option.bind_eq_bind, Option.bind_some, Option.some.injEq] at ha
  subst ha
  simp only [pyAnalyse, hps, l2, Option.bind_eq_bind, Option.bind_some]
  match loops, k2 with
  | [], k2 =>
    refine ⟨ps.deltas, false, false, none, σ, ?_, ?_⟩
    · simp only [List.map_nil]
      have : ((analyseLoops n mc edges [] s).subtourPaths.map rotateBack) = [] := by
        simp only [analyseLoops]; split <;> rfl
      rw [this]
      congr 1
      obtain ⟨a, b, d, e, f, g, h, i, j⟩ := ps
      simp only at hpf
      simp [hpf.1, hpf.2.1, hpf.2.2]
    · have hd : (analyseLoops n mc edges [] s).deltas = s.deltas := by simp only [analyseLoops]; split <;> rfl
      have ht : (analyseLoops n mc edges [] s).tourFlag = false := by simp only [analyseLoops]; split <;> exact hf.1
      have hs : (analyseLoops n mc edges [] s).satisfied = false := by simp only [analyseLoops]; split <;> exact hf.2
      have hp : (analyseLoops n mc edges [] s).subtourPaths = [] := by simp only [analyseLoops]; split <;> rfl
      rw [hd, hp]
      exact ⟨hc, List.prefix_rfl, fun _ _ => rfl, ⟨ht.symm, ht.symm, hs.trans ht.symm⟩, Or.inl ⟨ht, rfl⟩, fun hh => absurd rfl hh,
        fun _ => rfl⟩
  | l :: rest, k2 =>
    have hcyc := k2 l List.mem_cons_self
    have hne := isCycle_ne hcyc
    simp only [List.map_cons, List.map_eq_nil_iff, length_rotateBack hne]
    by_cases hcase : rest = [] ∧ l.length = n
    · obtain ⟨rfl, hln⟩ := hcase
      obtain ⟨d, v, rfl⟩ : ∃ d v, l = d ++ [v] := ⟨l.dropLast, l.getLast hne, (List.dropLast_append_getLast hne).symm⟩
      refine ⟨ps.deltas, true, true, some (v :: d ++ [v]), σ, ?_, ?_⟩
      · simp only [hln, and_self, if_true, rotateBack_append, List.getElem?_cons_zero, Option.bind_some, analyseLoops, List.map_cons, List.map_nil]
      · simp only [analyseLoops, hln, and_self, if_true]
        refine ⟨hc, List.prefix_rfl, by simp, by simp, Or.inr ⟨by trivial, d ++ [v], ((d ++ [v]).headD 0), v, ?_, by simp, ?_, by simp⟩,
          fun _ hh => absurd hh (by simp), fun hh => absurd hh (by simp)⟩
        · cases d <;> simp
        · cases d <;> simp
    · rw [if_neg hcase]
      obtain ⟨pd', σ', i1, i2, i3, i4, i5⟩ := sameCuts_fold hok hsub k2 hc
      rw [List.map_cons] at i1
      have e : analyseLoops n mc edges (l :: rest) s = { s with
          closedPathsSize := (l :: rest).map List.length, subtourPaths := l :: rest, noConsCount := 0,
          deltas := (l :: rest).foldl (fun ds l => addDelta (leavingEdges edges l) ds) s.deltas } := by
        simp only [analyseLoops, if_neg hcase, analyseLoops_foldl, List.nil_append]
      rw [e]
      refine ⟨pd', false, false, none, σ', ?_, i2, i3, i4, ⟨?_, ?_, ?_⟩, Or.inl ⟨hf.1, rfl⟩, fun _ _ => i5 (by simp), fun hh => absurd hh (by simp)⟩
      · simp only [i1, Option.bind_some, List.map_cons]
        congr 1
        obtain ⟨a, b, d, e, f, g, h, i, j⟩ := ps
        simp only at hpf
        simp [hpf.2.2]
      · exact hf.1.symm
      · exact hf.1.symm
      · exact hf.2.trans hf.1.symm

theorem gt_fin_le {b : ℚ} {thr : Num} (h : thr ≠ nan) : gt (fin b) thr = false ↔ (gt thr (fin b) = true ∨ fin b = thr) := by
  rw [← Bool.not_eq_true, gt_iff_above, gt_iff_above]
  cases thr with
  | nan => exact absurd rfl h
  | ninf => simp [Above]
  | pinf => simp [Above]
  | fin t =>
    simp only [Above, Num.fin.injEq, not_lt]
    exact le_iff_lt_or_eq

theorem pyHardDecision_same {E : ℕ} {thr : Num} (ht : thr ≠ nan) {intr pintr cost : Arr Num} {b w : ℕ → ℚ} {edges : List (ℕ × ℕ)}
    (hi : intr.Is E b) (hp : SameArr E pintr intr) (hE : edges.length = E) (hc : cost.Is E w) :
    pyHardDecision thr pintr edges cost = hardDecision E thr intr edges cost := by
  rw [hardDecision_eq hi.1 hE hc.1]
  unfold pyHardDecision
  rw [if_pos ⟨by rw [hE, hp.1], by rw [hc.1, hp.1]⟩]
  have hidx : (List.range pintr.size).filter (fun e => (if gt (pintr.data e) thr then (0 : Num) else
      if gt thr (pintr.data e) ∨ (pintr.data e = thr ∧ thr ≠ nan) then fin 1 else pintr.data e) = fin 1) = chosen E thr intr := by
    rw [hp.1]
    unfold chosen
    refine List.filter_congr fun e he => ?_
    have he := List.mem_range.mp he
    rw [hp.2.2 e he, hi.2 e he]
    have hkey := gt_fin_le (b := b e) ht
    by_cases hg : gt (fin (b e)) thr = true
    · simp only [hg, if_true, Bool.not_true]
      exact decide_eq_false (by rw [zero_def]; simp)
    · have hg' : gt (fin (b e)) thr = false := by simpa using hg
      have := hkey.mp hg'
      simp only [hg', Bool.false_eq_true, if_false, Bool.not_false]
      rw [if_pos (by rcases this with h | h <;> [exact Or.inl h; exact Or.inr ⟨h, ht⟩])]
      simp
  simp only [hidx]
  have hlt : ∀ e ∈ chosen E thr intr, e < E := fun e he => List.mem_range.mp (List.mem_filter.mp he).1
  congr 2
  rw [zero_def, foldl_fin hc hlt, zero_add]
  rw [show (chosen E thr intr).map cost.data = ((chosen E thr intr).map w).map fin from ?_, npSum_fin]
  rw [List.map_map]
  exact List.map_congr_left fun e he => hc.2 e (hlt e he)

section
variable {inp : TspInputs} {w : ℕ → ℚ} {cc C : ℕ → ℕ → ℚ} {K : ℕ} {reset augmentation : Bool} {thr : Num} {maxCount : ℕ} {maxAugm : ℤ}

/-- A hash map that is visited in the order of insertion. -/
def insertionOrder : ℕ → List (ℕ × ℕ) → List ℕ := fun _ sel => (buildGraph sel).map Prod.fst

theorem insertionOrder_ok (k : ℕ) (sel : List (ℕ × ℕ)) : StartOrder sel (insertionOrder k sel) :=
  ⟨buildGraph_keys_nodup sel, fun _ => mem_keys⟩

/-- Rows for new cuts. -/
theorem thin_add {deltas deltas' pd pd' : List (List ℕ)} {σ σ' : ℕ → ℕ} {m m' : TspMsgs} {p p' : PyTspState}
    (ht : TspThin inp deltas pd σ m p) (hc : Thinned deltas pd σ) (hc' : Thinned deltas' pd' σ') (hσ : ∀ k < deltas.length, σ' k = σ k)
    (hpre : pd <+: pd') (hne : ∀ d ∈ deltas', d ≠ []) (hm : m'.e2d = m.e2d) (hp : p'.e2d = p.e2d) (hrows : p'.s2e.rows = pd'.length)
    (hcols : p'.s2e.cols = inp.numEdges) (hold : ∀ i < pd.length, ∀ e, p'.s2e.data i e = p.s2e.data i e)
    (hnew : ∀ i, pd.length ≤ i → i < pd'.length → ∀ e, p'.s2e.data i e = 0)
    (hmold : ∀ k < deltas.length, ∀ e, m'.s2e.data k e = m.s2e.data k e)
    (hmnew : ∀ k, deltas.length ≤ k → k < deltas'.length → ∀ e, m'.s2e.data k e = 0) : TspThin inp deltas' pd' σ' m' p' := by
  obtain ⟨more, rfl⟩ := hpre
  refine ⟨by rw [hp]; exact ht.e2d, fun e he v hv => by rw [hp, hm]; exact ht.ends e he v hv, hrows, hcols, fun k hk e he => ?_, fun i hi h0 e he => ?_⟩
  · by_cases hk' : k < deltas.length
    · rw [hσ k hk', hold _ (hc.lt k hk'), hmold k hk', ht.s2e k hk' e he]
    · rw [hmnew k (by omega) hk, hnew _ ?_ (hc'.lt k hk)]
      by_contra hlt
      have hlt : σ' k < pd.length := by omega
      have h1 := hc'.get k hk
      rw [List.getD_append _ _ _ _ hlt] at h1
      rcases hc.hit _ hlt with h0 | ⟨j, hj, hjk⟩
      · rw [h0, List.getD_eq_getElem _ _ hk] at h1
        exact hne _ (List.getElem_mem hk) h1.symm
      · rw [← hσ j hj] at hjk
        have := hc'.lt k hk
        by_cases hj' : j < deltas'.length
        · have := hc'.inj j hj' k hk hjk; omega
        · omega
  · by_cases hi' : i < pd.length
    · rw [List.getD_append _ _ _ _ hi'] at h0
      rw [hold i hi', ht.empty i hi' h0 e he]
    · exact hnew i (by omega) hi e

theorem selected_mem {E : ℕ} {thr total : Num} {intr cost : Arr Num} {edges sel : List (ℕ × ℕ)} (hi : intr.size = E)
    (hE : edges.length = E) (hc : cost.size = E) (h : hardDecision E thr intr edges cost = some (sel, total)) : ∀ c ∈ sel, c ∈ edges := by
  rw [hardDecision_eq hi hE hc] at h
  simp only [Option.some.injEq, Prod.mk.injEq] at h
  intro c hcm
  rw [← h.1] at hcm
  obtain ⟨e, he, rfl⟩ := List.mem_map.mp hcm
  have he : e < edges.length := by rw [hE]; exact List.mem_range.mp (List.mem_filter.mp he).1
  rw [List.getD_eq_getElem _ _ he]; exact List.getElem_mem he

/-- The first round. -/
theorem first_same (h : TspOk inp w cc) (hfa : inp.flag = true → inp.alpha ≠ 0) (hn : 3 ≤ inp.numNodes)
    (hcomp : Complete inp.numNodes inp.edges) (hthr : thr ≠ nan) {e2d : Mat Num} {x0 : ℕ → ℕ → ℚ} (he : e2d.Is inp.numEdges inp.numNodes x0)
    {st : TspState} (hst : iterateRelaxed (tspSetup inp (K + 1) reset augmentation thr maxCount maxAugm insertionOrder) (tspStart inp e2d) = some st) :
    ∃ ps, pyTspFirst ⟨inp, K + 1, reset, augmentation, thr⟩ ⟨e2d, none, none, ⟨0, inp.numEdges, fun _ _ => 0⟩, none⟩ = some ps ∧
      SameRound inp.numEdges st ps ∧ SolverInv inp (addFirstRows st) ∧
      (st.an.tourFlag = false → augmentation = true →
        ∃ σ, SameCuts st.an.deltas ps.deltas σ ∧ TspThin inp st.an.deltas ps.deltas σ (addFirstRows st).msgs ps.msgs) ∧
      (st.an.subtourPaths ≠ [] → st.an.tourFlag = false → ps.deltas ≠ []) ∧ (st.an.subtourPaths = [] → ps.deltas = []) := by
  obtain ⟨m, ext, intr, sel, total, an, f1, f2, f3, rfl⟩ := iterateRelaxed_facts hst
  obtain ⟨m', p', ext', intr', pintr, g1, g2, g3, g4, g5⟩ := pyTspRelaxed_agree h hfa (tspInit_ok he)
    (p := ⟨e2d, none, none, ⟨0, inp.numEdges, fun _ _ => 0⟩, none⟩)
    ⟨⟨_, he⟩, fun _ _ _ _ => rfl, rfl, rfl, rfl, rfl, fun k hk => absurd hk (Nat.not_lt_zero k)⟩ K
    (o := (Arr.fill inp.numEdges 0, Arr.fill inp.numEdges 0)) rfl rfl
  have f1' : tspRelaxed inp (K + 1) (tspInit inp e2d) (Arr.fill inp.numEdges 0, Arr.fill inp.numEdges 0) = some (m, ext, intr) := f1
  rw [f1'] at g1
  simp only [Option.some.injEq, Prod.mk.injEq] at g1
  obtain ⟨rfl, rfl, rfl⟩ := g1
  obtain ⟨_, _, _, _, -, hrun⟩ := tspRelaxed_run h (tspInit_ok he)
  obtain ⟨_, _, _, r1, -, -, r4, r5, -⟩ := hrun (K + 1) (Arr.fill inp.numEdges 0, Arr.fill inp.numEdges 0) rfl rfl
  rw [f1'] at r1
  simp only [Option.some.injEq, Prod.mk.injEq] at r1
  obtain ⟨rfl, rfl, rfl⟩ := r1
  have f2' : hardDecision inp.numEdges thr intr inp.edges inp.cost = some (sel, total) := f2
  have hsub := selected_mem r5.1 h.len h.cost.1 f2'
  have hp := pyHardDecision_same hthr r5 g3 h.len h.cost
  rw [f2'] at hp
  have f3' : analyse inp.numNodes maxCount inp.edges sel ((buildGraph sel).map Prod.fst) {} = some an := f3
  obtain ⟨pd, sat, fl, t, σ, a1, a2, -, -, a5, a6, a7, a8⟩ := pyAnalyse_same (σ := id)
    (ps := { msgs := p', intr := pintr, selected := sel, cost := total }) h.edges hsub rfl ⟨rfl, rfl⟩ ⟨rfl, rfl, rfl⟩
    ⟨thinned_nil, rfl⟩ f3'
  have hcuts := (cutsOk_analyse h hn hcomp (insertionOrder_ok 0 sel) f3' (fun l hl => by simp at hl)).2
  have hpy : ∃ ps, pyTspFirst ⟨inp, K + 1, reset, augmentation, thr⟩ ⟨e2d, none, none, ⟨0, inp.numEdges, fun _ _ => 0⟩, none⟩ = some ps ∧
      ps.selected = sel ∧ ps.cost = total ∧ ps.intr = pintr ∧ ps.loops = an.subtourPaths.map rotateBack ∧ ps.deltas = pd ∧ ps.satisfied = sat ∧
      ps.tourFlag = fl ∧ ps.tour = t ∧ ps.msgs.e2d = p'.e2d ∧ (sat = false → augmentation = true → ps.msgs.s2e = Mat.fill pd.length inp.numEdges 0) := by
    simp only [pyTspFirst, g2, pyDecide, hp, Option.bind_eq_bind, Option.bind_some, a1]
    split
    · refine ⟨_, rfl, rfl, rfl, rfl, rfl, rfl, rfl, rfl, rfl, rfl, fun _ _ => rfl⟩
    · rename_i hcond
      refine ⟨_, rfl, rfl, rfl, rfl, rfl, rfl, rfl, rfl, rfl, rfl, fun h1 h2 => ?_⟩
      simp [h1, h2] at hcond
  obtain ⟨ps, q1, q2, q3, q4, q5, q6, q7, q8, q9, q10, q11⟩ := hpy
  have hmsgs : TspMsgsOk inp an.deltas (addFirstRows ({ tspStart inp e2d with msgs := m, ext := ext, intr := intr, cost := total, an := an, selected := sel } : TspState)).msgs := by
    unfold addFirstRows
    by_cases hd : an.deltas.length > 0
    · rw [if_pos hd]
      have := tspAddCuts_ok g4 an.deltas
      rwa [List.nil_append] at this
    · rw [if_neg hd]
      have : an.deltas = [] := List.length_eq_zero_iff.mp (by omega)
      rw [this]; exact g4
  have hfr : ∀ s : TspState, (addFirstRows s).an = s.an ∧ (addFirstRows s).ext = s.ext ∧ (addFirstRows s).intr = s.intr ∧
      (addFirstRows s).msgs.e2d = s.msgs.e2d := fun s => by unfold addFirstRows; split <;> exact ⟨rfl, rfl, rfl, rfl⟩
  refine ⟨ps, q1, ⟨q2, q3, by rw [q4]; exact g3, q5, by rw [q6]; exact a2.filter, by rw [q7, q8]; exact a5, by rw [q9]; exact a6⟩, ?_, ?_, ?_, ?_⟩
  · refine ⟨?_, ?_, ?_, ?_⟩
    · rw [(hfr _).1]; exact hmsgs
    · rw [(hfr _).1]; exact hcuts
    · rw [(hfr _).2.1]; exact r4.1
    · rw [(hfr _).2.2.1]; exact r5.1
  · intro ht haug
    simp only at ht
    have hs2e := q11 (by rw [a5.1]; exact ht) haug
    rw [q6]
    refine ⟨σ, a2, ⟨by rw [q10]; exact g5.e2d, fun e he v hv => ?_, by rw [hs2e]; rfl, by rw [hs2e]; rfl, fun k hk e he => ?_, fun i hi h0 e he => by rw [hs2e]; rfl⟩⟩
    · rw [q10, (hfr _).2.2.2]; exact g5.ends e he v hv
    · have hk : k < an.deltas.length := hk
      unfold addFirstRows
      rw [if_pos (by show an.deltas.length > 0; omega), hs2e]
      show (0 : Num) = if k < m.s2e.rows then m.s2e.data k e else 0
      rw [g4.s2e.1]; simp
  · rw [q6]; exact a7
  · rw [q6]; exact a8

/-- A further round. -/
theorem round_same (h : TspOk inp w cc) (hfa : inp.flag = true → inp.alpha ≠ 0) (hC : inp.costMatrix.Is inp.numNodes inp.numNodes C)
    (hn : 3 ≤ inp.numNodes) (hcomp : Complete inp.numNodes inp.edges) (hthr : thr ≠ nan) {st st1 : TspState} {ps : PyTspSolver}
    (hi : SolverInv inp st) (hs : SameRound inp.numEdges st ps) (htf : st.an.tourFlag = false)
    (hthin : ∃ σ, SameCuts st.an.deltas ps.deltas σ ∧ TspThin inp st.an.deltas ps.deltas σ st.msgs ps.msgs) (hne : ps.deltas ≠ [])
    (hst : iterateAugmented (tspSetup inp (K + 1) reset augmentation thr maxCount maxAugm insertionOrder) st = some st1) :
    ∃ ps1, pyTspRound ⟨inp, K + 1, reset, augmentation, thr⟩ ps = some ps1 ∧ SameRound inp.numEdges st1 ps1 ∧ ps1.deltas ≠ [] ∧
      ∀ st2, addMissingRows st1 = some st2 → SameRound inp.numEdges st2 ps1 ∧ SolverInv inp st2 ∧
        ∃ σ, SameCuts st2.an.deltas ps1.deltas σ ∧ TspThin inp st2.an.deltas ps1.deltas σ st2.msgs ps1.msgs := by
  obtain ⟨σ, hcut, hth⟩ := hthin
  obtain ⟨intr, f1, f2, f3, f4, -⟩ := iterateAugmented_facts hst
  have f1' : tspAugmented inp reset st.an.deltas (K + 1) st.msgs (st.ext, st.intr) = some (st1.msgs, st1.ext, intr) := f1
  obtain ⟨m', p', ext', intr', pintr, g1, g2, g3, g4, g5⟩ := pyTspAugmented_thin h hfa hi.cuts hcut.toThinned hne hC reset hi.msgs hth K
    (o := (st.ext, st.intr)) hi.ext hi.intr
  rw [f1'] at g1
  simp only [Option.some.injEq, Prod.mk.injEq] at g1
  obtain ⟨rfl, rfl, rfl⟩ := g1
  obtain ⟨_, _, _, _, -, hrun⟩ := tspAugmented_run h hi.cuts hC reset hi.msgs
  obtain ⟨_, _, _, r1, -, -, r4, r5, -⟩ := hrun (K + 1) (st.ext, st.intr) hi.ext hi.intr
  rw [f1'] at r1
  simp only [Option.some.injEq, Prod.mk.injEq] at r1
  obtain ⟨-, rfl, rfl⟩ := r1
  have f3' : hardDecision inp.numEdges thr intr inp.edges inp.cost = some (st1.selected, st1.cost) := f3
  have hsub := selected_mem r5.1 h.len h.cost.1 f3'
  have hp := pyHardDecision_same hthr r5 g3 h.len h.cost
  rw [f3'] at hp
  have f4' : analyse inp.numNodes maxCount inp.edges st1.selected ((buildGraph st1.selected).map Prod.fst) st.an = some st1.an := f4
  have hfl := hs.flags
  have htn : ps.tour = none := by
    rcases hs.tour with ⟨-, ht⟩ | ⟨ht, -⟩
    · exact ht
    · rw [htf] at ht; simp at ht
  obtain ⟨pd, sat, fl, t, σ', a1, a2, a3, a4, a5, a6, a7, a8⟩ := pyAnalyse_same (σ := σ)
    (ps := { ps with msgs := p', intr := pintr, selected := st1.selected, cost := st1.cost }) h.edges hsub rfl
    ⟨htf, hfl.2.2.trans htf⟩ ⟨hfl.2.1.trans htf, hfl.1.trans htf, htn⟩ hcut f4'
  have hcuts := (cutsOk_analyse h hn hcomp (insertionOrder_ok 0 st1.selected) f4' hi.cuts).2
  obtain ⟨x, hx⟩ := g5.e2d
  have hpd : pd ≠ [] := by
    rintro rfl
    exact hne (List.prefix_nil.mp a3)
  refine ⟨{ ps with
    msgs := pyTspAddCuts (pd.length - p'.s2e.rows) p', intr := pintr, selected := st1.selected, cost := st1.cost,
    loops := st1.an.subtourPaths.map rotateBack, deltas := pd, satisfied := sat, tourFlag := fl, tour := t },
    ?_, ⟨rfl, rfl, ?_, rfl, a2.filter, a5, a6⟩, hpd, ?_⟩
  · simp only [pyTspRound, g2, hp, Option.bind_eq_bind, Option.bind_some, anyNan_false hx.self, Bool.and_false, Bool.false_eq_true, if_false, a1]
  · rw [f2]; exact g3
  · intro st2 h2
    have hr := g4.s2e.1
    have hrows : st2.an = st1.an ∧ st2.selected = st1.selected ∧ st2.cost = st1.cost ∧ st2.intr = st1.intr ∧ st2.ext = st1.ext := by
      obtain ⟨-, m, rfl⟩ := addMissingRows_facts h2
      exact ⟨rfl, rfl, rfl, rfl, rfl⟩
    obtain ⟨e1, e2, e3, e4, e5⟩ := hrows
    obtain ⟨⟨more, hm⟩, -⟩ := cutsOk_analyse h hn hcomp (insertionOrder_ok 0 st1.selected) f4' hi.cuts
    have hlen : st1.an.deltas.length = st.an.deltas.length + more.length := by rw [hm, List.length_append]
    have hst2 : (st2.msgs = st1.msgs ∧ st1.an.deltas.length = st.an.deltas.length) ∨ st2.msgs = tspAddCuts more.length st1.msgs := by
      unfold addMissingRows at h2
      rw [hr, hlen] at h2
      split at h2
      · left
        rename_i hh
        simp only [Option.some.injEq] at h2; subst h2
        exact ⟨rfl, by omega⟩
      · rw [if_neg (by omega)] at h2
        right
        simp only [Option.some.injEq, Nat.add_sub_cancel_left] at h2; subst h2
        rfl
    have hmsg : TspMsgsOk inp st1.an.deltas st2.msgs := by
      rcases hst2 with ⟨hh, hl⟩ | hh
      · have : more = [] := List.length_eq_zero_iff.mp (by omega)
        rw [hh, hm, this, List.append_nil]; exact g4
      · rw [hh, hm]; exact tspAddCuts_ok g4 more
    refine ⟨⟨e2.symm, e3.symm, ?_, by rw [e1], by rw [e1]; exact a2.filter, by rw [e1]; exact a5, by rw [e1]; exact a6⟩,
      ⟨by rw [e1]; exact hmsg, by rw [e1]; exact hcuts, by rw [e5]; exact r4.1, by rw [e4, f2]; exact r5.1⟩, σ', by rw [e1]; exact a2, ?_⟩
    · rw [e4, f2]; exact g3
    · rw [e1]
      have hplen : ps.deltas.length ≤ pd.length := a3.length_le
      refine thin_add (m := st1.msgs) (p := p') g5 hcut.toThinned a2.toThinned a4 a3 (fun d hd => ?_) ?_ rfl ?_ g5.cols ?_ ?_ ?_ ?_
      · rintro rfl
        have := (hcuts _ hd).2.1
        simp at this
      · rcases hst2 with ⟨hh, -⟩ | hh <;> rw [hh]; rfl
      · show p'.s2e.rows + (pd.length - p'.s2e.rows) = pd.length
        rw [g5.rows]; omega
      · intro i hi e
        show (if i < p'.s2e.rows then p'.s2e.data i e else 0) = _
        rw [g5.rows, if_pos hi]
      · intro i hi _ e
        show (if i < p'.s2e.rows then p'.s2e.data i e else 0) = _
        rw [g5.rows, if_neg (by omega)]
      · intro k hk e
        rcases hst2 with ⟨hh, -⟩ | hh
        · rw [hh]
        · rw [hh]
          show (if k < st1.msgs.s2e.rows then st1.msgs.s2e.data k e else 0) = _
          rw [hr, if_pos hk]
      · intro k hk hk' e
        rcases hst2 with ⟨hh, hl⟩ | hh
        · omega
        · rw [hh]
          show (if k < st1.msgs.s2e.rows then st1.msgs.s2e.data k e else 0) = _
          rw [hr, if_neg (by omega)]

end

end Verif.Proofs
