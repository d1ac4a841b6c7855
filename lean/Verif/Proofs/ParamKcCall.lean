import Verif.Proofs.KcStable
import Verif.Proofs.ParamKc
import Verif.Proofs.ParamKsatCall

/-! A run of the assignment solver with rounding. -/

namespace Verif.Proofs
open Verif Num Filter Topology Model Spec Properties

variable {ι : Type} {l : Filter ι} {r : ι → ℚ → Num} {R : Num → (ι → Num) → Prop}

section
variable (hR : Calc l r R) {L M : List Num} {L' M' : ι → List Num}
include hR

theorem RelL.slice (h : RelL l R L L') (n : ℕ) : RelO l (RelL l R) (Model.slice L 0 n) (fun i => Model.slice (L' i) 0 n) := by
  have hsl : ∀ L : List Num, Model.slice L 0 n = if n ≤ L.length then some (L.take n) else none := by
    intro L
    simp [Model.slice]
  simp only [hsl]
  by_cases hn : n ≤ L.length
  · rw [if_pos hn]
    refine RelO.congr (RelO.some (b := fun i => (L' i).take n) ⟨?_, fun k hk => ?_⟩) ?_
    · filter_upwards [h.length] with i e
      simp [e]
    · have hk : k < n ∧ k < L.length := by simpa using hk
      have := h.data k hk.2
      simp only [List.getD_eq_getElem?_getD, List.getElem?_take, if_pos hk.1] at this ⊢
      exact this
    · filter_upwards [h.length] with i e
      rw [if_pos (by rw [e]; exact hn)]
  · rw [if_neg hn]; exact RelO.none

theorem RelL.copyOut (h : RelL l R L L') (N : ℕ) :
    RelO l (RelL l R) (if L.length ≤ (List.replicate N (0 : Num)).length then some (L ++ (List.replicate N 0).drop L.length) else none)
      (fun i => if (L' i).length ≤ (List.replicate N (0 : Num)).length then some (L' i ++ (List.replicate N 0).drop (L' i).length) else none) := by
  by_cases hn : L.length ≤ (List.replicate N (0 : Num)).length
  · rw [if_pos hn]
    refine RelO.congr (RelO.some (b := fun i => L' i ++ (List.replicate N 0).drop (L' i).length) ⟨?_, fun k hk => ?_⟩) ?_
    · filter_upwards [h.length] with i e
      simp [e]
    · by_cases hk' : k < L.length
      · have := h.data k hk'
        rw [List.getD_append _ _ _ _ hk']
        refine hR.congr this ?_
        filter_upwards [h.length] with i e
        rw [List.getD_append _ _ _ _ (by omega)]
      · have hz : ∀ m : ℕ, m ≤ k → ∀ X : List Num, X.length = m → (X ++ (List.replicate N (0 : Num)).drop m).getD k 0 = 0 := by
          intro m hm X hX
          rw [List.getD_append_right _ _ _ _ (by omega)]
          simp [List.getD_eq_getElem?_getD, List.getElem?_replicate]
          split <;> rfl
        rw [hz _ (by omega) L rfl]
        refine hR.congr hR.zero ?_
        filter_upwards [h.length] with i e
        rw [e, hz _ (by omega) (L' i) e]
    · filter_upwards [h.length] with i e
      rw [if_pos (by rw [e]; exact hn)]
  · rw [if_neg hn]; exact RelO.none

theorem RelL.reshape (h : RelL l R L L') (m n : ℕ) : RelO l (RelMat l R) (Model.reshape L m n) (fun i => Model.reshape (L' i) m n) := by
  unfold Model.reshape
  by_cases hn : L.length = m * n
  · rw [if_pos hn]
    refine RelO.congr (RelO.some (b := fun i => (⟨m, n, fun a b => (L' i).getD (n * a + b) default⟩ : Mat Num))
      ⟨Eventually.of_forall fun _ => rfl, Eventually.of_forall fun _ => rfl, fun a ha b hb => ?_⟩) ?_
    · have hab : n * a + b < L.length := by
        rw [hn]
        have ha : a < m := ha
        have hb : b < n := hb
        calc n * a + b < n * a + n := by omega
          _ = n * (a + 1) := by ring
          _ ≤ n * m := Nat.mul_le_mul_left _ ha
          _ = m * n := by ring
      have e : ∀ X : List Num, n * a + b < X.length → X.getD (n * a + b) default = X.getD (n * a + b) 0 := fun X hX => by
        rw [List.getD_eq_getElem _ _ hX, List.getD_eq_getElem _ _ hX]
      show R (L.getD (n * a + b) default) fun i => (L' i).getD (n * a + b) default
      rw [e _ hab]
      refine hR.congr (h.data _ hab) ?_
      filter_upwards [h.length] with i ei
      rw [e _ (by omega)]
    · filter_upwards [h.length] with i e
      rw [if_pos (by rw [e]; exact hn)]
  · rw [if_neg hn]; exact RelO.none

theorem RelL.npAdd (h : RelL l R L L') (h' : RelL l R M M') : RelO l (RelL l R) (npAdd L M) (fun i => Rounded.npAdd (r i) (L' i) (M' i)) := by
  unfold Model.npAdd Rounded.npAdd
  by_cases h1 : L.length = M.length
  · rw [if_pos h1]
    refine RelO.congr (RelO.some (RelL.zipAdd hR h h')) ?_
    filter_upwards [h.length, h'.length] with i e e'
    rw [if_pos (by omega)]
  · rw [if_neg h1]
    by_cases h2 : L.length = 1
    · rw [if_pos h2]
      refine RelO.congr (RelO.some (b := fun i => (M' i).map fun b => Rounded.rn (r i) ((L' i).getD 0 0 + b)) ⟨?_, fun k hk => ?_⟩) ?_
      · filter_upwards [h'.length] with i e'
        simp [e']
      · have hk : k < M.length := by simpa using hk
        have := hR.add (h.data 0 (by omega)) (h'.data k hk)
        have e : ∀ (f : Num → Num) (X : List Num), k < X.length → (X.map f).getD k 0 = f (X.getD k 0) := by
          intro f X hX
          simp [List.getD_eq_getElem?_getD, hX]
        rw [e _ _ hk]
        refine hR.congr this ?_
        filter_upwards [h'.length] with i e'
        rw [e _ _ (by omega)]
      · filter_upwards [h.length, h'.length] with i e e'
        rw [if_neg (by omega), if_pos (by omega)]
    · rw [if_neg h2]
      by_cases h3 : M.length = 1
      · rw [if_pos h3]
        refine RelO.congr (RelO.some (b := fun i => (L' i).map fun b => Rounded.rn (r i) (b + (M' i).getD 0 0)) ⟨?_, fun k hk => ?_⟩) ?_
        · filter_upwards [h.length] with i e'
          simp [e']
        · have hk : k < L.length := by simpa using hk
          have := hR.add (h.data k hk) (h'.data 0 (by omega))
          have e : ∀ (f : Num → Num) (X : List Num), k < X.length → (X.map f).getD k 0 = f (X.getD k 0) := by
            intro f X hX
            simp [List.getD_eq_getElem?_getD, hX]
          rw [e _ _ hk]
          refine hR.congr this ?_
          filter_upwards [h.length] with i e'
          rw [e _ _ (by omega)]
        · filter_upwards [h.length, h'.length] with i e e'
          rw [if_neg (by omega), if_neg (by omega), if_pos (by omega)]
      · rw [if_neg h3]; exact RelO.none

end

section
variable {D T P : ℕ} {wf : ℕ → ℕ → ℕ} {cap : ℕ → ℕ} (hR : Calc l r R) (hbig : R (fin 1000000) (fun _ => fin 1000000))
  {flag : Bool} {alpha : ℚ} (hd : Damps r R flag alpha)
include hR hbig hd

/-- The beliefs with rounding. -/
theorem rel_kcIteratePy (hD : 0 < D) (numIter : ℕ) {w : ℕ → Num} {W : ι → ℕ → Num} (hw : ∀ t < T, R (w t) (fun i => W i t))
    {c : ℕ → ℕ → Num} {C : ι → ℕ → ℕ → Num} (hc : ∀ p < P, ∀ t < T, R (c p t) (fun i => C i p t)) :
    RelO l (RelP (RelL l R) (RelMat l R)) (kcIteratePy numIter flag alpha (pythonTables D T P wf cap w c))
      (fun i => Rounded.kcIteratePy (r i) numIter flag alpha (pythonTables D T P wf cap (W i) (C i))) := by
  have hflat : ∀ (w : ℕ → Num) (c : ℕ → ℕ → Num), ∃ f, kcFlatten (pythonTables D T P wf cap w c) = some f := fun w c =>
    Option.isSome_iff_exists.mp (C23_flattens.mpr hD)
  obtain ⟨f, e1⟩ := hflat w c
  choose f' e1' using fun i => hflat (W i) (C i)
  obtain ⟨inp, A, e2, a1, a2, a3, a4, a5, a6, a7, a8, a9, a10, a11, a12, ⟨a13, a14, a15⟩, ⟨a16, a17, a18⟩, a19, a20, a21⟩ := C23_decoded flag alpha e1
  choose inp' A' e2' b1 b2 b3 b4 b5 b6 b7 b8 b9 b10 b11 b12 b13 b16 b19 b20 b21 using fun i => C23_decoded flag alpha (e1' i)
  have hrd : ∀ {u v : Arr ℕ} {n : ℕ} {g : ℕ → ℕ}, u.size = n → v.size = n → (∀ k < n, u.data k = g k) → (∀ k < n, v.data k = g k) →
      ∀ k, u.rd k = v.rd k := by
    intro u v n g h1 h2 h3 h4 k
    unfold Arr.rd
    rw [h1, h2]
    by_cases hk : k < n
    · rw [if_pos hk, if_pos hk, h3 k hk, h4 k hk]
    · rw [if_neg hk, if_neg hk]
  have hJ : RelKc l R inp inp' := by
    refine ⟨fun i => by rw [a1, b1], fun i => by rw [a2, b2], fun i => by rw [a3, b3], fun i => by rw [a4, b4], fun i => by rw [a5, b5],
      fun i => by rw [a10, b10], fun i => hrd (b8 i) a8 (b9 i) a9, fun i => hrd (b11 i) a11 (b12 i) a12, fun d => ?_,
      ⟨Eventually.of_forall fun i => by rw [a6, b6], fun t ht => ?_⟩,
      ⟨Eventually.of_forall fun i => by rw [a16, (b16 i).1], Eventually.of_forall fun i => by rw [a17, (b16 i).2.1], fun p hp t ht => ?_⟩⟩
    · by_cases hdD : d < D
      · rw [Mat.rdRow_of_lt (by omega)]
        have hrow : ∀ i, (inp' i).weights.rdRow d = some ⟨(inp' i).weights.cols, (inp' i).weights.data d⟩ := fun i =>
          Mat.rdRow_of_lt (by rw [(b13 i).1]; exact hdD)
        simp only [hrow]
        refine RelO.some fun i => ⟨by show (inp' i).weights.cols = inp.weights.cols; rw [(b13 i).2.1, a14], ?_⟩
        exact hrd (n := T) (g := wf d) (b13 i).2.1 a14 (fun t ht => (b13 i).2.2 d hdD t ht) (fun t ht => a15 d hdD t ht)
      · rw [show inp.weights.rdRow d = none from if_neg (by omega)]
        exact RelO.none
    · rw [a6] at ht
      rw [a7 t ht]
      simp only [b7 _ t ht]
      exact hw t ht
    · rw [a16] at hp
      rw [a17] at ht
      rw [a18 p hp t ht]
      simp only [(b16 _).2.2 p hp t ht]
      exact hc p hp t ht
  have hA : RelMat l R A A' := by
    refine ⟨Eventually.of_forall fun i => by rw [a19, b19], Eventually.of_forall fun i => by rw [a20, b20], fun d hd' t ht => ?_⟩
    rw [a19] at hd'
    rw [a20] at ht
    rw [a21 d hd' t ht]
    simp only [b21 _ d hd' t ht]
    by_cases h : wf d t ≠ 0
    · simp only [if_pos h]; exact hw t ht
    · simp only [if_neg h]; exact hR.zero
  have hwrap : RelO l (RelP (RelL l R) (RelL l R)) (kcWrapper numIter D T P flag alpha f (List.replicate T 0) (List.replicate (P * T) 0))
      (fun i => Rounded.kcWrapper (r i) numIter D T P flag alpha (f' i) (List.replicate T 0) (List.replicate (P * T) 0)) := by
    simp only [kcWrapper, Rounded.kcWrapper, e2, e2', Option.bind_eq_bind, Option.bind_some]
    refine (rel_kcSolve hR hbig hJ (by rw [a4, a5]; exact hd) numIter hA).bind fun x y _ hxy => ?_
    refine (RelL.slice hR (hxy.1.toList hR) T).bind fun s s' _ hs => ?_
    refine (RelL.copyOut hR hs T).bind fun u u' _ hu => ?_
    refine (RelL.slice hR (hxy.2.toList hR) (T * P)).bind fun v v' _ hv => ?_
    refine (RelL.copyOut hR hv (P * T)).bind fun z z' _ hz => ?_
    exact RelO.some ⟨hu, hz⟩
  have elen : ∀ (w : ℕ → Num) (c : ℕ → ℕ → Num), (pythonTables D T P wf cap w c).maxState.length = D := fun w c => by
    simp [pythonTables, listOf]
  simp only [kcIteratePy, Rounded.kcIteratePy, e1, e1', Option.bind_eq_bind, Option.bind_some, elen]
  refine hwrap.bind fun L L' _ hL => ?_
  refine (RelL.reshape hR hL.2 P T).bind fun m m' _ hm => ?_
  refine (RelL.npAdd hR hL.1 (M := listOf T w) (M' := fun i => listOf T (W i)) ⟨Eventually.of_forall fun _ => by simp [listOf], fun t ht => ?_⟩).bind
    fun u u' _ hu => RelO.some ⟨hu, hm⟩
  have ht : t < T := by simpa [listOf] using ht
  rw [listOf_getD ht]
  simp only [listOf_getD ht]
  exact hw t ht

end

/-- A rounding together with team costs and pair costs. -/
abbrev RoundedTeams : Type := (ℚ → Num) × (ℕ → ℚ) × (ℕ → ℕ → ℚ)

def RoundedTeams.Close (T P : ℕ) (w : ℕ → ℚ) (c : ℕ → ℕ → ℚ) (i : RoundedTeams) (M ε : ℚ) : Prop :=
  Accurate i.1 M ε ∧ (∀ t < T, |w t - i.2.1 t| ≤ ε) ∧ ∀ p < P, ∀ t < T, |c p t - i.2.2 p t| ≤ ε

theorem RoundedTeams.Close.mono {T P : ℕ} {w : ℕ → ℚ} {c : ℕ → ℕ → ℚ} {i : RoundedTeams} {M ε M' ε' : ℚ} (h : i.Close T P w c M ε) (hM : M' ≤ M)
    (hε : ε ≤ ε') : i.Close T P w c M' ε' :=
  ⟨Accurate.mono h.1 hM hε, fun t ht => (h.2.1 t ht).trans hε, fun p hp t ht => (h.2.2 p hp t ht).trans hε⟩

/-- Towards exact arithmetic and the costs `w` and `c`. -/
def teamsFilter (T P : ℕ) (w : ℕ → ℚ) (c : ℕ → ℕ → ℚ) : Filter RoundedTeams where
  sets := {S | ∃ M ε : ℚ, 0 < ε ∧ ∀ i : RoundedTeams, i.Close T P w c M ε → i ∈ S}
  univ_sets := ⟨0, 1, one_pos, fun _ _ => trivial⟩
  sets_of_superset := by
    rintro S T ⟨M, ε, h1, h2⟩ hS
    exact ⟨M, ε, h1, fun i hi => hS (h2 i hi)⟩
  inter_sets := by
    rintro S T ⟨M, ε, h1, h2⟩ ⟨M', ε', h1', h2'⟩
    exact ⟨max M M', min ε ε', lt_min h1 h1', fun i hi =>
      ⟨h2 i (hi.mono (le_max_left _ _) (min_le_left _ _)), h2' i (hi.mono (le_max_right _ _) (min_le_right _ _))⟩⟩

section
variable {T P : ℕ} {w : ℕ → ℚ} {c : ℕ → ℕ → ℚ}

theorem fine_teams : Fine (teamsFilter T P w c) (fun i => i.1) := fun M ε hε => ⟨M, ε, hε, fun _ hi => hi.1⟩

theorem lim_team {t : ℕ} (ht : t < T) : Lim (teamsFilter T P w c) (fin (w t)) (fun i => fin (i.2.1 t)) := by
  refine ⟨_, Eventually.of_forall fun _ => rfl, Metric.tendsto_nhds.mpr fun ε hε => ?_⟩
  obtain ⟨ε', h1, h2⟩ := exists_rat_btwn hε
  refine ⟨0, ε', by exact_mod_cast h1, fun i hi => ?_⟩
  show dist _ _ < ε
  rw [dist_comm, Rat.dist_eq]
  refine lt_of_le_of_lt ?_ h2
  exact_mod_cast hi.2.1 t ht

theorem lim_pair {p t : ℕ} (hp : p < P) (ht : t < T) : Lim (teamsFilter T P w c) (fin (c p t)) (fun i => fin (i.2.2 p t)) := by
  refine ⟨_, Eventually.of_forall fun _ => rfl, Metric.tendsto_nhds.mpr fun ε hε => ?_⟩
  obtain ⟨ε', h1, h2⟩ := exists_rat_btwn hε
  refine ⟨0, ε', by exact_mod_cast h1, fun i hi => ?_⟩
  show dist _ _ < ε
  rw [dist_comm, Rat.dist_eq]
  refine lt_of_le_of_lt ?_ h2
  exact_mod_cast hi.2.2 p hp t ht

end

/-- The part of the run after the beliefs depends only on the decisions and the order of the beliefs. -/
theorem rounded_kcCall {d : TeamData} {numIter : ℕ} {flag : Bool} {alpha : ℚ} {post : Bool} {option : ℕ} {q : ℚ} {load load' : KcLoad} {res : KcResult}
    {ρ : ℚ → Num} {py py' : KcPy} {teams : KcTeamsPy} {N P T : ℕ} {f f' : ℕ → ℚ} {m m' : Mat Num}
    (h : kcCall d numIter flag alpha post option (fin q) load = some res)
    (h1 : kcInitialize d load = some (py, teams)) (h1' : kcInitialize d load' = some (py', teams)) (hn : py'.numTeams = py.numTeams)
    (h2 : kcIteratePy numIter flag alpha py = some (listOf N (fun t => fin (f t)), m))
    (h2' : Rounded.kcIteratePy ρ numIter flag alpha py' = some (listOf N (fun t => fin (f' t)), m'))
    (hq : q ≤ 0) (hr : m.rows = P) (hc : m.cols = T) (hr' : m'.rows = P) (hc' : m'.cols = T)
    (hsame : ∀ p < P, ∀ t < T, lt (m'.data p t) (fin q) = lt (m.data p t) (fin q))
    (hlt : T ≤ N) (horder : post = true → ∀ p < P, ∀ p' < P, ∀ t < T, lt (m.data p t) (fin q) = true → lt (m.data p' t) (fin q) = true →
      lt (m'.data p t) (m'.data p' t) = lt (m.data p t) (m.data p' t))
    (hord : post = true → ∀ i ∈ selectedTeams (decisionMatrix (fin q) m), ∀ j ∈ selectedTeams (decisionMatrix (fin q) m), f i < f j ↔ f' i < f' j) :
    Rounded.kcCall ρ d numIter flag alpha post option (fin q) load' = some { res with beliefs := listOf N (fun t => fin (f' t)) } := by
  have e1 := matchedPairs_congr hq hr hc hr' hc' hsame
  have e2 := selectedTeams_congr hq hr hc hr' hc' hsame
  unfold kcCall at h
  unfold Rounded.kcCall
  rw [h1] at h
  rw [h1']
  simp only [Option.bind_eq_bind, Option.bind_some, h2, h2', e1, e2, hn] at h ⊢
  cases post with
  | false =>
    simp only [Bool.false_eq_true, if_false] at h ⊢
    obtain ⟨x, k1, h⟩ := Option.bind_eq_some_iff.mp h
    obtain ⟨loads, locs⟩ := x
    rw [k1]
    simp only [Option.bind_some] at h ⊢
    obtain ⟨en, k2, h⟩ := Option.bind_eq_some_iff.mp h
    rw [k2, ← Option.some.inj h]
    rfl
  | true =>
    simp only [if_true] at h ⊢
    obtain ⟨b, k1, h⟩ := Option.bind_eq_some_iff.mp h
    rw [k1]
    simp only [Option.bind_some] at h ⊢
    rw [kcPost_congr hq hr hc hr' hc' hsame (horder rfl) hlt (hord rfl)]
    obtain ⟨out, k2, h⟩ := Option.bind_eq_some_iff.mp h
    rw [k2]
    simp only [Option.bind_some] at h ⊢
    obtain ⟨en, k3, h⟩ := Option.bind_eq_some_iff.mp h
    rw [k3, ← Option.some.inj h]
    rfl

end Verif.Proofs
