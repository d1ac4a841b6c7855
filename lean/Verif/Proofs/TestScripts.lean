import Verif.Spec.TestScripts
import Verif.Proofs.Npy

namespace Verif.Proofs
open Verif Model Spec

variable {α : Type}

theorem get_put (f : Folder α) (n m : String) (a : α) : (f.put n a).get m = if n = m then some a else f.get m := by
  unfold Folder.put Folder.get
  by_cases h : n = m
  · simp [h]
  · rw [if_neg h, List.find?_cons_of_neg (by simpa using h)]
    congr 1
    rw [List.find?_filter]
    congr 1
    funext p
    by_cases hp : p.1 = m
    · have : p.1 ≠ n := fun h' => h (h'.symm.trans hp)
      simp [hp, Ne.symm h]
    · simp [hp]

theorem names_put (f : Folder α) (n m : String) (a : α) : m ∈ (f.put n a).map Prod.fst ↔ m = n ∨ m ∈ f.map Prod.fst := by
  unfold Folder.put
  simp only [List.map_cons, List.mem_cons, List.mem_map, List.mem_filter, bne_iff_ne]
  constructor
  · rintro (h | ⟨p, ⟨hp, _⟩, h⟩)
    · exact .inl h
    · exact .inr ⟨p, hp, h⟩
  · rintro (h | ⟨p, hp, h⟩)
    · exact .inl h
    · by_cases hm : m = n
      · exact .inl hm
      · exact .inr ⟨p, ⟨hp, by rw [h]; exact hm⟩, h⟩

/-- Writing several files. -/
def putAll (f : Folder α) (v : String → α) (l : List String) : Folder α := l.foldl (fun r w => r.put w (v w)) f

theorem get_putAll (f : Folder α) (v : String → α) (l : List String) (m : String) :
    (putAll f v l).get m = if m ∈ l then some (v m) else f.get m := by
  induction l generalizing f with
  | nil => simp [putAll]
  | cons n l ih =>
    have : putAll f v (n :: l) = putAll (f.put n (v n)) v l := rfl
    rw [this, ih, get_put]
    by_cases h : m ∈ l
    · simp [h]
    · by_cases h2 : n = m
      · simp [h2]
      · simp [h, h2, Ne.symm h2]

theorem names_putAll (f : Folder α) (v : String → α) (l : List String) (m : String) :
    m ∈ (putAll f v l).map Prod.fst ↔ m ∈ l ∨ m ∈ f.map Prod.fst := by
  induction l generalizing f with
  | nil => simp [putAll]
  | cons n l ih =>
    have : putAll f v (n :: l) = putAll (f.put n (v n)) v l := rfl
    rw [this, ih, names_put, List.mem_cons]
    tauto

theorem get_some_name {f : Folder α} {m : String} {a : α} (h : f.get m = some a) : m ∈ f.map Prod.fst := by
  unfold Folder.get at h
  rw [Option.map_eq_some_iff] at h
  obtain ⟨p, hp, _⟩ := h
  have h1 := List.find?_some hp
  have h2 := List.mem_of_find?_eq_some hp
  simp only [beq_iff_eq] at h1
  exact List.mem_map.mpr ⟨p, h2, h1⟩

/-- Names of the inputs that are saved. -/
def inNames (l : List PySave) : List String :=
  l.filterMap (fun | .input n => some (npSaveName n) | .result _ => none)

/-- Names of the results that are saved. -/
def outNames (l : List PySave) : List String :=
  l.filterMap (fun | .input _ => none | .result n => some n)

theorem foldl_pySave (s : SubTest α) (l : List PySave) (f : Folders α) :
    l.foldl (pySave s) f = ⟨putAll f.inputs (s.pyWrites false) (inNames l), putAll f.results (s.pyWrites true) (outNames l)⟩ := by
  induction l generalizing f with
  | nil => rfl
  | cons x l ih =>
    rw [List.foldl_cons, ih]
    cases x <;> rfl

theorem firstOf_sub {β : Type} {k : Option ℕ} {l : List β} {x : β} (h : x ∈ firstOf k l) : x ∈ l := by
  cases k with
  | none => exact h
  | some k => exact List.mem_of_mem_take h

theorem inNames_sub {k : Option ℕ} {l : List PySave} {n : String} (h : n ∈ inNames (firstOf k l)) : n ∈ inNames l := by
  unfold inNames at h ⊢
  rw [List.mem_filterMap] at h ⊢
  obtain ⟨x, hx, h⟩ := h
  exact ⟨x, firstOf_sub hx, h⟩

theorem outNames_sub {k : Option ℕ} {l : List PySave} {n : String} (h : n ∈ outNames (firstOf k l)) : n ∈ outNames l := by
  unfold outNames at h ⊢
  rw [List.mem_filterMap] at h ⊢
  obtain ⟨x, hx, h⟩ := h
  exact ⟨x, firstOf_sub hx, h⟩

theorem runPython_eq (saves : List PySave) (s : SubTest α) (f : Folders α) :
    runPython saves s f = ⟨putAll f.inputs (s.pyWrites false) (inNames (firstOf s.pyStops saves)),
      putAll f.results (s.pyWrites true) (outNames (firstOf s.pyStops saves))⟩ := foldl_pySave _ _ _

/-- What the native program does: nothing, or it has read all its files. -/
theorem runNative_cases (exported : List String) (n : NativeIo) (s : SubTest α) (f : Folders α) :
    runNative exported n s f = f ∨ ∃ l, n.reads.mapM f.inputs.get = some l ∧
      runNative exported n s f = ⟨f.inputs, putAll f.results (s.natWrites l) (firstOf s.natStops n.writes)⟩ := by
  unfold runNative
  split
  · split
    · exact .inl rfl
    · rename_i l hl
      exact .inr ⟨l, hl, rfl⟩
  · exact .inl rfl

theorem mapM_get {f : Folder α} {v : String → α} {l : List String} (h : ∀ n ∈ l, f.get n = some (v n)) : l.mapM f.get = some (l.map v) := by
  induction l with
  | nil => rfl
  | cons n l ih =>
    rw [List.mapM_cons, h n (by simp), ih (fun m hm => h m (by simp [hm]))]
    rfl

theorem mapM_get_mem {f : Folder α} {l : List String} {r : List α} (h : l.mapM f.get = some r) : ∀ n ∈ l, ∃ a, f.get n = some a := by
  induction l generalizing r with
  | nil => simp
  | cons n l ih =>
    rw [List.mapM_cons] at h
    simp only [Option.pure_def, Option.bind_eq_bind, Option.bind_eq_some_iff] at h
    obtain ⟨a, ha, b, hb, _⟩ := h
    intro m hm
    simp only [List.mem_cons] at hm
    rcases hm with rfl | hm
    · exact ⟨a, ha⟩
    · exact ih hb m hm

/-- What the tables of a test have to satisfy. -/
structure Facts (exported : List String) (saves : List PySave) (nat : NativeIo) (cmp : Compared) : Prop where
  env : ∀ v ∈ nat.env, v ∈ exported
  reads : ∀ n ∈ nat.reads, n ∈ inNames saves
  disjoint : ∀ p ∈ outNames saves, p ∉ nat.writes
  known : ∀ {α : Type} (r : Folder α), (∀ n ∈ r.map Prod.fst, n ∈ outNames saves ∨ n ∈ nat.writes) → ∀ gs, cmp.groups r = some gs →
    ∀ g ∈ gs, ∀ q ∈ g, q.1 ∈ outNames saves ∧ q.2 ∈ nat.writes
  complete : ∀ {α : Type} (r : Folder α), (∀ n ∈ r.map Prod.fst, n ∈ outNames saves ∨ n ∈ nat.writes) → (∀ p ∈ outNames saves, p ∈ r.map Prod.fst) →
    outNames saves ≠ [] → ∃ gs, cmp.groups r = some gs ∧ (∀ g ∈ gs, g ≠ []) ∧
      ∀ p ∈ outNames saves, ∃ g ∈ gs, ∃ q ∈ g, q.1 = p ∧ q.2.toList = replacePure p.toList

/-- The folder of results has only files of the test. -/
def KnownFiles (saves : List PySave) (nat : NativeIo) (f : Folders α) : Prop :=
  ∀ n ∈ f.results.map Prod.fst, n ∈ outNames saves ∨ n ∈ nat.writes

theorem known_step {sc : Script} {agree : List (α × α) → Option Bool} {ut : String} {s : SubTest α} {f : Folders α}
    (h : KnownFiles (sc.saves ut) (sc.native ut) f) : KnownFiles (sc.saves ut) (sc.native ut) (runSubTest sc agree ut s f).1 := by
  have h1 : KnownFiles (sc.saves ut) (sc.native ut) (runPython (sc.saves ut) s f) := by
    rw [runPython_eq]
    intro n hn
    rw [names_putAll] at hn
    rcases hn with hn | hn
    · exact .inl (outNames_sub hn)
    · exact h n hn
  unfold runSubTest
  rcases runNative_cases sc.exported (sc.native ut) s (runPython (sc.saves ut) s f) with e | ⟨l, _, e⟩
  · simpa only [e] using h1
  · simp only [e]
    intro n hn
    rw [names_putAll] at hn
    rcases hn with hn | hn
    · exact .inr (firstOf_sub hn)
    · exact h1 n hn

theorem openPair_some {r : Folder α} {p : String × String} {q : (String × α) × (String × α)} (h : openPair r p = some q) :
    q.1.1 = p.1 ∧ q.2.1 = p.2 ∧ r.get p.1 = some q.1.2 ∧ r.get p.2 = some q.2.2 := by
  unfold openPair at h
  simp only [Option.bind_eq_bind, Option.bind_eq_some_iff, Option.some.injEq] at h
  obtain ⟨a, ha, b, hb, rfl⟩ := h
  exact ⟨rfl, rfl, ha, hb⟩

theorem mapM_openPair {r : Folder α} {g : List (String × String)} {l : List ((String × α) × (String × α))} (h : g.mapM (openPair r) = some l) :
    ∀ q ∈ l, ∃ p ∈ g, openPair r p = some q := by
  induction g generalizing l with
  | nil => simp at h; subst h; simp
  | cons p g ih =>
    rw [List.mapM_cons] at h
    simp only [Option.pure_def, Option.bind_eq_bind, Option.bind_eq_some_iff, Option.some.injEq] at h
    obtain ⟨a, ha, b, hb, rfl⟩ := h
    intro q hq
    simp only [List.mem_cons] at hq
    rcases hq with rfl | hq
    · exact ⟨p, by simp, ha⟩
    · obtain ⟨p', hp', e⟩ := ih hb q hq
      exact ⟨p', by simp [hp'], e⟩

theorem report_files {agree : List (α × α) → Option Bool} {r : Folder α} {gs : List (List (String × String))} {x : Report α} (h : x ∈ report agree r gs) :
    agree (x.files.map (fun p => (p.1.2, p.2.2))) = some x.passed ∧ x.files ≠ [] ∧ ∃ g ∈ gs, g.mapM (openPair r) = some x.files := by
  induction gs with
  | nil => simp [report] at h
  | cons g gs ih =>
    unfold report at h
    split at h
    · simp at h
    · rename_i l hl
      split at h
      · simp at h
      · rename_i hne
        split at h
        · simp at h
        · rename_i b hb
          simp only [List.mem_cons] at h
          rcases h with rfl | h
          · exact ⟨hb, hne, g, by simp, hl⟩
          · obtain ⟨h1, h2, g', hg', e⟩ := ih h
            exact ⟨h1, h2, g', by simp [hg'], e⟩

/-- Every file of a report is in the folder, under a name of the test. -/
theorem compare_files {sc : Script} {agree : List (α × α) → Option Bool} {ut : String} (hf : Facts sc.exported (sc.saves ut) (sc.native ut) (sc.compared ut))
    {f : Folders α} (hk : KnownFiles (sc.saves ut) (sc.native ut) f) {x : Report α} (h : x ∈ runCompare agree (sc.compared ut) f) :
    ∀ q ∈ x.files, q.1.1 ∈ outNames (sc.saves ut) ∧ q.2.1 ∈ (sc.native ut).writes ∧ f.results.get q.1.1 = some q.1.2 ∧ f.results.get q.2.1 = some q.2.2 := by
  unfold runCompare at h
  split at h
  · simp at h
  · rename_i gs hgs
    obtain ⟨_, _, g, hg, e⟩ := report_files h
    intro q hq
    obtain ⟨p, hp, hop⟩ := mapM_openPair e q hq
    obtain ⟨h1, h2, h3, h4⟩ := openPair_some hop
    obtain ⟨k1, k2⟩ := hf.known f.results hk gs hgs g hg p hp
    rw [h1, h2]
    exact ⟨k1, k2, h3, h4⟩

/-- The state after both programs have finished. -/
theorem finished {sc : Script} {ut : String} (hf : Facts sc.exported (sc.saves ut) (sc.native ut) (sc.compared ut)) {s : SubTest α} (hs : Finishes s)
    (f : Folders α) : runNative sc.exported (sc.native ut) s (runPython (sc.saves ut) s f) =
      ⟨putAll f.inputs (s.pyWrites false) (inNames (sc.saves ut)),
        putAll (putAll f.results (s.pyWrites true) (outNames (sc.saves ut))) (s.natWrites ((sc.native ut).reads.map (s.pyWrites false))) (sc.native ut).writes⟩ := by
  rw [runPython_eq]
  unfold runNative
  have h1 : (sc.native ut).env.all (fun v => sc.exported.contains v) = true := by
    rw [List.all_eq_true]
    intro v hv
    simpa using hf.env v hv
  have h2 : (sc.native ut).reads.mapM (Folder.get (putAll f.inputs (s.pyWrites false) (inNames (firstOf s.pyStops (sc.saves ut))))) =
      some ((sc.native ut).reads.map (s.pyWrites false)) := by
    apply mapM_get
    intro n hn
    rw [get_putAll, if_pos]
    rw [hs.1]
    exact hf.reads n hn
  rw [if_pos h1]
  simp only [h2]
  rw [hs.1, hs.2]
  rfl

theorem fresh_finished {sc : Script} {agree : List (α × α) → Option Bool} {ut : String}
    (hf : Facts sc.exported (sc.saves ut) (sc.native ut) (sc.compared ut)) {s : SubTest α} (hs : Finishes s) {f : Folders α}
    (hk : KnownFiles (sc.saves ut) (sc.native ut) f) {x : Report α} (h : x ∈ (runSubTest sc agree ut s f).2) : Fresh (sc.native ut).reads s x := by
  have hk' := known_step (agree := agree) (s := s) hk
  intro q hq
  obtain ⟨h1, h2, h3, h4⟩ := compare_files hf hk' h q hq
  unfold runSubTest at h3 h4
  simp only [finished hf hs] at h3 h4
  rw [get_putAll, if_neg (hf.disjoint _ h1), get_putAll, if_pos h1] at h3
  rw [get_putAll, if_pos h2] at h4
  exact ⟨(Option.some.inj h3).symm, (Option.some.inj h4).symm⟩

theorem fresh_empty {sc : Script} {agree : List (α × α) → Option Bool} {ut : String}
    (hf : Facts sc.exported (sc.saves ut) (sc.native ut) (sc.compared ut)) {s : SubTest α} {x : Report α}
    (h : x ∈ (runSubTest sc agree ut s ⟨[], []⟩).2) : Fresh (sc.native ut).reads s x := by
  have hk : KnownFiles (sc.saves ut) (sc.native ut) (⟨[], []⟩ : Folders α) := by intro n hn; simp at hn
  have hk' := known_step (agree := agree) (s := s) hk
  intro q hq
  obtain ⟨h1, h2, h3, h4⟩ := compare_files hf hk' h q hq
  unfold runSubTest at h3 h4
  have hnone : ∀ m, Folder.get ([] : Folder α) m = none := fun m => rfl
  rcases runNative_cases sc.exported (sc.native ut) s (runPython (sc.saves ut) s ⟨[], []⟩) with e | ⟨l, hl, e⟩
  · simp only [e] at h4
    simp only [runPython_eq] at h4
    rw [get_putAll] at h4
    split at h4
    · rename_i hm
      exact absurd h2 (hf.disjoint _ (outNames_sub hm))
    · simp [hnone] at h4
  · simp only [e] at h3 h4
    simp only [runPython_eq] at h3 h4
    rw [runPython_eq] at hl
    have hl' : l = (sc.native ut).reads.map (s.pyWrites false) := by
      have : (sc.native ut).reads.mapM (Folder.get (putAll [] (s.pyWrites false) (inNames (firstOf s.pyStops (sc.saves ut))))) =
          some ((sc.native ut).reads.map (s.pyWrites false)) := by
        apply mapM_get
        intro n hn
        obtain ⟨a, ha⟩ := mapM_get_mem hl n hn
        simp only at ha
        rw [get_putAll] at ha ⊢
        split at ha
        · rename_i hm
          rw [if_pos hm]
        · simp [hnone] at ha
      rw [this] at hl
      exact (Option.some.inj hl).symm
    constructor
    · rw [get_putAll] at h3
      split at h3
      · rename_i hm
        exact absurd (firstOf_sub hm) (hf.disjoint _ h1)
      · rw [get_putAll] at h3
        split at h3
        · exact (Option.some.inj h3).symm
        · simp [hnone] at h3
    · rw [get_putAll] at h4
      split at h4
      · rw [← hl']; exact (Option.some.inj h4).symm
      · rw [get_putAll] at h4
        split at h4
        · rename_i hm
          exact absurd h2 (hf.disjoint _ (outNames_sub hm))
        · simp [hnone] at h4

/-- Every report of a test comes from one of its sub-tests. -/
theorem subTests_mem {sc : Script} {agree : List (α × α) → Option Bool} {ut : String} {world : ℕ → SubTest α} {is : List ℕ} {f : Folders α}
    (hk : KnownFiles (sc.saves ut) (sc.native ut) f) {i : ℕ} {x : Report α} (h : (i, x) ∈ (runSubTests sc agree ut world is f).2) :
    ∃ f', KnownFiles (sc.saves ut) (sc.native ut) f' ∧ x ∈ (runSubTest sc agree ut (world i) f').2 ∧ (is = [i] → f' = f) := by
  induction is generalizing f with
  | nil => simp [runSubTests] at h
  | cons j is ih =>
    unfold runSubTests at h
    simp only [List.mem_append, List.mem_map, Prod.mk.injEq] at h
    rcases h with ⟨y, hy, rfl, rfl⟩ | h
    · exact ⟨f, hk, hy, fun _ => rfl⟩
    · obtain ⟨f', h1, h2, _⟩ := ih (known_step hk) h
      refine ⟨f', h1, h2, fun he => ?_⟩
      simp only [List.cons.injEq] at he
      rw [he.2] at h
      simp [runSubTests] at h

theorem subTests_has {sc : Script} {agree : List (α × α) → Option Bool} {ut : String} {world : ℕ → SubTest α} {is : List ℕ} {f : Folders α}
    (hk : KnownFiles (sc.saves ut) (sc.native ut) f) {i : ℕ} (hi : i ∈ is) :
    ∃ f', KnownFiles (sc.saves ut) (sc.native ut) f' ∧ ∀ x ∈ (runSubTest sc agree ut (world i) f').2, (i, x) ∈ (runSubTests sc agree ut world is f).2 := by
  induction is generalizing f with
  | nil => simp at hi
  | cons j is ih =>
    unfold runSubTests
    simp only [List.mem_append, List.mem_map, Prod.mk.injEq]
    by_cases hj : i = j
    · subst hj
      exact ⟨f, hk, fun x hx => .inl ⟨x, hx, rfl, rfl⟩⟩
    · obtain ⟨f', h1, h2⟩ := ih (f := (runSubTest sc agree ut (world j) f).1) (known_step hk) (by
        simp only [List.mem_cons] at hi
        exact hi.resolve_left hj)
      exact ⟨f', h1, fun x hx => .inr (h2 x hx)⟩

theorem known_empty (saves : List PySave) (nat : NativeIo) : KnownFiles saves nat (⟨[], []⟩ : Folders α) := by
  intro n hn
  simp at hn

theorem runTests_mem {sc : Script} {agree : List (α × α) → Option Bool} {total : ℕ} {world : String → ℕ → SubTest α} {uts : List String} {status : Bool}
    {ut : String} {i : ℕ} {x : Report α} (h : (ut, i, x) ∈ (runTests sc agree total world uts ⟨[], []⟩ status).1) :
    ut ∈ uts ∧ (i, x) ∈ (runSubTests sc agree ut (world ut) ((List.range total).map (· + 1)) ⟨[], []⟩).2 := by
  induction uts generalizing status with
  | nil => simp [runTests] at h
  | cons u uts ih =>
    unfold runTests at h
    simp only [List.mem_append, List.mem_map, Prod.mk.injEq] at h
    rcases h with ⟨y, hy, rfl, rfl, rfl⟩ | h
    · exact ⟨by simp, hy⟩
    · obtain ⟨h1, h2⟩ := ih h
      exact ⟨by simp [h1], h2⟩

theorem runTests_has {sc : Script} {agree : List (α × α) → Option Bool} {total : ℕ} {world : String → ℕ → SubTest α} {uts : List String} {status : Bool}
    {ut : String} (hu : ut ∈ uts) {i : ℕ} {x : Report α} (h : (i, x) ∈ (runSubTests sc agree ut (world ut) ((List.range total).map (· + 1)) ⟨[], []⟩).2) :
    (ut, i, x) ∈ (runTests sc agree total world uts ⟨[], []⟩ status).1 := by
  induction uts generalizing status with
  | nil => simp at hu
  | cons u uts ih =>
    unfold runTests
    simp only [List.mem_append, List.mem_map, Prod.mk.injEq]
    by_cases hj : ut = u
    · subst hj
      exact .inl ⟨(i, x), h, rfl, rfl, rfl⟩
    · right
      apply ih
      simp only [List.mem_cons] at hu
      exact hu.resolve_left hj

/-- The exit status is that of the last test. -/
theorem runTests_status {sc : Script} {agree : List (α × α) → Option Bool} {total : ℕ} {world : String → ℕ → SubTest α} {uts : List String} {status : Bool}
    {ut : String} : (runTests sc agree total world (uts ++ [ut]) ⟨[], []⟩ status).2 =
      !(runSubTests sc agree ut (world ut) ((List.range total).map (· + 1)) ⟨[], []⟩).1.results.isEmpty := by
  induction uts generalizing status with
  | nil => simp [runTests]
  | cons u uts ih =>
    rw [List.cons_append]
    unfold runTests
    exact ih

theorem mapM_openPair_all {r : Folder α} {g : List (String × String)} (h : ∀ p ∈ g, ∃ q, openPair r p = some q) :
    ∃ l, g.mapM (openPair r) = some l ∧ ∀ p ∈ g, ∃ q ∈ l, openPair r p = some q := by
  induction g with
  | nil => exact ⟨[], rfl, by simp⟩
  | cons p g ih =>
    obtain ⟨q, hq⟩ := h p (by simp)
    obtain ⟨l, hl, hm⟩ := ih (fun p' hp' => h p' (by simp [hp']))
    refine ⟨q :: l, ?_, ?_⟩
    · rw [List.mapM_cons, hq, hl]; rfl
    · intro p' hp'
      simp only [List.mem_cons] at hp'
      rcases hp' with rfl | hp'
      · exact ⟨q, by simp, hq⟩
      · obtain ⟨q', h1, h2⟩ := hm p' hp'
        exact ⟨q', by simp [h1], h2⟩

theorem report_all {agree : List (α × α) → Option Bool} (ha : ∀ l, l ≠ [] → (agree l).isSome) {r : Folder α} {gs : List (List (String × String))}
    (h : ∀ g ∈ gs, g ≠ [] ∧ ∀ p ∈ g, ∃ q, openPair r p = some q) {g : List (String × String)} (hg : g ∈ gs) {p : String × String} (hp : p ∈ g) :
    ∃ x ∈ report agree r gs, ∃ q ∈ x.files, openPair r p = some q := by
  induction gs with
  | nil => simp at hg
  | cons g' gs ih =>
    obtain ⟨hne, hop⟩ := h g' (by simp)
    obtain ⟨l, hl, hm⟩ := mapM_openPair_all hop
    have hlne : l ≠ [] := by
      cases g' with
      | nil => exact absurd rfl hne
      | cons p' g' =>
        obtain ⟨q, hq, _⟩ := hm p' (by simp)
        exact List.ne_nil_of_mem hq
    obtain ⟨b, hb⟩ := Option.isSome_iff_exists.mp (ha (l.map (fun p => (p.1.2, p.2.2))) (by simpa using hlne))
    have e : report agree r (g' :: gs) = ⟨l, b⟩ :: report agree r gs := by
      rw [report]
      simp only [hl, hb]
      rw [if_neg hlne]
    rw [e]
    simp only [List.mem_cons] at hg
    rcases hg with rfl | hg
    · obtain ⟨q, hq, e2⟩ := hm p hp
      exact ⟨⟨l, b⟩, by simp, q, hq, e2⟩
    · obtain ⟨x, hx, q, hq, e2⟩ := ih (fun g hg => h g (by simp [hg])) hg
      exact ⟨x, by simp [hx], q, hq, e2⟩

/-- Every result of the Python program is compared if both programs finish. -/
theorem complete_step {sc : Script} {agree : List (α × α) → Option Bool} (ha : ∀ l, l ≠ [] → (agree l).isSome) {ut : String}
    (hf : Facts sc.exported (sc.saves ut) (sc.native ut) (sc.compared ut)) {s : SubTest α} (hs : Finishes s) {f : Folders α}
    (hk : KnownFiles (sc.saves ut) (sc.native ut) f) {p : String} (hp : p ∈ outNames (sc.saves ut)) :
    ∃ x ∈ (runSubTest sc agree ut s f).2, ∃ q ∈ x.files, q.1.1 = p ∧ q.2.1.toList = replacePure p.toList := by
  have hk' := known_step (agree := agree) (s := s) hk
  unfold runSubTest at hk' ⊢
  simp only [finished hf hs] at hk' ⊢
  obtain ⟨R, hR⟩ : ∃ R, R = putAll (putAll f.results (s.pyWrites true) (outNames (sc.saves ut)))
    (s.natWrites ((sc.native ut).reads.map (s.pyWrites false))) (sc.native ut).writes := ⟨_, rfl⟩
  unfold KnownFiles at hk'
  rw [← hR] at hk' ⊢
  obtain ⟨gs, h1, h2, h3⟩ := hf.complete R hk' (by
    intro p hp
    rw [hR, names_putAll, names_putAll]
    exact .inr (.inl hp)) (List.ne_nil_of_mem hp)
  obtain ⟨g, hg, q, hq, hq1, hq2⟩ := h3 p hp
  unfold runCompare
  simp only [h1]
  have hget1 : ∀ p ∈ outNames (sc.saves ut), ∃ a, R.get p = some a := by
    intro p hp
    rw [hR, get_putAll, get_putAll, if_pos hp]
    split
    · exact ⟨_, rfl⟩
    · exact ⟨_, rfl⟩
  have hget2 : ∀ p ∈ (sc.native ut).writes, ∃ a, R.get p = some a := by
    intro p hp
    rw [hR, get_putAll, if_pos hp]
    exact ⟨_, rfl⟩
  obtain ⟨x, hx, q', hq', e⟩ := report_all ha (r := R) (gs := gs) (by
    intro g hg
    refine ⟨h2 g hg, ?_⟩
    intro p hp
    obtain ⟨k1, k2⟩ := hf.known R hk' gs h1 g hg p hp
    obtain ⟨a, ha⟩ := hget1 _ k1
    obtain ⟨b, hb⟩ := hget2 _ k2
    exact ⟨_, by unfold openPair; rw [ha, hb]; rfl⟩) hg hq
  obtain ⟨e1, e2, _, _⟩ := openPair_some e
  exact ⟨x, hx, q', hq', by rw [e1, hq1], by rw [e2, hq2]⟩

theorem results_grow {sc : Script} {agree : List (α × α) → Option Bool} {ut : String} {s : SubTest α} {f : Folders α} {n : String}
    (h : n ∈ f.results.map Prod.fst) : n ∈ (runSubTest sc agree ut s f).1.results.map Prod.fst := by
  unfold runSubTest
  have h1 : n ∈ (runPython (sc.saves ut) s f).results.map Prod.fst := by
    rw [runPython_eq, names_putAll]
    exact .inr h
  rcases runNative_cases sc.exported (sc.native ut) s (runPython (sc.saves ut) s f) with e | ⟨l, _, e⟩
  · simpa only [e] using h1
  · simp only [e]
    rw [names_putAll]
    exact .inr h1

theorem results_grow_all {sc : Script} {agree : List (α × α) → Option Bool} {ut : String} {world : ℕ → SubTest α} {is : List ℕ} {f : Folders α} {n : String}
    (h : n ∈ f.results.map Prod.fst) : n ∈ (runSubTests sc agree ut world is f).1.results.map Prod.fst := by
  induction is generalizing f with
  | nil => exact h
  | cons j is ih =>
    unfold runSubTests
    exact ih (results_grow h)

theorem results_left {sc : Script} {agree : List (α × α) → Option Bool} {ut : String} {world : ℕ → SubTest α} {is : List ℕ} {f : Folders α} {n : String}
    {i : ℕ} (hi : i ∈ is) (hs : (world i).pyStops = none) (hn : n ∈ outNames (sc.saves ut)) :
    n ∈ (runSubTests sc agree ut world is f).1.results.map Prod.fst := by
  induction is generalizing f with
  | nil => simp at hi
  | cons j is ih =>
    unfold runSubTests
    by_cases hj : i = j
    · subst hj
      apply results_grow_all
      unfold runSubTest
      have h1 : n ∈ (runPython (sc.saves ut) (world i) f).results.map Prod.fst := by
        rw [runPython_eq, names_putAll, hs]
        exact .inl hn
      rcases runNative_cases sc.exported (sc.native ut) (world i) (runPython (sc.saves ut) (world i) f) with e | ⟨l, _, e⟩
      · simpa only [e] using h1
      · simp only [e]
        rw [names_putAll]
        exact .inr h1
    · simp only [List.mem_cons] at hi
      exact ih (hi.resolve_left hj)

end Verif.Proofs
