import Verif.Properties.SavedFiles

/-!
C88, continued: what the assignment program runs with, and ambiguous abbreviations.
-/

namespace Verif.Properties
open Verif Num Model Spec Proofs

/-- A wrong last argument ends the program, whatever comes before it. -/
theorem parse_snoc_wrong {cv : Conversions} {opts : List ArgOption} {t : List Char} (ht : classifyArg opts t = .wrong) :
    ∀ (args : List (List Char)) (given : List (List Char × ArgValue)), parseFrom cv opts (args ++ [t]) given = none
  | [], given => by simp only [List.nil_append, parseFrom, ht]
  | [s], given => by
    rw [List.singleton_append]
    cases hc : classifyArg opts s with
    | value => simp only [parseFrom, hc]
    | wrong => simp only [parseFrom, hc]
    | option o w =>
      cases w with
      | none => simp only [parseFrom, hc, ht]
      | some w =>
        simp only [parseFrom, hc, ht]
        cases convertArg cv o.kind w <;> rfl
  | s :: v :: rest, given => by
    rw [List.cons_append, List.cons_append]
    cases hc : classifyArg opts s with
    | value => simp only [parseFrom, hc]
    | wrong => simp only [parseFrom, hc]
    | option o w =>
      cases w with
      | none =>
        simp only [parseFrom, hc]
        cases classifyArg opts v with
        | value =>
          dsimp only
          cases convertArg cv o.kind v with
          | none => rfl
          | some x => exact parse_snoc_wrong ht rest _
        | wrong => rfl
        | option _ _ => rfl
      | some w =>
        simp only [parseFrom, hc]
        cases convertArg cv o.kind w with
        | none => rfl
        | some x => exact parse_snoc_wrong ht (v :: rest) _

theorem before_self : ∀ {l : List Char}, '=' ∉ l → beforeEq l = l
  | [], _ => rfl
  | c :: l, h => by
    have hc : c ≠ '=' := fun e => h (by simp [e])
    have := before_self (l := l) (fun e => h (by simp [e]))
    unfold beforeEq at this ⊢
    rw [List.takeWhile_cons_of_pos (by simpa using hc), this]

/-- C88, abbreviations: the beginning of two names that is not itself a name is refused, with and without a value, whatever comes before it.
(`--` alone is left out: the model simplifies it.) -/
theorem C88_ambiguous {cv : Conversions} {opts : List ArgOption} (ho : opts ∈ [tspOptions, ksatOptions, kcOptions]) {o q : ArgOption} (hm : o ∈ opts)
    (hq : q ∈ opts) (hne : o ≠ q) {p : List Char} (hp : p <+: o.name) (hp' : p <+: q.name) (hx : ∀ r ∈ opts, r.name ≠ p) (_he : p ≠ [])
    (args : List (List Char)) (text : List Char) :
    parseArgs cv opts (args ++ ["--".toList ++ p ++ "=".toList ++ text]) = none ∧ parseArgs cv opts (args ++ ["--".toList ++ p]) = none := by
  have h := programs_ok opts ho
  have hpe : '=' ∉ p := fun hc => h.2 o hm (hp.subset hc)
  have hn : '=' ∉ '-' :: '-' :: p := by simp [hpe]
  have key : ∀ t, beforeEq t = '-' :: '-' :: p → (∀ r ∈ opts, '-' :: '-' :: r.name ≠ t) → t.head? = some '-' → t ≠ ['-'] → ['-', '-'].isPrefixOf t = true →
      classifyArg opts t = .wrong := by
    intro t hb ht hh hd hpre
    unfold classifyArg
    have e1 : opts.find? (fun r => '-' :: '-' :: r.name == t) = none := by
      rw [List.find?_eq_none]
      intro r hr hc
      exact ht r hr (by simpa using hc)
    have e2 : opts.find? (fun r => '-' :: '-' :: r.name == '-' :: '-' :: p && t.contains '=') = none := by
      rw [List.find?_eq_none]
      intro r hr hc
      rw [Bool.and_eq_true] at hc
      exact hx r hr (by simpa using hc.1)
    have mem : ∀ r ∈ opts, p <+: r.name → r ∈ opts.filter (fun q => ['-', '-'].isPrefixOf t && ('-' :: '-' :: p).isPrefixOf ('-' :: '-' :: q.name)) := by
      intro r hr hpr
      rw [List.mem_filter, hpre]
      exact ⟨hr, by simpa using hpr⟩
    rw [if_neg (by simp [hh]), e1]
    dsimp only
    rw [if_neg (by simpa using hd), hb, e2]
    dsimp only
    cases hf : opts.filter (fun q => ['-', '-'].isPrefixOf t && ('-' :: '-' :: p).isPrefixOf ('-' :: '-' :: q.name)) with
    | nil => have := mem o hm hp; rw [hf] at this; cases this
    | cons a l =>
      cases l with
      | nil =>
        have h1 := mem o hm hp
        have h2 := mem q hq hp'
        rw [hf, List.mem_singleton] at h1 h2
        exact absurd (h1.trans h2.symm) hne
      | cons b l => rfl
  have e : ∀ l : List Char, "--".toList ++ l ++ "=".toList ++ text = '-' :: '-' :: l ++ '=' :: text := by intro l; simp
  have e' : ∀ l : List Char, "--".toList ++ l = '-' :: '-' :: l := by intro l; simp
  constructor
  · rw [e, parseArgs, parse_snoc_wrong (key _ (before_append hn text) (fun r hr hc => ?_) rfl (by simp) (by simp))]
    · rfl
    · have : r.name = p ++ '=' :: text := by simpa using hc
      exact h.2 r hr (by rw [this]; simp)
  · rw [e', parseArgs, parse_snoc_wrong (key _ ?_ (fun r hr hc => hx r hr (by simpa using hc)) rfl (by simp) (by simp))]
    · rfl
    · exact before_self hn

/-- The value of an option according to the settings: what its last setting means, or the default if it is not mentioned. -/
def Says (cv : Conversions) (settings : List Setting) (name : String) (kind : ArgKind) (dflt x : ArgValue) : Prop :=
  (NotSaid settings name.toList ∧ x = dflt) ∨ ∃ text, LastSaid settings name.toList text ∧ Means cv kind text x

theorem lookup_of_says {cv : Conversions} {opts : List ArgOption} (ho : opts ∈ [tspOptions, ksatOptions, kcOptions]) {settings : List Setting}
    (hs : ∀ s ∈ settings, (∃ o ∈ opts, o.name = s.name) ∧ (s.joined = true ∨ s.text.head? ≠ some '-')) {ns : List (List Char × ArgValue)}
    (hns : parseArgs cv opts (commandLine settings) = some ns) {name : String} {kind : ArgKind} {dflt x : ArgValue}
    (hm : (⟨name.toList, kind, dflt⟩ : ArgOption) ∈ opts) (h : Says cv settings name kind dflt x) : ns.lookup name.toList = some x := by
  obtain ⟨h1, h2⟩ := (C88_settings ho hs).2 ns hns _ hm
  rcases h with ⟨a, rfl⟩ | ⟨text, a, b⟩
  · exact h1 a
  · obtain ⟨y, hy, hl⟩ := h2 text a
    rw [show ns.lookup name.toList = some y from hl]
    rw [← means_iff] at hy b
    rw [hy] at b
    exact b

/-- C88, the assignment program: its run has the number of iterations, the flags, the parameter, the threshold and the option of the last settings; those
not mentioned are 400 iterations, no filtering, parameter 0, post-processing with option 1 and threshold -0.0001. -/
theorem C88_kc_run {cv : Conversions} (d : TeamData) (l : KcLoad) {settings : List Setting}
    (hs : ∀ s ∈ settings, (∃ o ∈ kcOptions, o.name = s.name) ∧ (s.joined = true ∨ s.text.head? ≠ some '-'))
    (hc : ∀ s ∈ settings, ∀ o ∈ kcOptions, o.name = s.name → ∃ x, Means cv o.kind s.text x) {K opt : ℕ} {flag post : Bool} {alpha thr : ℚ}
    (h1 : Says cv settings "nITER" .int (.int 400) (.int K)) (h2 : Says cv settings "filteringFlag" .flag (.flag false) (.flag flag))
    (h3 : Says cv settings "alpha" .num (.num 0) (.num alpha)) (h4 : Says cv settings "PPFlag" .flag (.flag true) (.flag post))
    (h5 : Says cv settings "threshold" .num (.num (-1 / 10000)) (.num thr)) (h6 : Says cv settings "PPOption" .int (.int 1) (.int opt)) :
    mainKcMwm cv d (commandLine settings) l = kcCall d K flag alpha post opt (fin thr) l := by
  have ho : kcOptions ∈ [tspOptions, ksatOptions, kcOptions] := by simp
  obtain ⟨ns, hns⟩ := Option.ne_none_iff_exists'.mp ((C88_settings (cv := cv) ho hs).1.mpr hc)
  unfold mainKcMwm
  rw [hns]
  have g1 : argInt ns "nITER" = some (K : ℤ) := by unfold argInt; rw [lookup_of_says ho hs hns (by simp [kcOptions]) h1]
  have g2 : argFlag ns "filteringFlag" = some flag := by unfold argFlag; rw [lookup_of_says ho hs hns (by simp [kcOptions]) h2]
  have g3 : argNum ns "alpha" = some alpha := by unfold argNum; rw [lookup_of_says ho hs hns (by simp [kcOptions]) h3]
  have g4 : argFlag ns "PPFlag" = some post := by unfold argFlag; rw [lookup_of_says ho hs hns (by simp [kcOptions]) h4]
  have g5 : argNum ns "threshold" = some thr := by unfold argNum; rw [lookup_of_says ho hs hns (by simp [kcOptions]) h5]
  have g6 : argInt ns "PPOption" = some (opt : ℤ) := by unfold argInt; rw [lookup_of_says ho hs hns (by simp [kcOptions]) h6]
  simp only [Option.bind_eq_bind, Option.bind_some, g1, g2, g3, g4, g5, g6, Int.toNat_natCast]

/-- `--alpha=0.5 --nITER 30 --alpha=0.25`: 30 iterations, parameter 1/4, everything else as usual. -/
example (d : TeamData) (l : KcLoad) : mainKcMwm decimals d ["--alpha=0.5".toList, "--nITER".toList, "30".toList, "--alpha=0.25".toList] l =
    kcCall d 30 false (1 / 4) true 1 (fin (-1 / 10000)) l := by
  have e : ["--alpha=0.5".toList, "--nITER".toList, "30".toList, "--alpha=0.25".toList] =
      commandLine [⟨"alpha".toList, "0.5".toList, true⟩, ⟨"nITER".toList, "30".toList, false⟩, ⟨"alpha".toList, "0.25".toList, true⟩] := by decide
  have hn : ∀ name : String, name ≠ "alpha" → name ≠ "nITER" →
      NotSaid [⟨"alpha".toList, "0.5".toList, true⟩, ⟨"nITER".toList, "30".toList, false⟩, ⟨"alpha".toList, "0.25".toList, true⟩] name.toList := by
    intro name h1 h2 s hs hc
    simp only [List.mem_cons, List.not_mem_nil, or_false] at hs
    rcases hs with rfl | rfl | rfl
    · exact h1 (String.toList_injective hc).symm
    · exact h2 (String.toList_injective hc).symm
    · exact h1 (String.toList_injective hc).symm
  rw [e]
  refine C88_kc_run d l (by decide) ?_ (K := 30) (opt := 1) (.inr ⟨"30".toList, ⟨[⟨"alpha".toList, "0.5".toList, true⟩], _, false, rfl, by decide⟩, ?_⟩)
    (.inl ⟨hn _ (by decide) (by decide), rfl⟩) (.inr ⟨"0.25".toList, ⟨[_, _], [], true, rfl, by decide⟩, ?_⟩)
    (.inl ⟨hn _ (by decide) (by decide), rfl⟩) (.inl ⟨hn _ (by decide) (by decide), rfl⟩) (.inl ⟨hn _ (by decide) (by decide), rfl⟩)
  · intro s hs o ho hon
    simp only [List.mem_cons, List.not_mem_nil, or_false] at hs
    have hk : ∀ o ∈ kcOptions, (o.name = "alpha".toList → o.kind = .num) ∧ (o.name = "nITER".toList → o.kind = .int) := by decide
    rcases hs with rfl | rfl | rfl
    · rw [(hk o ho).1 hon]; exact ⟨_, .num (x := 1 / 2) (by decide +kernel)⟩
    · rw [(hk o ho).2 hon]; exact ⟨_, .int (z := 30) (by decide +kernel)⟩
    · rw [(hk o ho).1 hon]; exact ⟨_, .num (x := 1 / 4) (by decide +kernel)⟩
  · exact .int (by decide +kernel)
  · exact .num (by decide +kernel)

/-- `--PP` could be `--PPFlag` or `--PPOption`. -/
example (cv : Conversions) (args : List (List Char)) : parseArgs cv kcOptions (args ++ ["--PP=1".toList]) = none :=
  (C88_ambiguous (opts := kcOptions) (by simp) (o := ⟨"PPFlag".toList, .flag, .flag true⟩) (q := ⟨"PPOption".toList, .int, .int 1⟩) (by decide) (by decide)
    (by decide) (p := "PP".toList) (by decide) (by decide) (by decide) (by decide) args "1".toList).1

end Verif.Properties
