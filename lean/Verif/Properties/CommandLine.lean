import Verif.Proofs.CommandLine
import Verif.Properties.KcCall

/-!
C88: command lines.  The three programs read `--name=text` and `--name text` as expected, the last setting of an option counts, and the
program stops if a text cannot be converted.  The claim that `False` switches a flag off is false: a flag is read by `bool(text)`, so every
text except the empty one switches it on.  The same holds for the flag of the unit tests.
-/

namespace Verif.Properties
open Verif Num Model Spec Proofs

/-- What a text means for an option of each type; a flag is on unless the text is empty. -/
inductive Means (cv : Conversions) : ArgKind → List Char → ArgValue → Prop
  | int {s z} (h : cv.int s = some z) : Means cv .int s (.int z)
  | num {s x} (h : cv.num s = some x) : Means cv .num s (.num x)
  | on {s} (h : s ≠ []) : Means cv .flag s (.flag true)
  | off : Means cv .flag [] (.flag false)
  | text {s} : Means cv .text s (.text s)

theorem means_iff {cv : Conversions} {k : ArgKind} {s : List Char} {x : ArgValue} : convertArg cv k s = some x ↔ Means cv k s x := by
  cases k with
  | int =>
    show (cv.int s).map .int = some x ↔ _
    rw [Option.map_eq_some_iff]
    exact ⟨fun ⟨z, h, e⟩ => e ▸ .int h, fun h => by cases h with | int h => exact ⟨_, h, rfl⟩⟩
  | num =>
    show (cv.num s).map .num = some x ↔ _
    rw [Option.map_eq_some_iff]
    exact ⟨fun ⟨z, h, e⟩ => e ▸ .num h, fun h => by cases h with | num h => exact ⟨_, h, rfl⟩⟩
  | text => exact ⟨fun h => by cases h; exact .text, fun h => by cases h; rfl⟩
  | flag =>
    cases s with
    | nil => exact ⟨fun h => by cases h; exact .off, fun h => by cases h with | on h => exact absurd rfl h | off => rfl⟩
    | cons c s => exact ⟨fun h => by cases h; exact .on (by simp), fun h => by cases h; rfl⟩

/-- The tables of the three programs. -/
theorem programs_ok : ∀ opts ∈ [tspOptions, ksatOptions, kcOptions], NamesOk opts := by
  unfold NamesOk
  decide

/-- C88, the settings: the program goes on exactly if all texts can be converted, and then every option has the value of its last setting, or
its default if it is not mentioned. -/
theorem C88_settings {cv : Conversions} {opts : List ArgOption} (ho : opts ∈ [tspOptions, ksatOptions, kcOptions]) {settings : List Setting}
    (hs : ∀ s ∈ settings, (∃ o ∈ opts, o.name = s.name) ∧ (s.joined = true ∨ s.text.head? ≠ some '-')) :
    (parseArgs cv opts (commandLine settings) ≠ none ↔ ∀ s ∈ settings, ∀ o ∈ opts, o.name = s.name → ∃ x, Means cv o.kind s.text x) ∧
    ∀ ns, parseArgs cv opts (commandLine settings) = some ns → ∀ o ∈ opts,
      (NotSaid settings o.name → ns.lookup o.name = some o.default) ∧
      ∀ text, LastSaid settings o.name text → ∃ x, Means cv o.kind text x ∧ ns.lookup o.name = some x := by
  have h := programs_ok opts ho
  constructor
  · constructor
    · intro hne s hs' o ho' hon
      obtain ⟨ns, hns⟩ := Option.ne_none_iff_exists'.mp hne
      obtain ⟨r, hr, -⟩ := Option.map_eq_some_iff.mp hns
      obtain ⟨x, hx⟩ := Option.ne_none_iff_exists'.mp (gives_convertible h ((parse_settings h hs _ _).1 hr) s hs' o ho' hon)
      exact ⟨x, means_iff.mp hx⟩
    · intro hc
      obtain ⟨r, hr⟩ := gives_total h hs (fun s hs' o ho' hon => by
        obtain ⟨x, hx⟩ := hc s hs' o ho' hon
        rw [means_iff.mpr hx]; exact Option.some_ne_none x) []
      rw [parseArgs, (parse_settings h hs _ _).2 hr]
      exact Option.some_ne_none _
  · intro ns hns o ho'
    obtain ⟨r, hr, rfl⟩ := Option.map_eq_some_iff.mp hns
    have hg := (parse_settings h hs _ _).1 hr
    have hl := lookup_opts h.1 ho' fun o => (r.lookup o.name).getD o.default
    constructor
    · intro hn
      rw [hl, gives_notSaid hg hn]
      rfl
    · intro text ht
      obtain ⟨x, hx, hx'⟩ := gives_lastSaid h ho' hg ht
      exact ⟨x, means_iff.mp hx, by rw [hl, hx']; rfl⟩

/-- C88, abbreviations: the beginning of exactly one name stands for the name. -/
theorem C88_abbreviation {cv : Conversions} {opts : List ArgOption} (ho : opts ∈ [tspOptions, ksatOptions, kcOptions]) {o : ArgOption} (hm : o ∈ opts)
    {p : List Char} (hp : p <+: o.name) (hu : ∀ q ∈ opts, p <+: q.name → q = o) (hh : ¬ p <+: "help".toList) (args : List (List Char)) (text : List Char) :
    parseArgs cv opts (args ++ ["--".toList ++ p ++ "=".toList ++ text]) = parseArgs cv opts (args ++ ["--".toList ++ o.name ++ "=".toList ++ text]) := by
  have h := programs_ok opts ho
  have e : ∀ l : List Char, "--".toList ++ l ++ "=".toList ++ text = '-' :: '-' :: l ++ '=' :: text := by intro l; simp
  rw [e, e, parseArgs, parseArgs, parse_snoc (classify_short h hm hp hu hh text), parse_snoc (classify_joined h hm text)]

/-- C88, negative numbers: after a space, a text that starts with one dash is only accepted if it is a negative number written with digits and at
most one point, with digits after the point, or has a space in it; `--threshold -1e-4` is rejected whatever the conversion says. -/
theorem C88_negative {cv : Conversions} {opts : List ArgOption} (ho : opts ∈ [tspOptions, ksatOptions, kcOptions]) {o : ArgOption} (hm : o ∈ opts)
    {c : Char} {r : List Char} (h1 : c ≠ '-') (h2 : c ≠ 'h') :
    parseArgs cv opts ["--".toList ++ o.name, '-' :: c :: r] ≠ none ↔
      (NegativeText ('-' :: c :: r) ∨ ' ' ∈ r ∨ c = ' ') ∧ ∃ x, Means cv o.kind ('-' :: c :: r) x := by
  have h := programs_ok opts ho
  have e : "--".toList ++ o.name = '-' :: '-' :: o.name := by simp
  have hd := classify_dash opts (r := r) h1 h2
  rw [e, parseArgs, ← negative_iff]
  by_cases hc : looksNegative ('-' :: c :: r) = true ∨ ' ' ∈ r ∨ c = ' '
  · rw [if_pos (by
      rw [Bool.or_eq_true, List.contains_iff_mem]
      rcases hc with hc | hc | hc
      · exact .inl hc
      · exact .inr (by simp [hc])
      · exact .inr (by simp [hc]))] at hd
    rw [parseFrom_next (classify_name h hm) hd]
    constructor
    · intro hne
      refine ⟨hc, ?_⟩
      cases hx : convertArg cv o.kind ('-' :: c :: r) with
      | none => rw [hx] at hne; exact absurd rfl hne
      | some x => exact ⟨x, means_iff.mp hx⟩
    · rintro ⟨-, x, hx⟩
      rw [means_iff.mpr hx]
      exact Option.some_ne_none _
  · rw [if_neg (by
      rw [Bool.or_eq_true, List.contains_iff_mem]
      rintro (hl | hl)
      · exact hc (.inl hl)
      · simp only [List.mem_cons] at hl
        rcases hl with hl | hl | hl
        · exact absurd hl (by decide)
        · exact hc (.inr (.inr hl.symm))
        · exact hc (.inr (.inl hl)))] at hd
    constructor
    · intro hne
      refine absurd ?_ hne
      simp only [parseFrom, classify_name h hm, hd]
      rfl
    · exact fun hx => absurd hx.1 hc

/-- C88 in full: `--flag=False` switches a flag off, in the three programs and in the unit tests. -/
def C88_claim : Prop :=
  (∀ (cv : Conversions), ∀ opts ∈ [tspOptions, ksatOptions, kcOptions], ∀ o ∈ opts, o.kind = .flag →
    ∃ ns, parseArgs cv opts ["--".toList ++ o.name ++ "=False".toList] = some ns ∧ ns.lookup o.name = some (.flag false)) ∧
  nativeTestFlag (some "false".toList) = false

/-- C88, what is true: a flag whose last setting has a text that is not empty is on. -/
theorem C88_on_partial {cv : Conversions} {opts : List ArgOption} (ho : opts ∈ [tspOptions, ksatOptions, kcOptions]) {settings : List Setting}
    (hs : ∀ s ∈ settings, (∃ o ∈ opts, o.name = s.name) ∧ (s.joined = true ∨ s.text.head? ≠ some '-')) {ns : List (List Char × ArgValue)}
    (hns : parseArgs cv opts (commandLine settings) = some ns) {o : ArgOption} (hm : o ∈ opts) (hk : o.kind = .flag) {text : List Char}
    (ht : LastSaid settings o.name text) : ns.lookup o.name = some (.flag (decide (text ≠ []))) := by
  obtain ⟨x, hx, hl⟩ := ((C88_settings ho hs).2 ns hns o hm).2 text ht
  rw [hk] at hx
  rw [hl]
  cases hx with
  | on h => simp [h]
  | off => rfl

/-- C88, any command line at all, with abbreviations: a flag that is on by default can only be off if an argument is empty or ends with its
first `=`. -/
theorem C88_off_partial {cv : Conversions} {opts : List ArgOption} (ho : opts ∈ [tspOptions, ksatOptions, kcOptions]) {args : List (List Char)}
    {ns : List (List Char × ArgValue)} (hns : parseArgs cv opts args = some ns) {o : ArgOption} (hm : o ∈ opts) (hk : o.kind = .flag)
    (hd : o.default = .flag true) (hoff : ns.lookup o.name = some (.flag false)) : ∃ t ∈ args, t = [] ∨ ∃ name, t = name ++ "=".toList := by
  have h := programs_ok opts ho
  by_contra hc
  push Not at hc
  obtain ⟨r, hr, rfl⟩ := Option.map_eq_some_iff.mp hns
  rw [lookup_opts h.1 hm fun o => (r.lookup o.name).getD o.default] at hoff
  have hgiven := given_from (cv := cv) (opts := opts) (P := fun o x => o.kind = .flag → x = .flag true) args (fun o w x hw hx hk => by
    rw [hk] at hx
    rcases hw with hw | ⟨t, ht, hw⟩
    · cases w with
      | nil => exact absurd rfl (hc [] hw).1
      | cons c w => exact (Option.some.inj hx).symm
    · cases w with
      | cons c w => exact (Option.some.inj hx).symm
      | nil =>
        exfalso
        obtain ⟨a, e⟩ := after_split hw
        exact (hc t ht).2 a e) [] r hr
  cases hl : r.lookup o.name with
  | none => rw [hl, hd] at hoff; cases hoff
  | some x =>
    rw [hl] at hoff
    have hx : x = .flag false := by simpa using hoff
    have hmem : (o.name, x) ∈ r := by
      obtain ⟨l1, l2, e, -⟩ := List.lookup_eq_some_iff.mp hl
      rw [e]; simp
    rcases hgiven _ hmem with hg | ⟨o', ho', hn, hP⟩
    · cases hg
    · have : o' = o := List.inj_on_of_nodup_map h.1 ho' hm hn
      subst this
      have := hP hk
      rw [hx] at this
      cases this

/-- C88, the assignment program: any text that is not empty means filtering; `--filteringFlag=False` gives the same run as `--filteringFlag=True`. -/
theorem C88_kc_partial (cv : Conversions) (d : TeamData) (args : List (List Char)) (l : KcLoad) {s t : List Char} (hs : s ≠ []) (ht : t ≠ []) :
    mainKcMwm cv d (args ++ ["--filteringFlag=".toList ++ s]) l = mainKcMwm cv d (args ++ ["--filteringFlag=".toList ++ t]) l := by
  have h := programs_ok kcOptions (by simp)
  have hm : (⟨"filteringFlag".toList, .flag, .flag false⟩ : ArgOption) ∈ kcOptions := by decide
  have e : ∀ s, "--filteringFlag=".toList ++ s = '-' :: '-' :: "filteringFlag".toList ++ '=' :: s := by intro s; rfl
  have hp : ∀ s : List Char, s ≠ [] → parseArgs cv kcOptions (args ++ ["--filteringFlag=".toList ++ s]) =
      ((parseFrom cv kcOptions args []).map fun r => ("filteringFlag".toList, ArgValue.flag true) :: r).map fun given =>
        kcOptions.map fun o => (o.name, (given.lookup o.name).getD o.default) := by
    intro s hs
    rw [e, parseArgs, parse_snoc (classify_joined h hm s)]
    have : convertArg cv .flag s = some (.flag true) := means_iff.mpr (.on hs)
    dsimp only
    rw [this]
    cases parseFrom cv kcOptions args [] <;> rfl
  unfold mainKcMwm
  rw [hp s hs, hp t ht]

/-- C88, files: once `--randomTestFlag` is given any text that is not empty, the last time it is given, no input is loaded and nothing is saved. -/
theorem C88_random_partial {cv : Conversions} {opts : List ArgOption} (ho : opts ∈ [tspOptions, ksatOptions]) {settings : List Setting}
    (hs : ∀ s ∈ settings, (∃ o ∈ opts, o.name = s.name) ∧ (s.joined = true ∨ s.text.head? ≠ some '-')) {ns : List (List Char × ArgValue)}
    (hns : parseArgs cv opts (commandLine settings) = some ns) {text : List Char} (ht : LastSaid settings "randomTestFlag".toList text) (hne : text ≠ [])
    {f : RunFiles} (hf : runFiles ns = some f) : f.load = none ∧ f.save = none := by
  have ho' : opts ∈ [tspOptions, ksatOptions, kcOptions] := by
    simp only [List.mem_cons, List.not_mem_nil, or_false] at ho ⊢
    tauto
  have hm : (⟨"randomTestFlag".toList, .flag, .flag false⟩ : ArgOption) ∈ opts := by
    simp only [List.mem_cons, List.not_mem_nil, or_false] at ho
    rcases ho with rfl | rfl <;> decide
  have hl := C88_on_partial ho' hs hns hm rfl ht
  have ha : argFlag ns "randomTestFlag" = some true := by
    unfold argFlag
    rw [show ns.lookup "randomTestFlag".toList = _ from hl]
    simp [hne]
  unfold runFiles at hf
  simp only [ha, Option.bind_eq_bind, Option.bind_eq_some_iff, Option.some.injEq] at hf
  obtain ⟨_, _, _, _, _, _, _, _, _, _, _, _, _, rfl, _, _, rfl⟩ := hf
  simp

/-- C88, unit tests: with any text that is not empty, `false` for example, both programs filter; they differ exactly if the variable is set to the
empty text. -/
theorem C88_tests_partial (cv : Conversions) {name : List Char} (hn : '=' ∉ name) (setting : Option (List Char)) :
    (∀ t, setting = some t → t ≠ [] → nativeTestFlag setting = true ∧ pythonTestFlag cv name setting = some (.flag true)) ∧
    (pythonTestFlag cv name setting = some (.flag (nativeTestFlag setting)) ↔ setting ≠ some []) := by
  have h : NamesOk [⟨name, .flag, .flag true⟩] := ⟨by simp, by simpa using hn⟩
  have hp : pythonTestFlag cv name setting = some (.flag (!(setting.getD []).isEmpty)) := by
    unfold pythonTestFlag parseArgs
    rw [parseFrom_text (classify_joined h List.mem_cons_self _)]
    simp [convertArg, parseFrom]
  rw [hp]
  constructor
  · rintro t rfl ht
    exact ⟨rfl, by simpa using ht⟩
  · cases setting with
    | none => simp [nativeTestFlag]
    | some t => cases t <;> simp [nativeTestFlag]

/-- A conversion for examples: decimal digits. -/
def digitsOnly : Conversions where
  int s := if s.all Char.isDigit && !s.isEmpty then some (s.foldl (fun n c => 10 * n + (c.toNat - 48)) 0 : ℕ) else none
  num s := if s = "0.5".toList then some (1 / 2) else if s = "-0.5".toList ∨ s = "-5e-1".toList then some (-1 / 2) else none

theorem C88_claim_false : ¬ C88_claim := fun h => by
  obtain ⟨ns, h1, h2⟩ := h.1 digitsOnly kcOptions (by simp) ⟨"filteringFlag".toList, .flag, .flag false⟩ (by decide) rfl
  have : parseArgs digitsOnly kcOptions ["--filteringFlag=False".toList] =
      some [("nITER".toList, .int 400), ("filteringFlag".toList, .flag true), ("alpha".toList, .num 0), ("PPFlag".toList, .flag true),
        ("threshold".toList, .num (-1 / 10000)), ("PPOption".toList, .int 1), ("path".toList, .text "impa".toList)] := by decide +kernel
  have e : "--".toList ++ "filteringFlag".toList ++ "=False".toList = "--filteringFlag=False".toList := by decide
  rw [e, this] at h1
  cases h1
  revert h2
  decide

/-- The command line of the README with a value after a space, an abbreviation, a negative number and an option given twice. -/
example : parseArgs digitsOnly kcOptions ["--nITER=30".toList, "--alpha".toList, "0.5".toList, "--thr".toList, "-0.5".toList, "--PPFlag=".toList,
      "--filt=0".toList, "--nITER=40".toList] =
    some [("nITER".toList, .int 40), ("filteringFlag".toList, .flag true), ("alpha".toList, .num (1 / 2)), ("PPFlag".toList, .flag false),
      ("threshold".toList, .num (-1 / 2)), ("PPOption".toList, .int 1), ("path".toList, .text "impa".toList)] := by decide +kernel

/-- Rejected: two options start with `PP`; a number with an exponent after a space; a text that is no number; a missing text; `--help`. -/
example : [["--PP=1"], ["--threshold", "-5e-1"], ["--nITER=x"], ["--alpha"], ["--he"], ["5"]].map
    (fun a => parseArgs digitsOnly kcOptions (a.map String.toList)) = [none, none, none, none, none, none] := by decide +kernel

example : commandLine [⟨"nITER".toList, "7".toList, true⟩, ⟨"alpha".toList, "0.5".toList, false⟩] = ["--nITER=7".toList, "--alpha".toList, "0.5".toList] := by
  decide

example : LastSaid [⟨"a".toList, "1".toList, true⟩, ⟨"b".toList, "2".toList, true⟩, ⟨"a".toList, "3".toList, false⟩, ⟨"b".toList, "4".toList, true⟩]
    "a".toList "3".toList :=
  ⟨[⟨"a".toList, "1".toList, true⟩, ⟨"b".toList, "2".toList, true⟩], [⟨"b".toList, "4".toList, true⟩], false, rfl, by simp⟩

example : NegativeText "-12".toList ∧ NegativeText "-.5".toList ∧ ¬ NegativeText "-1e-4".toList ∧ ¬ NegativeText "-1.".toList ∧ ¬ NegativeText "-".toList := by
  simp only [← negative_iff]; decide

/-- Asking for a test file with `--randomTestFlag=False` gives a random test; the empty text gives the file. -/
example : (tspFiles digitsOnly ["--randomTestFlag=False".toList, "--saveFlag=1".toList, "--testFile=36".toList] = some ⟨none, none⟩) ∧
    tspFiles digitsOnly ["--randomTestFlag=".toList, "--saveFlag=1".toList, "--testFile=36".toList, "--outputPath=out".toList] =
      some ⟨some "../../data/../../data/impa_input/inputs_set36.pkl".toList, some "../../data/out_pp/outputs_set36.pkl".toList⟩ := by decide +kernel

/-- The sizes on the command line are checked although those of the file are used. -/
example : ksatFiles digitsOnly ["--nVariables=3".toList] = none ∧ ksatFiles digitsOnly ["--nVariables=4".toList] ≠ none := by decide +kernel

end Verif.Properties
