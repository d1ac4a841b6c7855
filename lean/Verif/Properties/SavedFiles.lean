import Verif.Proofs.SavedFiles
import Verif.Properties.CommandLine

/-!
C89: where results are saved.  The name of the file tells the output path, whether there was filtering, its parameter rounded to one digit, whether
there was post-processing and the number of the test.  Runs that differ in anything else overwrite each other's results.
-/

namespace Verif.Properties
open Verif Num Model Spec Proofs

/-- C89 in full: two runs of the TSP program that save into the same file were started with the same options. -/
def C89_claim : Prop :=
  ∀ (cv : Conversions) (args args' : List (List Char)) (ns ns' : List (List Char × ArgValue)) (f f' : RunFiles),
    parseArgs cv tspOptions args = some ns → parseArgs cv tspOptions args' = some ns' → runFiles ns = some f → runFiles ns' = some f' →
    f.save ≠ none → f.save = f'.save → ns = ns'

/-- C89, with the same output path and parameters that are not negative: the names agree exactly if filtering, post-processing and the number of
the test agree, and with filtering ten times the parameters have the same nearest integer. -/
theorem C89_same_file_partial {ns ns' : List (List Char × ArgValue)} {f f' : RunFiles} (hf : runFiles ns = some f) (hf' : runFiles ns' = some f')
    {name name' : List Char} (hn : f.save = some name) (hn' : f'.save = some name') (hpath : argText ns "outputPath" = argText ns' "outputPath")
    {alpha alpha' : ℚ} (ha : argNum ns "alpha" = some alpha) (ha' : argNum ns' "alpha" = some alpha') (h0 : 0 ≤ alpha) (h0' : 0 ≤ alpha') :
    name = name' ↔ argFlag ns "filteringFlag" = argFlag ns' "filteringFlag" ∧ argFlag ns "PPFlag" = argFlag ns' "PPFlag" ∧
      argInt ns "testFile" = argInt ns' "testFile" ∧ (argFlag ns "filteringFlag" = some true → nearestInt (alpha * 10) = nearestInt (alpha' * 10)) := by
  obtain ⟨output, flag, a, post, file, h1, h2, h3, h4, h5, -, -, rfl⟩ := saved_as hf hn
  obtain ⟨output', flag', a', post', file', h1', h2', h3', h4', h5', -, -, rfl⟩ := saved_as hf' hn'
  rw [ha, Option.some_inj] at h3
  rw [ha', Option.some_inj] at h3'
  rw [h1, h1', Option.some_inj] at hpath
  subst h3 h3' hpath
  rw [h2, h2', h4, h4', h5, h5', Option.some_inj, Option.some_inj, Option.some_inj, Option.some_inj, ← oneDigit_iff h0 h0']
  constructor
  · intro h
    obtain ⟨e1, e2⟩ := file_inj (folderEnd_slash _ _ _) (List.append_cancel_left h)
    obtain ⟨e3, e4, e5⟩ := folderEnd_inj e1
    exact ⟨e3, e4, e2, e5⟩
  · rintro ⟨rfl, rfl, rfl, h⟩
    cases flag with
    | true => unfold folderEnd; rw [if_pos rfl, if_pos rfl, h rfl]
    | false => rfl

/-- C89, parameters with one digit after the point: the name tells them apart. -/
theorem C89_one_digit_partial {ns ns' : List (List Char × ArgValue)} {f f' : RunFiles} (hf : runFiles ns = some f) (hf' : runFiles ns' = some f')
    {name : List Char} (hn : f.save = some name) (hn' : f'.save = some name) (hpath : argText ns "outputPath" = argText ns' "outputPath")
    {k k' : ℕ} (ha : argNum ns "alpha" = some ((k : ℚ) / 10)) (ha' : argNum ns' "alpha" = some ((k' : ℚ) / 10)) (hflag : argFlag ns "filteringFlag" = some true) :
    argNum ns "alpha" = argNum ns' "alpha" := by
  have h := ((C89_same_file_partial hf hf' hn hn' hpath ha ha' (by positivity) (by positivity)).mp rfl).2.2.2 hflag
  rw [div_mul_cancel₀ _ (by norm_num), div_mul_cancel₀ _ (by norm_num), nearest_nat, nearest_nat] at h
  rw [ha, ha', h]

/-- C89, any parameters: those with the same name differ by at most a tenth. -/
theorem C89_tenth_partial {ns ns' : List (List Char × ArgValue)} {f f' : RunFiles} (hf : runFiles ns = some f) (hf' : runFiles ns' = some f')
    {name : List Char} (hn : f.save = some name) (hn' : f'.save = some name) (hpath : argText ns "outputPath" = argText ns' "outputPath")
    {alpha alpha' : ℚ} (ha : argNum ns "alpha" = some alpha) (ha' : argNum ns' "alpha" = some alpha') (h0 : 0 ≤ alpha) (h0' : 0 ≤ alpha')
    (hflag : argFlag ns "filteringFlag" = some true) : |alpha - alpha'| ≤ 1 / 10 := by
  have h := ((C89_same_file_partial hf hf' hn hn' hpath ha ha' h0 h0').mp rfl).2.2.2 hflag
  have h1 := abs_le.mp (nearest_near (x := alpha * 10) (by positivity))
  have h2 := abs_le.mp (nearest_near (x := alpha' * 10) (by positivity))
  rw [h] at h1
  rw [abs_le]
  constructor <;> linarith [h1.1, h1.2, h2.1, h2.2]

/-- C89, saving needs an input: a run that saves its results has loaded the test with the number in the name. -/
theorem C89_loaded {ns : List (List Char × ArgValue)} {f : RunFiles} (hf : runFiles ns = some f) (hn : f.save ≠ none) :
    ∃ file input folder, argInt ns "testFile" = some file ∧ f.load = some (input ++ "/inputs_set".toList ++ intText file ++ ".pkl".toList) ∧
      f.save = some (folder ++ "/outputs_set".toList ++ intText file ++ ".pkl".toList) := by
  unfold runFiles at hf
  simp only [Option.bind_eq_bind, Option.bind_eq_some_iff, Option.some.injEq] at hf
  obtain ⟨input, _, output, h1, flag, h2, alpha, h3, post, h4, save, h5, random, h6, file, h7, rfl⟩ := hf
  dsimp only at hn ⊢
  split at hn
  · rename_i hc
    rw [Bool.and_eq_true, Bool.not_eq_true'] at hc
    rw [hc.1, hc.2]
    exact ⟨file, _, _, h7, rfl, rfl⟩
  · exact absurd rfl hn

/-- Every option has a value of its type. -/
theorem typed_of_parse {cv : Conversions} {opts : List ArgOption} (ho : opts ∈ [tspOptions, ksatOptions, kcOptions]) {settings : List Setting}
    (hs : ∀ s ∈ settings, (∃ o ∈ opts, o.name = s.name) ∧ (s.joined = true ∨ s.text.head? ≠ some '-')) {ns : List (List Char × ArgValue)}
    (hns : parseArgs cv opts (commandLine settings) = some ns) {o : ArgOption} (hm : o ∈ opts) :
    ns.lookup o.name = some o.default ∨ ∃ text x, Means cv o.kind text x ∧ ns.lookup o.name = some x := by
  obtain ⟨h1, h2⟩ := (C88_settings ho hs).2 ns hns o hm
  rcases notSaid_or_lastSaid settings o.name with h | ⟨text, h⟩
  · exact .inl (h1 h)
  · obtain ⟨x, hx, hl⟩ := h2 text h
    exact .inr ⟨text, x, hx, hl⟩

theorem typed_runs {cv : Conversions} {opts : List ArgOption} (ho : opts ∈ [tspOptions, ksatOptions]) {settings : List Setting}
    (hs : ∀ s ∈ settings, (∃ o ∈ opts, o.name = s.name) ∧ (s.joined = true ∨ s.text.head? ≠ some '-')) {ns : List (List Char × ArgValue)}
    (hns : parseArgs cv opts (commandLine settings) = some ns) : ∃ f, runFiles ns = some f := by
  have ho' : opts ∈ [tspOptions, ksatOptions, kcOptions] := by
    simp only [List.mem_cons, List.not_mem_nil, or_false] at ho ⊢
    tauto
  have hflag : ∀ (name : String) (b : Bool), (⟨name.toList, .flag, .flag b⟩ : ArgOption) ∈ opts → ∃ b, argFlag ns name = some b := by
    intro name b hm
    unfold argFlag
    rcases typed_of_parse ho' hs hns hm with h | ⟨text, x, hx, h⟩
    · dsimp only at h; rw [h]; exact ⟨_, rfl⟩
    · dsimp only at h hx; rw [h]; cases hx <;> exact ⟨_, rfl⟩
  have hnum : ∀ (name : String) (b : ℚ), (⟨name.toList, .num, .num b⟩ : ArgOption) ∈ opts → ∃ b, argNum ns name = some b := by
    intro name b hm
    unfold argNum
    rcases typed_of_parse ho' hs hns hm with h | ⟨text, x, hx, h⟩
    · dsimp only at h; rw [h]; exact ⟨_, rfl⟩
    · dsimp only at h hx; rw [h]; cases hx; exact ⟨_, rfl⟩
  have hint : ∀ (name : String) (b : ℤ), (⟨name.toList, .int, .int b⟩ : ArgOption) ∈ opts → ∃ b, argInt ns name = some b := by
    intro name b hm
    unfold argInt
    rcases typed_of_parse ho' hs hns hm with h | ⟨text, x, hx, h⟩
    · dsimp only at h; rw [h]; exact ⟨_, rfl⟩
    · dsimp only at h hx; rw [h]; cases hx; exact ⟨_, rfl⟩
  have htext : ∀ (name : String) (b : List Char), (⟨name.toList, .text, .text b⟩ : ArgOption) ∈ opts → ∃ b, argText ns name = some b := by
    intro name b hm
    unfold argText
    rcases typed_of_parse ho' hs hns hm with h | ⟨text, x, hx, h⟩
    · dsimp only at h; rw [h]; exact ⟨_, rfl⟩
    · dsimp only at h hx; rw [h]; cases hx; exact ⟨_, rfl⟩
  simp only [List.mem_cons, List.not_mem_nil, or_false] at ho
  obtain ⟨x1, e1⟩ := htext "inputPath" "../../data/impa_input".toList (by rcases ho with rfl | rfl <;> decide)
  obtain ⟨x2, e2⟩ := htext "outputPath" "../../data/impa_output".toList (by rcases ho with rfl | rfl <;> decide)
  obtain ⟨x3, e3⟩ : ∃ b, argFlag ns "filteringFlag" = some b := by
    rcases ho with rfl | rfl
    · exact hflag _ false (by decide)
    · exact hflag _ true (by decide)
  obtain ⟨x4, e4⟩ : ∃ b, argNum ns "alpha" = some b := by
    rcases ho with rfl | rfl
    · exact hnum _ (7 / 10) (by simp [tspOptions])
    · exact hnum _ (1 / 2) (by simp [ksatOptions])
  obtain ⟨x5, e5⟩ : ∃ b, argFlag ns "PPFlag" = some b := by
    rcases ho with rfl | rfl
    · exact hflag _ true (by decide)
    · exact hflag _ false (by decide)
  obtain ⟨x6, e6⟩ := hflag "saveFlag" false (by rcases ho with rfl | rfl <;> decide)
  obtain ⟨x7, e7⟩ := hflag "randomTestFlag" false (by rcases ho with rfl | rfl <;> decide)
  obtain ⟨x8, e8⟩ := hint "testFile" 9000 (by rcases ho with rfl | rfl <;> decide)
  unfold runFiles
  simp only [e1, e2, e3, e4, e5, e6, e7, e8, Option.bind_eq_bind, Option.bind_some]
  exact ⟨_, rfl⟩

/-- C88, the TSP program: it goes on to its run exactly if all texts can be converted. -/
theorem C88_tsp_runs {cv : Conversions} {settings : List Setting}
    (hs : ∀ s ∈ settings, (∃ o ∈ tspOptions, o.name = s.name) ∧ (s.joined = true ∨ s.text.head? ≠ some '-')) :
    tspFiles cv (commandLine settings) ≠ none ↔ ∀ s ∈ settings, ∀ o ∈ tspOptions, o.name = s.name → ∃ x, Means cv o.kind s.text x := by
  rw [← (C88_settings (cv := cv) (opts := tspOptions) (by simp) hs).1]
  unfold tspFiles
  cases h : parseArgs cv tspOptions (commandLine settings) with
  | none => simp
  | some ns =>
    obtain ⟨f, hf⟩ := typed_runs (by simp) hs h
    simp [hf]

/-- C88, the k-SAT program: it goes on to its run exactly if all texts can be converted and a clause has fewer variables than there are in all.
The numbers are those of the last settings, 10 variables and 3 in a clause if they are not mentioned; a test that is loaded from a file is
refused because of these numbers too, although it brings its own. -/
theorem C88_ksat_runs {cv : Conversions} {settings : List Setting}
    (hs : ∀ s ∈ settings, (∃ o ∈ ksatOptions, o.name = s.name) ∧ (s.joined = true ∨ s.text.head? ≠ some '-')) {n k : ℤ}
    (hn : NotSaid settings "nVariables".toList ∧ n = 10 ∨ ∃ t, LastSaid settings "nVariables".toList t ∧ cv.int t = some n)
    (hk : NotSaid settings "kVariable".toList ∧ k = 3 ∨ ∃ t, LastSaid settings "kVariable".toList t ∧ cv.int t = some k) :
    ksatFiles cv (commandLine settings) ≠ none ↔
      (∀ s ∈ settings, ∀ o ∈ ksatOptions, o.name = s.name → ∃ x, Means cv o.kind s.text x) ∧ k < n := by
  rw [← (C88_settings (cv := cv) (opts := ksatOptions) (by simp) hs).1]
  unfold ksatFiles
  cases h : parseArgs cv ksatOptions (commandLine settings) with
  | none => simp
  | some ns =>
    obtain ⟨f, hf⟩ := typed_runs (by simp) hs h
    have key : ∀ (name : String) (d z : ℤ), (⟨name.toList, .int, .int d⟩ : ArgOption) ∈ ksatOptions →
        (NotSaid settings name.toList ∧ z = d ∨ ∃ t, LastSaid settings name.toList t ∧ cv.int t = some z) → argInt ns name = some z := by
      intro name d z hm hz
      obtain ⟨h1, h2⟩ := (C88_settings (by simp) hs).2 ns h _ hm
      unfold argInt
      rcases hz with ⟨a, rfl⟩ | ⟨t, a, b⟩
      · rw [show ns.lookup name.toList = _ from h1 a]
      · obtain ⟨x, hx, hl⟩ := h2 t a
        dsimp only at hx hl
        rw [hl]
        cases hx with
        | int hx => rw [b] at hx; simp only [Option.some.injEq] at hx; rw [hx]
    rw [Option.bind_eq_bind, Option.bind_some, key "nVariables" 10 n (by decide) hn, Option.bind_eq_bind, Option.bind_some, key "kVariable" 3 k (by decide) hk]
    simp only [Option.bind_some, hf]
    by_cases hc : k ≥ n
    · rw [if_pos hc]; simp [hc]
    · rw [if_neg hc]; simp; omega

/-- A conversion for examples: digits, possibly with a point and digits after it. -/
def decimals : Conversions where
  int s := if s.all Char.isDigit && !s.isEmpty then some (Nat.ofDigitChars 10 s 0 : ℕ) else none
  num s := some (Nat.ofDigitChars 10 (s.filter Char.isDigit) 0 / 10 ^ ((s.dropWhile (· != '.')).length - 1) : ℚ)

/-- Filtering with 0.46 and with 0.54 saves into the same file, with 0.55 into another. -/
example : (tspFiles decimals ["--saveFlag=1".toList, "--filteringFlag=1".toList, "--alpha=0.46".toList]).map RunFiles.save =
      (tspFiles decimals ["--saveFlag=1".toList, "--filteringFlag=1".toList, "--alpha=0.54".toList]).map RunFiles.save ∧
    (tspFiles decimals ["--saveFlag=1".toList, "--filteringFlag=1".toList, "--alpha=0.54".toList]).map RunFiles.save =
      some (some "../../data/../../data/impa_output_alpha0.5_pp/outputs_set9000.pkl".toList) ∧
    (tspFiles decimals ["--saveFlag=1".toList, "--filteringFlag=1".toList, "--alpha=0.55".toList]).map RunFiles.save =
      some (some "../../data/../../data/impa_output_alpha0.6_pp/outputs_set9000.pkl".toList) := by decide +kernel

/-- Four variables and four in a clause, the second time three: the run starts; with the first setting alone it does not. -/
example : ksatFiles decimals (commandLine [⟨"nVariables".toList, "4".toList, true⟩, ⟨"kVariable".toList, "4".toList, false⟩,
    ⟨"kVariable".toList, "3".toList, true⟩]) ≠ none ∧
    ksatFiles decimals (commandLine [⟨"nVariables".toList, "4".toList, true⟩, ⟨"kVariable".toList, "4".toList, false⟩]) = none ∧
    tspFiles decimals (commandLine [⟨"nNodes".toList, "four".toList, true⟩]) = none := by decide +kernel

/-- The files of the two runs below. -/
def twoRunFiles : RunFiles :=
  ⟨some "../../data/../../data/impa_input/inputs_set9000.pkl".toList, some "../../data/../../data/impa_output_pp/outputs_set9000.pkl".toList⟩

/-- A run with 10 iterations and one with 500 and augmentation save into the same file. -/
theorem C89_claim_false : ¬ C89_claim := fun h => by
  have := h decimals ["--saveFlag=1".toList, "--nITER=10".toList] ["--saveFlag=1".toList, "--nITER=500".toList, "--augmFlag=1".toList]
  cases h1 : parseArgs decimals tspOptions ["--saveFlag=1".toList, "--nITER=10".toList] with
  | none => revert h1; decide +kernel
  | some ns =>
  cases h2 : parseArgs decimals tspOptions ["--saveFlag=1".toList, "--nITER=500".toList, "--augmFlag=1".toList] with
  | none => revert h2; decide +kernel
  | some ns' =>
  have e1 : runFiles ns = some twoRunFiles := by
    have : (parseArgs decimals tspOptions ["--saveFlag=1".toList, "--nITER=10".toList]).bind runFiles = some twoRunFiles := by decide +kernel
    rw [h1] at this
    exact this
  have e2 : runFiles ns' = some twoRunFiles := by
    have : (parseArgs decimals tspOptions ["--saveFlag=1".toList, "--nITER=500".toList, "--augmFlag=1".toList]).bind runFiles = some twoRunFiles := by decide +kernel
    rw [h2] at this
    exact this
  have e := this ns ns' _ _ h1 h2 e1 e2 (Option.some_ne_none _) rfl
  rw [← e, ← h1] at h2
  revert h2
  decide +kernel

end Verif.Properties
