import Mathlib.Data.Rat.Floor
import Verif.Model.KcCall

/-!
Model of the command lines of the three programs (/repo/src/impa/main_tsp.py:12-155, main_ksat.py:11-140, main_kc_mwm.py:13-74) and of the
flags of the unit tests (/repo/test/src/unit_test_*.sh, /repo/test/include/ut_*.hpp).

`argparse` is modelled by its documented behaviour: options `--name=value` and `--name value`, unambiguous abbreviations of the names, values
that look like options are rejected unless they are negative numbers or contain a space.  All ways of leaving the program (`--help`, a wrong
command line, a value that cannot be converted) are `none`.  The argument `--` is treated as wrong.  Digits are ASCII digits.  How texts are
converted to integers and numbers is a parameter; numbers are finite.
-/

namespace Verif.Model
open Verif Num

/-- The `type=` of an option: `int`, `np_impa_lib`, `bool` and `str`. -/
inductive ArgKind
  | int | num | flag | text
  deriving DecidableEq

/-- A converted value. -/
inductive ArgValue
  | int (z : ℤ) | num (x : ℚ) | flag (b : Bool) | text (s : List Char)
  deriving DecidableEq

/-- One call of `add_argument`; the name is without the two dashes. -/
structure ArgOption where
  name : List Char
  kind : ArgKind
  default : ArgValue
  deriving DecidableEq

/-- `int(text)` and `np_impa_lib(text)`; `none` is a `ValueError`. -/
structure Conversions where
  int : List Char → Option ℤ
  num : List Char → Option ℚ

/-- The conversion of an option: `type(text)`.  `bool(text)` is whether the text is not empty. -/
def convertArg (cv : Conversions) : ArgKind → List Char → Option ArgValue
  | .int, s => (cv.int s).map .int
  | .num, s => (cv.num s).map .num
  | .flag, s => some (.flag (!s.isEmpty))
  | .text, s => some (.text s)

/-- The text before the first `=`. -/
def beforeEq (t : List Char) : List Char := t.takeWhile (· != '=')

/-- The text after the first `=`, if there is one. -/
def afterEq (t : List Char) : Option (List Char) := if t.contains '=' then some ((t.dropWhile (· != '=')).drop 1) else none

/-- The pattern `-\d+` or `-\d*\.\d+` of `argparse`. -/
def looksNegative : List Char → Bool
  | '-' :: t =>
    (!t.isEmpty && t.all Char.isDigit) ||
      (let r := t.dropWhile Char.isDigit
       r.head? == some '.' && !(r.drop 1).isEmpty && (r.drop 1).all Char.isDigit)
  | _ => false

/-- How `argparse` sees one argument. -/
inductive ArgClass
  | value
  | option (o : ArgOption) (text : Option (List Char))
  | wrong
  deriving DecidableEq

/-- `ArgumentParser._parse_optional` for options with two dashes and `-h`, `--help`. -/
def classifyArg (opts : List ArgOption) (t : List Char) : ArgClass :=
  if t.head? != some '-' then .value
  else
    match opts.find? (fun o => '-' :: '-' :: o.name == t) with
    | some o => .option o none
    | none =>
      if t == ['-'] then .value
      else
        match opts.find? (fun o => '-' :: '-' :: o.name == beforeEq t && t.contains '=') with
        | some o => .option o (afterEq t)
        | none =>
          match opts.filter (fun o => ['-', '-'].isPrefixOf t && (beforeEq t).isPrefixOf ('-' :: '-' :: o.name)),
              ['-', '-'].isPrefixOf t && (beforeEq t).isPrefixOf "--help".toList with
          | [o], false => .option o (afterEq t)
          | _ :: _, _ => .wrong
          | [], true => .wrong
          | [], false =>
            if ['-', 'h'].isPrefixOf t then .wrong
            else if looksNegative t then .value
            else if t.contains ' ' then .value
            else .wrong

/-- `ArgumentParser.parse_args`: the values given, the last one first. -/
def parseFrom (cv : Conversions) (opts : List ArgOption) : List (List Char) → List (List Char × ArgValue) → Option (List (List Char × ArgValue))
  | [], given => some given
  | [t], given =>
    match classifyArg opts t with
    | .option o (some v) => (convertArg cv o.kind v).map fun x => (o.name, x) :: given
    | _ => none
  | t :: v :: rest, given =>
    match classifyArg opts t with
    | .option o (some w) => (convertArg cv o.kind w).bind fun x => parseFrom cv opts (v :: rest) ((o.name, x) :: given)
    | .option o none =>
      match classifyArg opts v with
      | .value => (convertArg cv o.kind v).bind fun x => parseFrom cv opts rest ((o.name, x) :: given)
      | _ => none
    | _ => none

/-- The resulting namespace: every option with the last value given or its default. -/
def parseArgs (cv : Conversions) (opts : List ArgOption) (args : List (List Char)) : Option (List (List Char × ArgValue)) :=
  (parseFrom cv opts args []).map fun given => opts.map fun o => (o.name, (given.lookup o.name).getD o.default)

/-- main_tsp.py:13-59. -/
def tspOptions : List ArgOption :=
  [⟨"nITER".toList, .int, .int 400⟩, ⟨"nNodes".toList, .int, .int 10⟩, ⟨"threshold".toList, .num, .num (-1 / 10000)⟩,
   ⟨"symFlag".toList, .flag, .flag false⟩, ⟨"augmFlag".toList, .flag, .flag false⟩, ⟨"exactSolFlag".toList, .flag, .flag false⟩,
   ⟨"lkhSolFlag".toList, .flag, .flag true⟩, ⟨"simAnnSolFlag".toList, .flag, .flag false⟩, ⟨"resetFlag".toList, .flag, .flag false⟩,
   ⟨"filteringFlag".toList, .flag, .flag false⟩, ⟨"alpha".toList, .num, .num (7 / 10)⟩, ⟨"testFile".toList, .int, .int 9000⟩,
   ⟨"saveFlag".toList, .flag, .flag false⟩, ⟨"randomTestFlag".toList, .flag, .flag false⟩,
   ⟨"inputPath".toList, .text, .text "../../data/impa_input".toList⟩, ⟨"outputPath".toList, .text, .text "../../data/impa_output".toList⟩,
   ⟨"maxCount".toList, .int, .int 10⟩, ⟨"PPFlag".toList, .flag, .flag true⟩, ⟨"KOPTFlag".toList, .flag, .flag false⟩,
   ⟨"maxAugmCount".toList, .int, .int 200⟩]

/-- main_ksat.py:12-45. -/
def ksatOptions : List ArgOption :=
  [⟨"nITER".toList, .int, .int 200⟩, ⟨"nVariables".toList, .int, .int 10⟩, ⟨"nConstraints".toList, .int, .int 3⟩,
   ⟨"kVariable".toList, .int, .int 3⟩, ⟨"threshold".toList, .num, .num (-1 / 10000)⟩, ⟨"PPElements".toList, .int, .int 2⟩,
   ⟨"filteringFlag".toList, .flag, .flag true⟩, ⟨"alpha".toList, .num, .num (1 / 2)⟩, ⟨"testFile".toList, .int, .int 9000⟩,
   ⟨"saveFlag".toList, .flag, .flag false⟩, ⟨"typeMetrics".toList, .int, .int 0⟩, ⟨"var".toList, .num, .num 3⟩,
   ⟨"overwrite".toList, .flag, .flag false⟩, ⟨"PPFlag".toList, .flag, .flag false⟩, ⟨"randomTestFlag".toList, .flag, .flag false⟩,
   ⟨"inputPath".toList, .text, .text "../../data/impa_input".toList⟩, ⟨"outputPath".toList, .text, .text "../../data/impa_output".toList⟩]

/-- main_kc_mwm.py:14-25. -/
def kcOptions : List ArgOption :=
  [⟨"nITER".toList, .int, .int 400⟩, ⟨"filteringFlag".toList, .flag, .flag false⟩, ⟨"alpha".toList, .num, .num 0⟩,
   ⟨"PPFlag".toList, .flag, .flag true⟩, ⟨"threshold".toList, .num, .num (-1 / 10000)⟩, ⟨"PPOption".toList, .int, .int 1⟩,
   ⟨"path".toList, .text, .text "impa".toList⟩]

/-- Reading one entry of the namespace. -/
def argInt (ns : List (List Char × ArgValue)) (name : String) : Option ℤ :=
  match ns.lookup name.toList with
  | some (.int z) => some z
  | _ => none

def argNum (ns : List (List Char × ArgValue)) (name : String) : Option ℚ :=
  match ns.lookup name.toList with
  | some (.num x) => some x
  | _ => none

def argFlag (ns : List (List Char × ArgValue)) (name : String) : Option Bool :=
  match ns.lookup name.toList with
  | some (.flag b) => some b
  | _ => none

def argText (ns : List (List Char × ArgValue)) (name : String) : Option (List Char) :=
  match ns.lookup name.toList with
  | some (.text s) => some s
  | _ => none

/-- main_kc_mwm.py:36-74 for one loaded input.  A negative number of iterations is none at all. -/
def mainKcMwm (cv : Conversions) (d : TeamData) (args : List (List Char)) (l : KcLoad) : Option KcResult := do
  let ns ← parseArgs cv kcOptions args
  let k ← argInt ns "nITER"
  let flag ← argFlag ns "filteringFlag"
  let post ← argFlag ns "PPFlag"
  let alpha ← argNum ns "alpha"
  let threshold ← argNum ns "threshold"
  let option ← argInt ns "PPOption"
  kcCall d k.toNat flag alpha post option.toNat (fin threshold) l

/-- `str(z)` of an integer. -/
def intText (z : ℤ) : List Char := (if z < 0 then ['-'] else []) ++ Nat.toDigits 10 z.natAbs

/-- The nearest integer of a number that is not negative, of two nearest ones the even one. -/
def nearestInt (x : ℚ) : ℕ :=
  let f := ⌊x⌋.toNat
  if x - f < 1 / 2 then f else if 1 / 2 < x - f then f + 1 else if f % 2 = 0 then f else f + 1

/-- `"{:.1f}".format(x)`: rounded to one digit after the point. -/
def oneDigit (x : ℚ) : List Char :=
  (if x < 0 then ['-'] else []) ++ Nat.toDigits 10 (nearestInt (|x| * 10) / 10) ++ ['.'] ++ Nat.toDigits 10 (nearestInt (|x| * 10) % 10)

/-- Which files a run uses: the one it loads and the one it writes. -/
structure RunFiles where
  load : Option (List Char)
  save : Option (List Char)
  deriving DecidableEq

/-- main_tsp.py:110-155, main_ksat.py:74, 94-140 and `save_outputs` (Impa.py:1117-1123, 2771-2777): `folder_inputs`, `folder_outputs` and the
names of the files.  An input is loaded unless `randomTestFlag` is set; the results are saved if `saveFlag` is set and an input was loaded. -/
def runFiles (ns : List (List Char × ArgValue)) : Option RunFiles := do
  let input ← argText ns "inputPath"
  let output ← argText ns "outputPath"
  let flag ← argFlag ns "filteringFlag"
  let alpha ← argNum ns "alpha"
  let post ← argFlag ns "PPFlag"
  let save ← argFlag ns "saveFlag"
  let random ← argFlag ns "randomTestFlag"
  let file ← argInt ns "testFile"
  let folder := "../../data/".toList ++ output ++ (if flag then "_alpha".toList ++ oneDigit alpha else []) ++ (if post then "_pp".toList else [])
  some { load := if random then none else some ("../../data/".toList ++ input ++ "/inputs_set".toList ++ intText file ++ ".pkl".toList),
         save := if save && !random then some (folder ++ "/outputs_set".toList ++ intText file ++ ".pkl".toList) else none }

/-- main_tsp.py:65-155. -/
def tspFiles (cv : Conversions) (args : List (List Char)) : Option RunFiles := (parseArgs cv tspOptions args).bind runFiles

/-- main_ksat.py:51-140, with the check of the sizes on the command line (main_ksat.py:70-72). -/
def ksatFiles (cv : Conversions) (args : List (List Char)) : Option RunFiles := do
  let ns ← parseArgs cv ksatOptions args
  let n ← argInt ns "nVariables"
  let k ← argInt ns "kVariable"
  if k ≥ n then none else runFiles ns

/-- The environment variable `FILT_FLAG` of the unit tests (unit_test_tsp.sh:14, 29): `none` if it is not set.  The C++ tests convert the
pointer returned by `getenv` to `bool` (ut_knapsack.hpp:19-23, ut_graphical_model.hpp:21-30, 100-108, 181-188, 286-297,
ut_update_degree_constraint.hpp:19-25, ut_update_ksat_constraint.hpp:23-29). -/
def nativeTestFlag (setting : Option (List Char)) : Bool := setting.isSome

/-- The Python tests get `--fFlag=$FILT_FLAG` or `--filteringFlag=$FILT_FLAG` (unit_test_tsp.sh:33, 35, unit_test_kc_mwm.sh, unit_test_ksat.sh:34 and the files
impalib_unit_tests.py; the other options are left out); the
shell replaces a variable that is not set by nothing.  The value has no spaces. -/
def pythonTestFlag (cv : Conversions) (name : List Char) (setting : Option (List Char)) : Option ArgValue :=
  (parseArgs cv [⟨name, .flag, .flag true⟩] ['-' :: '-' :: name ++ '=' :: setting.getD []]).bind fun ns => ns.lookup name

end Verif.Model
