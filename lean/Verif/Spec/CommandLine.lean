import Mathlib.Data.Nat.Notation

/-! What a command line means: settings of named options, of which the last one counts. -/

namespace Verif.Spec

/-- One setting on a command line: `--name=text` if `joined`, otherwise `--name text`. -/
structure Setting where
  name : List Char
  text : List Char
  joined : Bool

/-- The arguments that a shell passes for the setting. -/
def Setting.written (s : Setting) : List (List Char) :=
  if s.joined then ["--".toList ++ s.name ++ "=".toList ++ s.text] else ["--".toList ++ s.name, s.text]

/-- The whole command line. -/
def commandLine (settings : List Setting) : List (List Char) := (settings.map Setting.written).flatten

/-- `text` is what the last of the settings of `name` says. -/
def LastSaid (settings : List Setting) (name text : List Char) : Prop :=
  ∃ before after joined, settings = before ++ ⟨name, text, joined⟩ :: after ∧ ∀ s ∈ after, s.name ≠ name

/-- No setting mentions `name`. -/
def NotSaid (settings : List Setting) (name : List Char) : Prop := ∀ s ∈ settings, s.name ≠ name

/-- A dash and digits, or a dash, digits or nothing, a point and digits. -/
def NegativeText (t : List Char) : Prop :=
  (∃ a, t = '-' :: a ∧ a ≠ [] ∧ ∀ c ∈ a, c.isDigit = true) ∨
    ∃ a b, t = '-' :: (a ++ '.' :: b) ∧ b ≠ [] ∧ (∀ c ∈ a, c.isDigit = true) ∧ ∀ c ∈ b, c.isDigit = true

end Verif.Spec
