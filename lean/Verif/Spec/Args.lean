import Mathlib.Data.String.Basic
import Mathlib.Data.List.Basic

/-!
# What a command line of the program means

Nothing here refers to the model.
-/

namespace VGPA.Spec

/-- The two files that can be named. -/
inductive FileOption
  | params
  | data
deriving DecidableEq

/-- The full name of the option. -/
def FileOption.name : FileOption → String
  | .params => "--params"
  | .data => "--data"

/-- A name of an option may be cut short, but one letter has to be there. -/
def ShortFor (full w : String) : Prop := (∃ t, w ++ t = full) ∧ 3 ≤ w.length

/-- A minus sign followed by digits, or by digits, a point and digits; the digits before a point may be missing. -/
def NegativeNumber (v : String) : Prop :=
  ∃ a b : List Char, (∀ c ∈ a, c.isDigit) ∧ (∀ c ∈ b, c.isDigit) ∧
    ((a ≠ [] ∧ v.toList = '-' :: a) ∨ (b ≠ [] ∧ v.toList = '-' :: (a ++ '.' :: b)))

/-- A word that can follow the name of an option as its value. Words with a dash in front are taken for options, unless they are
a negative number or contain a space and are not the name of an option (perhaps cut short, perhaps with `=` and a value). -/
def Value (v : String) : Prop :=
  v = "" ∨ (∃ c t, v.toList = c :: t ∧ c ≠ '-') ∨ v = "-" ∨
  ((∃ t, v.toList = '-' :: t) ∧ (NegativeNumber v ∨ ' ' ∈ v.toList) ∧ ¬ (∃ t, v.toList = '-' :: 'h' :: t) ∧
    ∀ w t, (v = w ∨ v = w ++ "=" ++ t) → w ≠ "--" ∧ ¬ ShortFor "--params" w ∧ ¬ ShortFor "--data" w ∧ ¬ ShortFor "--help" w)

/-- The command line is a sequence of settings: `--params FILE`, `--params=FILE`, `--data FILE`, `--data=FILE`. -/
inductive Settings : List String → List (FileOption × String) → Prop
  | nil : Settings [] []
  | separate (o : FileOption) (w v : String) (ws : List String) (s) : ShortFor o.name w → Value v → Settings ws s →
      Settings (w :: v :: ws) ((o, v) :: s)
  | joined (o : FileOption) (w v : String) (ws : List String) (s) : ShortFor o.name w → Settings ws s →
      Settings ((w ++ "=" ++ v) :: ws) ((o, v) :: s)

/-- The value that counts is the last one. -/
def lastOf (o : FileOption) (s : List (FileOption × String)) : Option String :=
  ((s.filter fun x => x.1 = o).map (·.2)).getLast?

/-- A word that asks for help. -/
def HelpWord (w : String) : Prop := ShortFor "--help" w ∨ ∃ t, w.toList = '-' :: 'h' :: t

end VGPA.Spec
