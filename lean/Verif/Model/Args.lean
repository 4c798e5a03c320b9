import Verif.Model.Main

/-!
# The arguments of the command line program, `/repo/vgpa_main.py:148-177`

`argparse` is the one of CPython 3.11.10 (`Lib/argparse.py`), for the parser that the program builds: the options `--params` and
`--data` with one argument each, `-h` and `--help` without, and no positional arguments. Words are lists of characters.
-/

namespace VGPA

/-- The three actions of the parser, `/repo/vgpa_main.py:157-165`; `help` is the one that `ArgumentParser` adds. -/
inductive ArgAction
  | help
  | params
  | data
deriving DecidableEq

/-- `_option_string_actions`: the options of `/repo/vgpa_main.py:157-165` in order of insertion, with the two of `help`. -/
def optionActions : List (List Char × ArgAction) :=
  [("-h".toList, .help), ("--help".toList, .help), ("--params".toList, .params), ("--data".toList, .data)]

/-- `str.partition('=')` as used by the parser of `/repo/vgpa_main.py:154`: what is before the first `=`, and what follows it if there is one. -/
def partitionEq (w : List Char) : List Char × Option (List Char) :=
  (w.takeWhile (· ≠ '='), match w.dropWhile (· ≠ '=') with | [] => none | _ :: r => some r)

/-- An option as `_parse_optional` returns it for `parser.parse_args()`, `/repo/vgpa_main.py:168`: the action, whether the name
of the option has a single dash, whether there is a `=`, and the argument written into the same word. -/
structure OptionTuple where
  action : ArgAction
  single : Bool
  sep : Bool
  explicit : Option (List Char)

/-- What a word is taken for by `parser.parse_args()`, `/repo/vgpa_main.py:168`. -/
inductive WordKind
  | arg
  | unknown
  | ambiguous
  | opt (t : OptionTuple)

/-- `_negative_number_matcher`, of the parser of `/repo/vgpa_main.py:154`: `^-\d+$|^-\d*\.\d+$`. Simplification: ASCII digits, and no newline at the end. -/
def negativeNumber (w : List Char) : Bool :=
  match w with
  | '-' :: t => (t ≠ [] && t.all Char.isDigit)
      || (match t.dropWhile Char.isDigit with | '.' :: r => r ≠ [] && r.all Char.isDigit | _ => false)
  | _ => false

/-- `_get_option_tuples`, of the parser of `/repo/vgpa_main.py:154`, for a word of at least two characters that begins with a dash. -/
def optionTuples (w : List Char) : List OptionTuple :=
  if w[1]? = some '-' then
    (optionActions.filter fun x => (partitionEq w).1.isPrefixOf x.1).map
      fun x => ⟨x.2, x.1[1]? ≠ some '-', (partitionEq w).2.isSome, (partitionEq w).2⟩
  else
    optionActions.filterMap fun x =>
      if x.1 = w.take 2 then some ⟨x.2, x.1[1]? ≠ some '-', false, some (w.drop 2)⟩
      else if w.isPrefixOf x.1 then some ⟨x.2, x.1[1]? ≠ some '-', false, none⟩
      else none

/-- `_parse_optional`, of the parser of `/repo/vgpa_main.py:154`. -/
def parseOptional (w : List Char) : WordKind :=
  match w with
  | [] => .arg
  | c :: t =>
    if c ≠ '-' then .arg
    else match optionActions.lookup w with
      | some a => .opt ⟨a, w[1]? ≠ some '-', false, none⟩
      | none =>
        if t = [] then .arg
        else match (if (partitionEq w).2.isSome then optionActions.lookup (partitionEq w).1 else none) with
          | some a => .opt ⟨a, w[1]? ≠ some '-', true, (partitionEq w).2⟩
          | none => match optionTuples w with
            | _ :: _ :: _ => .ambiguous
            | [x] => .opt x
            | [] => if negativeNumber w then .arg else if ' ' ∈ w then .arg else .unknown

/-- How parsing ends: with `sys.exit(status)`, or with the values of `args.params` and `args.data`, `/repo/vgpa_main.py:168`. -/
inductive Parsed
  | exits (status : ℕ)
  | args (params data : Option String)
deriving DecidableEq

/-- The loop of `consume_optional` for `-h` with more characters in the word, `/repo/vgpa_main.py:168`: the status of the exit.
`sep` tells whether a `=` comes before the rest. Help is shown (status 0) as soon as the word is read; a character that is no
option is only put on the list of unknown words. -/
def shortHelp : Bool → List Char → ℕ
  | _, [] => 2
  | true, _ => 2
  | false, c :: r =>
    if c = '-' then 2
    else if c = 'h' then
      match r with
      | [] => 0
      | '=' :: r' => shortHelp true r'
      | c' :: r' => shortHelp false (c' :: r')
    else 0

/-- The words of the command line with what they are taken for, `/repo/vgpa_main.py:168`: after `--` all are arguments; `none` is
the word `--` itself. -/
def classify : List String → List (String × Option WordKind)
  | [] => []
  | w :: ws =>
    if w = "--" then (w, none) :: ws.map fun v => (v, some .arg)
    else (w, some (parseOptional w.toList)) :: classify ws

/-- The loop of `_parse_known_args` and the check of `parse_args` for words that nobody wants, `/repo/vgpa_main.py:168`. `extras`
tells whether there are such words; `p` and `d` are the values so far. -/
def consume : List (String × Option WordKind) → (extras : Bool) → (p d : Option String) → Parsed
  | [], extras, p, d => if extras then .exits 2 else .args p d
  | (_, none) :: ws, _, p, d => consume ws true p d
  | (_, some .arg) :: ws, _, p, d => consume ws true p d
  | (_, some .unknown) :: ws, _, p, d => consume ws true p d
  | (_, some .ambiguous) :: _, _, _, _ => .exits 2
  | (_, some (.opt ⟨.help, single, sep, some e⟩)) :: _, _, _, _ => .exits (if single then shortHelp sep e else 2)
  | (_, some (.opt ⟨.help, _, _, none⟩)) :: _, _, _, _ => .exits 0
  | (_, some (.opt ⟨.params, _, _, some e⟩)) :: ws, extras, _, d => consume ws extras (some (String.ofList e)) d
  | (_, some (.opt ⟨.data, _, _, some e⟩)) :: ws, extras, p, _ => consume ws extras p (some (String.ofList e))
  | (_, some (.opt ⟨.params, _, _, none⟩)) :: (v, some .arg) :: ws, extras, _, d => consume ws extras (some v) d
  | (_, some (.opt ⟨.data, _, _, none⟩)) :: (v, some .arg) :: ws, extras, p, _ => consume ws extras p (some v)
  | (_, some (.opt ⟨_, _, _, none⟩)) :: _, _, _, _ => .exits 2

/-- Whether a word is an ambiguous abbreviation, for `/repo/vgpa_main.py:168`. -/
def isAmbiguous : Option WordKind → Bool
  | some .ambiguous => true
  | _ => false

/-- `parser.parse_args()`, `/repo/vgpa_main.py:168`: an ambiguous abbreviation ends the program before anything else is looked at. -/
def parseArgs (argv : List String) : Parsed :=
  if (classify argv).any fun x => isAmbiguous x.2 then .exits 2
  else consume (classify argv) false none none

variable {M A F B L K Vg X : Type}

open Classical in
/-- The program, `/repo/vgpa_main.py:148-177`; `argv` is `sys.argv[1:]`. -/
noncomputable def program (C : Classes M A F B L K Vg X) (O : Outside A) (order : List String) (argv : List String) (files : Files) :
    Ending × Files :=
  if argv = [] then (.exits 1, files)
  else match parseArgs argv with
    | .exits n => (.exits n, files)
    | .args p d => main C O order p d files

end VGPA
