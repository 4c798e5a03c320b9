import Verif.Model.Simulation

/-!
# The command line program, `/repo/vgpa_main.py`
-/

namespace VGPA

noncomputable section

/-- What the program meets outside: files to read and write, and `str()` of values that are not strings. `readJson` opens a
file and decodes it (`FileNotFoundError`, `OSError`, `JSONDecodeError`); `readCsv` opens a file and reads the two
columns. -/
structure Outside (A : Type) where
  readJson : String → Py Json
  readCsv : String → Py (Data A)
  canOpen : String → Py Unit
  str : Json → String

/-- `JSONDecodeError` (and `UnicodeDecodeError`, reported as `valueError` here) are subclasses of `ValueError`. -/
def isValueError (e : PyErr) : Bool :=
  match e with
  | .valueError | .jsonDecodeError => true
  | _ => false

/-- The set `required_keys`, `/repo/vgpa_main.py:38-40`. -/
def requiredKeys : List String :=
  ["Output_Name", "Model", "Ode-method", "Time-window", "Noise", "Observations", "Drift", "Prior", "Random-Seed"]

/-- `k in model_params`, `/repo/vgpa_main.py:46`: a key of a dictionary, a member of a list, a substring of a string;
`TypeError` for other values. -/
def Json.contains (v : Json) (k : String) : Py Bool :=
  match v with
  | .obj kv => .ok (kv.lookup k).isSome
  | .arr l => .ok (l.any fun x => match x with | .str s => s == k | _ => false)
  | .str s => .ok (decide (k.toList <:+: s.toList))
  | _ => .error .typeError

/-- The loop over the required keys, `/repo/vgpa_main.py:43-50`: the result carries the missing key named in the
message. The order, that of a Python set, is the argument `order`. -/
def checkKeys (params : Json) : List String → Py (Option String)
  | [] => .ok none
  | k :: ks => do
    if ← params.contains k then checkKeys params ks else pure (some k)

/-- Result of `validate_input_parameters_file`: the dictionary, or an exception, where `missing k` is the `ValueError` with
the message `Key: k, is not given.` -/
inductive Validated
  | params (p : Json)
  | missing (k : String)
  | raised (e : PyErr)

/-- `validate_input_parameters_file(filename)`, `/repo/vgpa_main.py:14-58`. -/
def validate {A : Type} (O : Outside A) (order : List String) (filename : String) : Validated :=
  match O.readJson filename with
  | .error e => .raised e
  | .ok p => match checkKeys p order with
    | .error e => .raised e
    | .ok (some k) => .missing k
    | .ok none => .params p

/-- How a function ends: it returns, it calls `sys.exit(status)`, or an exception leaves it. -/
inductive Ending
  | returns
  | exits (status : ℕ)
  | raises (e : PyErr)

/-- The name of the simulation, `/repo/vgpa_main.py:118-128` and `/repo/src/var_bayes/simulation.py:57`: `Sim_00` for `null`; `False`,
`0`, empty lists and dictionaries are false for the constructor. -/
def outputName {A : Type} (O : Outside A) (v : Json) : Option String :=
  open Classical in
  match v with
  | .null => some "Sim_00"
  | .str s => some s
  | .bool false => none
  | .num x => if x = 0 then none else some (O.str v)
  | .arr [] => none
  | .obj [] => none
  | _ => some (O.str v)

variable {M A F B L K Vg X : Type}

/-- The `try` block, `/repo/vgpa_main.py:126-143`. -/
def mainTry (C : Classes M A F B L K Vg X) (O : Outside A) (name : Json) (params : Json) (data : Option (Data A)) (files : Files) :
    Ending × Files :=
  let s : Sim M A := Sim.init (outputName O name)
  match s.setup C params data with
  | (.error _, _) => (.exits 1, files)
  | (.ok (), s) => match s.run C with
    | (.error _, _) => (.exits 1, files)
    | (.ok (), s) => match s.save O.canOpen files with
      | (.error _, _, files) => (.exits 1, files)
      | (.ok (), _, files) => (.returns, files)

/-- `main(params_file, data_file)`, `/repo/vgpa_main.py:62-143`. -/
def main (C : Classes M A F B L K Vg X) (O : Outside A) (order : List String) (params_file data_file : Option String)
    (files : Files) : Ending × Files :=
  match params_file with
  | none => (.exits 1, files)
  | some pf => match validate O order pf with
    | .missing _ => (.exits 1, files)
    | .raised e => if isValueError e then (.exits 1, files) else (.raises e, files)
    | .params p =>
      match (match data_file with
        | none => (.ok none : Py (Option (Data A)))
        | some df => do let d ← O.readCsv df; pure (some d)) with
      | .error e => (.raises e, files)
      | .ok data => match p.item "Output_Name" with
        | .error e => (.raises e, files)
        | .ok name => mainTry C O name p data files

/-- The exit status of a Python process: an exception that nobody catches gives 1. -/
def exitStatus (e : Ending) : ℕ :=
  match e with
  | .returns => 0
  | .exits n => n
  | .raises _ => 1

end

end VGPA
