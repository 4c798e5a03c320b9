import Verif.Model.Simulation

/-!
# `save` step by step, with failures of the disk

`Model/Simulation` has `save` as one step. Here it is a sequence of actions on the disk, each of which can fail, and between which the process can be killed.
-/

namespace VGPA

noncomputable section

variable {M A : Type}

/-- A file: closed and readable, open for writing with the datasets written so far, or not readable. -/
inductive OnDisk
  | good (d : Dict NdArray)
  | writing (d : Dict NdArray)
  | damaged

/-- The files, by path. -/
abbrev Disk := String → Option OnDisk

/-- The exceptions that the disk raises: when the file is opened, when the `i`-th dataset is created, when the file is closed. -/
structure Faults where
  open_ : Option PyErr
  write : ℕ → Option PyErr
  close : Option PyErr

namespace Sim

/-- The loop over the keys, `/repo/src/var_bayes/simulation.py:298-309`, as `saveLoop` in `Model/Simulation`, with failures. The last component lists the contents of
the file after each dataset. -/
def writeLoop (F : Faults) : ℕ → Dict Val → Dict Val → Dict NdArray → Py Unit × Dict Val × List (Dict NdArray)
  | _, [], done, _ => (.ok (), done, [])
  | i, (k, v) :: rest, done, f =>
    let a := toArray v
    match F.write i with
    | some e => (.error e, done ++ (k, .array a) :: rest, [])
    | none => match createDataset f k a with
      | .error e => (.error e, done ++ (k, .array a) :: rest, [])
      | .ok f' =>
        let r := writeLoop F (i + 1) rest (done ++ [(k, .array a)]) f'
        (r.1, r.2.1, f' :: r.2.2)

/-- `save()`, `/repo/src/var_bayes/simulation.py:269-312`: the result, the object, and the states through which the disk passes. `h5py.File(.., 'w')` truncates the file; the
`with` statement closes it, also when a dataset cannot be created. A file whose closing fails is not readable, and the exception of the closing is the one that is raised. -/
def saveSteps (F : Faults) (s : Sim M A) (disk : Disk) : Py Unit × Sim M A × List Disk :=
  if s.output.isEmpty then (.ok (), s, [])
  else
    let path := fileName s.name
    match F.open_ with
    | some e => (.error e, s, [])
    | none =>
      let r := writeLoop F 0 s.output [] []
      let states := [] :: r.2.2
      let last := r.2.2.getLastD []
      let s' := { s with output := r.2.1 }
      let put := fun x => Function.update disk path (some x)
      match F.close with
      | none => (r.1, s', states.map (fun f => put (.writing f)) ++ [put (.good last)])
      | some e => (.error e, s', states.map (fun f => put (.writing f)) ++ [put .damaged])

end Sim

/-- `load(filename)`, `/repo/src/var_bayes/simulation.py:317-347`. A file that is not readable, and one that somebody is writing, raises `OSError` (h5py locks files). -/
def loadDisk (disk : Disk) (filename : Option String) : Py (Dict NdArray) :=
  match filename with
  | none => .error .runtimeError
  | some path => match disk path with
    | none => .error .fileNotFoundError
    | some (.good d) => .ok (d.foldl (fun acc kv => Dict.put acc kv.1 kv.2) [])
    | some _ => .error .osError

end

end VGPA
