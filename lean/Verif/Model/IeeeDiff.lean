import Verif.Model.Ieee

/-!
# Finite differences in double precision

`finite_diff` once more, as in `Verif.Model.Numerics`, with the numbers that Python has.
-/

namespace VGPA

noncomputable section

/-- `delta_h = 1.0e-6`, `/repo/src/numerics/utilities.py:41`. -/
def deltaHF : Flt := Flt.lit (1 / 10 ^ 6)

/-- Body of the loop of `finite_diff`, `/repo/src/numerics/utilities.py:47-61`. -/
def fdBodyF {S : Type} {n : ℕ} (fn : S → (Fin n → Flt) → Py (Flt × S)) (x : Fin n → Flt)
    (acc : (Fin n → Flt) × (Fin n → Flt) × S) (i : Fin n) : Py ((Fin n → Flt) × (Fin n → Flt) × S) := do
  let e := Function.update acc.2.1 i deltaHF
  let r ← fn acc.2.2 (fun j => (x j).add (e j))
  let r' ← fn r.2 (fun j => (x j).sub (e j))
  pure (Function.update acc.1 i (((Flt.lit (1 / 2)).mul (r.1.sub r'.1)).div deltaHF), Function.update e i (.zero false), r'.2)

/-- `finite_diff(fun, x)`, `/repo/src/numerics/utilities.py:15-66`, with the simplifications of `finiteDiff`. -/
def finiteDiffF {S : Type} {n : ℕ} (fn : S → (Fin n → Flt) → Py (Flt × S)) (s : S) (x : Fin n → Flt) :
    Py ((Fin n → Flt) × S) := do
  let r ← (List.finRange n).foldlM (fdBodyF fn x) (fun _ => .zero false, fun _ => .zero false, s)
  pure (r.1, r.2.2)

end

end VGPA
