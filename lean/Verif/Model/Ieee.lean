import Verif.Model.Scg
import Mathlib.Data.Int.Log
import Mathlib.Data.EReal.Operations
import Mathlib.Algebra.Order.Round

/-!
# Double precision

The numbers that the code computes with: IEEE 754 binary64, as CPython floats and `numpy.float64`. Round to nearest, ties to even, gradual
underflow, overflow to infinity, signed zeros, one NaN (payloads and signs of NaNs are left out, they cannot be observed by the
code). `ieeeArith` is the optimizer's arithmetic (`Arith`, `Verif.Model.Scg`) for them. Division never raises: in
`/repo/src/numerics/optim_scg.py` one operand of every division is a `numpy.float64`, for which a zero divisor only warns.
-/

namespace VGPA

noncomputable section

open Classical

/-- A double. The sign `true` is minus. Nothing forces the real number of `num` to be one of the finitely many that have 53 significant
bits: what is proved for all `Flt` holds for those. -/
inductive Flt
  | nan
  | inf (s : Bool)
  | zero (s : Bool)
  | num (r : ℝ) (h : r ≠ 0)

namespace Flt

/-- The value, for everything but NaN. -/
def val : Flt → EReal
  | nan => ⊥
  | inf s => if s then ⊥ else ⊤
  | zero _ => 0
  | num r _ => (r : EReal)

/-- The sign bit. -/
def sgn : Flt → Bool
  | nan => false
  | inf s => s
  | zero s => s
  | num r _ => decide (r < 0)

/-- A real number, with the sign that zero should get. -/
def ofReal (s : Bool) (r : ℝ) : Flt := if h : r = 0 then zero s else num r h

/-- The nearest natural number of `y ≥ 0`; of two, the even one. -/
def nearest (y : ℝ) : ℕ :=
  if y - ⌊y⌋₊ < 1 / 2 then ⌊y⌋₊ else if 1 / 2 < y - ⌊y⌋₊ then ⌊y⌋₊ + 1 else if Even ⌊y⌋₊ then ⌊y⌋₊ else ⌊y⌋₊ + 1

/-- Exponent of the last of the 53 bits of a number of size `y > 0`. -/
def lastBit (y : ℝ) : ℤ := max (Int.log 2 y) (-1022) - 52

/-- The size of a number after rounding, if there were no overflow. -/
def roundAbs (y : ℝ) : ℝ := nearest (y / (2 : ℝ) ^ lastBit y) * (2 : ℝ) ^ lastBit y

/-- Rounding of an exact result that is not zero. -/
def round (r : ℝ) : Flt :=
  if 2 ^ 1024 ≤ roundAbs |r| then inf (decide (r < 0))
  else ofReal (decide (r < 0)) (if r < 0 then -roundAbs |r| else roundAbs |r|)

/-- A literal. -/
def lit (q : ℚ) : Flt := if q = 0 then zero false else round q

def neg : Flt → Flt
  | nan => nan
  | inf s => inf !s
  | zero s => zero !s
  | num r h => num (-r) (neg_ne_zero.2 h)

def add : Flt → Flt → Flt
  | nan, _ => nan
  | _, nan => nan
  | inf s, inf t => if s = t then inf s else nan
  | inf s, _ => inf s
  | _, inf t => inf t
  | zero s, zero t => zero (s && t)
  | zero _, num b h => num b h
  | num a h, zero _ => num a h
  | num a _, num b _ => if a + b = 0 then zero false else round (a + b)

def sub (a b : Flt) : Flt := add a (neg b)

def mul : Flt → Flt → Flt
  | nan, _ => nan
  | _, nan => nan
  | inf _, zero _ => nan
  | zero _, inf _ => nan
  | num a _, num b _ => round (a * b)
  | inf s, b => inf (xor s b.sgn)
  | a, inf t => inf (xor a.sgn t)
  | zero s, b => zero (xor s b.sgn)
  | a, zero t => zero (xor a.sgn t)

def div : Flt → Flt → Flt
  | nan, _ => nan
  | _, nan => nan
  | inf _, inf _ => nan
  | zero _, zero _ => nan
  | num a _, num b _ => round (a / b)
  | inf s, b => inf (xor s b.sgn)
  | a, inf t => zero (xor a.sgn t)
  | zero s, b => zero (xor s b.sgn)
  | a, zero t => inf (xor a.sgn t)

def sqrt : Flt → Flt
  | nan => nan
  | inf s => if s then nan else inf false
  | zero s => zero s
  | num r _ => if r < 0 then nan else round (Real.sqrt r)

def abs (a : Flt) : Flt := if a.sgn then neg a else a

/-- `a <= b`; `False` if one of them is NaN. -/
def le (a b : Flt) : Bool := decide (a ≠ nan ∧ b ≠ nan ∧ a.val ≤ b.val)

/-- `a < b`; `False` if one of them is NaN. -/
def lt (a b : Flt) : Bool := decide (a ≠ nan ∧ b ≠ nan ∧ a.val < b.val)

/-- `np.maximum`: NaN if one of them is. -/
def max (a b : Flt) : Flt := if a = nan ∨ b = nan then nan else if a.val < b.val then b else a

/-- `np.minimum`: NaN if one of them is. -/
def min (a b : Flt) : Flt := if a = nan ∨ b = nan then nan else if b.val < a.val then b else a

/-- Sum from left to right. -/
def sum {n : ℕ} (v : Fin n → Flt) : Flt := (List.ofFn v).foldl add (zero false)

/-- The inner product with products and sums rounded one after the other. BLAS may sum in another order: `ieeeArith` is given the inner
product as a parameter. -/
def dot {n : ℕ} (u v : Fin n → Flt) : Flt := sum fun i => mul (u i) (v i)

end Flt

/-- The optimizer's arithmetic in double precision, on arrays with `n` entries, for an inner product `dot`. -/
def ieeeArith (n : ℕ) (dot : (Fin n → Flt) → (Fin n → Flt) → Flt) : Arith Flt (Fin n → Flt) where
  lit := Flt.lit
  add := Flt.add
  sub := Flt.sub
  mul := Flt.mul
  neg := Flt.neg
  div a b := .ok (Flt.div a b)
  sqrt := Flt.sqrt
  abs := Flt.abs
  max := Flt.max
  min := Flt.min
  le := Flt.le
  lt := Flt.lt
  isClose0 a := Flt.le (Flt.abs a) (Flt.lit (1 / 10 ^ 8))
  vneg v := fun i => Flt.neg (v i)
  vadd u v := fun i => Flt.add (u i) (v i)
  vsub u v := fun i => Flt.sub (u i) (v i)
  smul c v := fun i => Flt.mul c (v i)
  dot := dot
  size _ := n
  absSum v := Flt.sum fun i => Flt.abs (v i)
  absMax v := if n = 0 then .error .valueError else .ok ((List.ofFn fun i => Flt.abs (v i)).foldl Flt.max (Flt.zero false))

end

end VGPA
