import Mathlib.Algebra.Order.Floor.Ring
import Mathlib.Algebra.Order.Field.Basic
import Mathlib.Data.Int.Log
import Mathlib.Data.Rat.Floor
/-
Binary64 floating-point numbers: the set of doubles and rounding to nearest, ties to even (IEEE 754),
as CPython's `float` operations do it.  Overflow is treated separately (`toFloat` in `Model/Pdf.lean`): here the
exponent is unbounded above.  No signed zero, infinity or NaN.
-/
namespace Fauxdoc

variable {K : Type} [Field K] [LinearOrder K]

/-- The numbers a double can hold (without its upper limit): `m * 2^e` with at most 53 bits in `m`
and `e` at least -1074. -/
def IsDouble (x : K) : Prop :=
  ∃ m e : Int, |m| ≤ 2 ^ 53 ∧ -1074 ≤ e ∧ x = (m : K) * 2 ^ e

/-- A rounding function as IEEE 754 demands it: the result is a double, none is nearer, and when `x`
lies exactly between two neighbours `k * 2^e` and `(k+1) * 2^e` the even one is taken.  (Either `k`
has all its 53 bits or `e` is the least exponent: then these are neighbours.) -/
structure Rounding (K : Type) [Field K] [LinearOrder K] where
  rnd : K → K
  isDouble : ∀ x, IsDouble (rnd x)
  nearest : ∀ x y, IsDouble y → |rnd x - x| ≤ |y - x|
  rnd_neg : ∀ x, rnd (-x) = -rnd x
  tie : ∀ k e : Int, 0 ≤ k → k < 2 ^ 53 → -1074 ≤ e → (2 ^ 52 ≤ k ∨ e = -1074) →
    rnd (((k : K) + 1 / 2) * 2 ^ e) = ((if k % 2 = 0 then k else k + 1 : Int) : K) * 2 ^ e

variable [FloorRing K]

/-- The integer nearest to `y`, the even one of two. -/
def roundEven (y : K) : Int :=
  let f := ⌊y⌋
  if y - f < 1 / 2 then f
  else if 1 / 2 < y - f then f + 1
  else if f % 2 = 0 then f else f + 1

/-- The exponent of the last bit of the doubles around `x`. -/
def lastExp (x : K) : Int := max (Int.log 2 |x| - 52) (-1074)

/-- Rounding to the nearest double. -/
def roundDouble (x : K) : K :=
  if x < 0 then -((roundEven (|x| / 2 ^ lastExp x) : K) * 2 ^ lastExp x)
  else (roundEven (|x| / 2 ^ lastExp x) : K) * 2 ^ lastExp x

end Fauxdoc
