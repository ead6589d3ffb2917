/-
Model of `timedelta.total_seconds()`, used in `/repo/src/fauxdoc/dtrange.py` 38, 139 and 145.  It is a
true division of ints, so the result is the double (IEEE 754 binary64) nearest to the number of
seconds, the one with the even significand if two are equally near.

A double that is at least a microsecond is a multiple of `2^-72` (the distance of neighbouring doubles
from `2^-20` upwards is at least `2^-72`).  Doubles are represented as such multiples, exactly.
-/
namespace Fauxdoc

/-- One second, in the unit in which doubles are represented. -/
def SEC : Nat := 2 ^ 72

/-- `a / b` rounded to the nearest integer, halves to the even one. -/
def roundDiv (a b : Nat) : Nat :=
  if 2 * (a % b) < b then a / b
  else if b < 2 * (a % b) then a / b + 1
  else a / b + (a / b) % 2

/-- Distance of the neighbouring doubles around the quotient `a / 10^6`, from `2^52` upwards: a double
has 53 significant bits. -/
def ulp (a : Nat) : Nat := 2 ^ (Nat.log2 (a / 1000000) - 52)

/-- `timedelta(microseconds=us).total_seconds()`. -/
def totalSeconds (us : Int) : Int :=
  let a := us.natAbs * SEC
  us.sign * (roundDiv a (1000000 * ulp a) * ulp a : Nat)

end Fauxdoc
