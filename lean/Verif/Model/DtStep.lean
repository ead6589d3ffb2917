import Verif.Model.DtRange
import Verif.Py.Double
/-
Model of `dtrange` with a float as `step` (its annotation is `step: float`),
`/repo/src/fauxdoc/dtrange.py` 291-357, and of `timedelta(**{unit: step})` for a float, as in CPython
(`Modules/_datetimemodule.c`, `accum` and `delta_new`).

A finite float is a rational number; `F` rounds to doubles. All factors are below `2^53`, so they are
doubles themselves.
-/
namespace Fauxdoc

/-- A float. -/
inductive FloatArg where
  | fin (x : ℚ)
  | inf
  | nan

/-- The integer part, as `modf` gives it: rounded towards zero. -/
def intPart (x : ℚ) : Int := if 0 ≤ x then ⌊x⌋ else ⌈x⌉

/-- C `round`: to the nearest integer, halves away from zero. -/
def roundAway (x : ℚ) : Int := if 0 ≤ x then ⌊x + 1 / 2⌋ else ⌈x - 1 / 2⌉

/-- The end of `delta_new`: adds the fraction `left` of a microsecond to the whole microseconds `n`. -/
def addLeftover (n : Int) (left : ℚ) : Int :=
  let whole := roundAway left
  if |(whole : ℚ) - left| = 1 / 2 then
    let odd := n % 2
    n + (2 * roundAway ((left + odd) * (1 / 2)) - odd)
  else n + whole

/-- `timedelta(**{unit: x})` in microseconds, for a unit of `factor` microseconds: `accum`, where whole
units are exact and the rest is a product of doubles, and then `addLeftover`. -/
def floatUnits (F : Rounding ℚ) (factor : Int) (x : ℚ) : Int :=
  let frac := x - intPart x
  if frac = 0 then intPart x * factor
  else
    let d := F.rnd (factor * frac)
    addLeftover (intPart x * factor + intPart d) (d - intPart d)

/-- `timedelta(**{step_unit: step})`, dtrange.py 338-344. -/
def stepTdF (F : Rounding ℚ) (unit : String) (step : FloatArg) : Py Int :=
  match tdUnit unit with
  | none => .error .valueError
  | some k =>
    match step with
    | .fin x => mkTd (floatUnits F k x)
    | .inf => .error .overflow
    | .nan => .error .valueError

/-- `dtrange(start, stop, step, step_unit)`, dtrange.py 291-357, for a float `step`. -/
def dtrangeF (F : Rounding ℚ) (iso : IsoParsers) (start stop : UserDate) (step : FloatArg)
    (stepUnit : Option String := none) : Py DTR := do
  let a ← parseUserDate iso start
  let b ← parseUserDate iso stop
  if ¬ a.sameType b then .error .valueError
  let td ← stepTdF F (stepUnit.getD (defaultUnit a)) step
  dtrangeTd a b td

end Fauxdoc
