import Verif.Py.Random
import Verif.Py.Double
/-
The arithmetic of `Choice` with rounding.  `Model/Choice.lean` computes exactly; here every `float`
operation is followed by a rounding function `fl`, so that `fl = id` gives the exact computation back
(`Props/ChoiceFloat.lean`) and a `Rounding` gives what CPython computes.
-/
namespace Fauxdoc

variable {K : Type} [Field K] [LinearOrder K]

/-- The loop of `itertools.accumulate` on floats. -/
def accumulateFlFrom (fl : K → K) (acc : K) : List K → List K
  | [] => []
  | w :: ws => fl (acc + w) :: accumulateFlFrom fl (fl (acc + w)) ws

/-- `tuple(itertools.accumulate(weights))`, choice.py 155; the first entry is taken as it is. -/
def accumulateFl (fl : K → K) : List K → List K
  | [] => []
  | w :: ws => w :: accumulateFlFrom fl w ws

/-- The loop over `cum_weights`, choice.py 148-153. -/
def deCumulateFl (fl : K → K) (prev : K) : List K → List K
  | [] => []
  | c :: cs => fl (c - prev) :: deCumulateFl fl c cs

/-- The position selected by one draw `u` of `rng.choices` (choice.py 330-340; CPython `random.py`):
`total = cum_weights[-1] + 0.0`, then `bisect(cum_weights, random() * total, 0, n - 1)`. -/
def choicesPickFl (fl : K → K) (cum : List K) (u : K) : Nat :=
  bisect cum (fl (u * fl (cum.getLastD 0))) (cum.length - 1)

/-- `rng.choices(population of size n, cum_weights=cum, k=k)` as positions. -/
def Rng.choicesCumFl (R : Rng K) (fl : K → K) (n : Nat) (cum : List K) (k : Int) :
    PyM R.G (List Nat) := do
  if cum.length ≠ n then PyM.raise .valueError
  else
    match cum.getLast? with
    | none => PyM.raise .indexError
    | some last =>
      if fl last ≤ 0 then PyM.raise .valueError
      else do
        let us ← R.rands k.toNat
        return us.map (choicesPickFl fl cum)

/-- The emissions of `chance(p)` (choice.py 428-437, 330-340): weights `[p, 1.0 - p]`, then weighted
choices from `[True, False]`. -/
def chanceFl (R : Rng K) (fl : K → K) (p : K) (k : Int) : PyM R.G (List Bool) := do
  let ps ← R.choicesCumFl fl 2 (accumulateFl fl [p, fl (1 - p)]) k
  return ps.map fun i => i == 0

/-- The literal `0.42` of mathtools.py 153. -/
def c042 : K := 7566047373982433 / 2 ^ 54

variable [FloorRing K]

/-- One draw of `rng.choices` without weights: `n += 0.0`, then `floor(random() * n)`. -/
def uniformPickFl (fl : K → K) (n : Nat) (u : K) : Nat := ⌊fl (u * fl (n : K))⌋.toNat

end Fauxdoc
