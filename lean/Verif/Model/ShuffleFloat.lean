import Verif.Model.MathTools
import Verif.Model.ChoiceFloat
/-
`weighted_shuffle` (`/repo/src/fauxdoc/mathtools.py` 73-155) with rounding.  `Model/MathTools.lean`
computes exactly; here every `float` operation is followed by a rounding function `fl`.  The result of
`math.log` is the parameter `R.log`, which need not be the exact logarithm.
-/
namespace Fauxdoc

variable {K : Type} [Field K] [LinearOrder K]

/-- The `while True` loop of `_faster_for_low_k` (mathtools.py 107-119), as positions; `fuel` counts
rounds. -/
def lowKFl (R : Rng K) (fl : K → K) (n : Nat) (k : Int) :
    Nat → List K → List Nat → PyM R.G (List Nat)
  | 0, _, _ => PyM.raise .diverges
  | fuel + 1, ws, sample => do
    let needed := k - (sample.length : Int)
    if needed = 0 then return sample
    else do
      let draws ← R.choicesCumFl fl n (accumulateFl fl ws) needed
      let (ws', sample') := lowKScan draws ws sample
      lowKFl R fl n k fuel ws' sample'

/-- The scores of `_faster_for_high_k` (mathtools.py 132). -/
def highKScoresFl (R : Rng K) (fl : K → K) : List K → PyM R.G (List K)
  | [] => return []
  | w :: ws => do
    let u ← R.rand
    if u = 0 then PyM.raise .valueError
    else if w = 0 then PyM.raise .zeroDivision
    else do
      let rest ← highKScoresFl R fl ws
      return fl (R.log u / w) :: rest

/-- `_faster_for_high_k` (mathtools.py 121-140), as positions; `k >= 0`. -/
def highKFl (R : Rng K) (fl : K → K) (ws : List K) (k : Nat) : PyM R.G (List Nat) := do
  let scores ← highKScoresFl R fl ws
  return ((sortDesc (scores.zip (List.range ws.length))).take k).map (·.2)

/-- `weighted_shuffle` (mathtools.py 141-155), as positions of `items` (`nitems` of them). -/
def weightedShuffleFl (R : Rng K) (fl : K → K) (nitems : Nat) (ws : List K) (number : Option Int) :
    PyM R.G (List Nat) :=
  let number : Int := number.getD nitems
  if nitems ≠ ws.length then PyM.raise .valueError
  else if (number : K) ≤ fl (nitems * c042) then
    lowKFl R fl nitems number (number.toNat + 1) ws []
  else highKFl R fl ws number.toNat

end Fauxdoc
