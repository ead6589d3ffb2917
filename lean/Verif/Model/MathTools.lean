import Verif.Py.Random
import Mathlib.Analysis.SpecialFunctions.Exp
import Mathlib.Analysis.SpecialFunctions.Sqrt
import Mathlib.Analysis.Real.Pi.Bounds
/-
Model of `/repo/src/fauxdoc/mathtools.py`.  Real-valued functions are modelled over the reals,
everything else over an arbitrary ordered field (exact arithmetic; for floats see
`Model/Pdf` and `Model/ChoiceFloat`).
-/
namespace Fauxdoc

/-- `poisson`, mathtools.py 9-22 (real arithmetic; `x` a non-negative int). -/
noncomputable def poisson (x : Nat) (mu : ℝ) : ℝ := mu ^ x * Real.exp (-1 * mu) / (x.factorial : ℝ)

/-- `gaussian`, mathtools.py 25-42 (real arithmetic). -/
noncomputable def gaussian (x mu sigma : ℝ) : ℝ :=
  Real.exp (-1 * ((x - mu) / sigma) ^ 2 / 2) * (1 / (Real.sqrt (2 * Real.pi) * sigma))

variable {K : Type} [LinearOrder K]

/-- `clamp`, mathtools.py 45-70. -/
def clamp (number : K) (mn mx : Option K) : K :=
  match mn with
  | some m =>
    if number < m then m
    else match mx with
      | some M => if number > M then M else number
      | none => number
  | none =>
    match mx with
    | some M => if number > M then M else number
    | none => number

variable [Field K]

/-- The inner `for` of `_faster_for_low_k` (mathtools.py 111-118): positions already taken have
weight zero and are skipped. -/
def lowKScan : List Nat → List K → List Nat → List K × List Nat
  | [], ws, sample => (ws, sample)
  | i :: is, ws, sample =>
    if ws.getD i 0 ≠ 0 then lowKScan is (ws.set i 0) (sample ++ [i])
    else lowKScan is ws sample

/-- The `while True` loop of `_faster_for_low_k` (mathtools.py 107-119), as positions.  `fuel`
counts rounds; running out stands for a loop that never ends. -/
def lowK (R : Rng K) (n : Nat) (k : Int) : Nat → List K → List Nat → PyM R.G (List Nat)
  | 0, _, _ => PyM.raise .diverges
  | fuel + 1, ws, sample => do
    let needed := k - (sample.length : Int)
    if needed = 0 then return sample
    else do
      let draws ← R.choicesCum n (accumulate ws) needed
      let (ws', sample') := lowKScan draws ws sample
      lowK R n k fuel ws' sample'

/-- The score generator of `_faster_for_high_k` (mathtools.py 132): `log(random()) / w` for each
weight, left to right; `math.log(0.0)` is `ValueError`, a zero weight `ZeroDivisionError`. -/
def highKScores (R : Rng K) : List K → PyM R.G (List K)
  | [] => return []
  | w :: ws => do
    let u ← R.rand
    if u = 0 then PyM.raise .valueError
    else if w = 0 then PyM.raise .zeroDivision
    else do
      let rest ← highKScores R ws
      return (R.log u / w) :: rest

/-- `sorted(zip(scores, positions), reverse=True, key=score)` (mathtools.py 139): stable, highest
score first. -/
def sortDesc (l : List (K × Nat)) : List (K × Nat) :=
  l.insertionSort fun a b => a.1 ≥ b.1

/-- `_faster_for_high_k` (mathtools.py 121-140), as positions; `k >= 0`. -/
def highK (R : Rng K) (ws : List K) (k : Nat) : PyM R.G (List Nat) := do
  let scores ← highKScores R ws
  return ((sortDesc (scores.zip (List.range ws.length))).take k).map (·.2)

/-- `weighted_shuffle` (mathtools.py 73-155), as positions of `items` (`nitems` of them); the 42%
threshold is exact (so is Python's, up to 2^47 items: `C77_threshold`).  `number.toNat + 1` rounds
are allowed for the low-k loop. -/
def weightedShuffle (R : Rng K) (nitems : Nat) (ws : List K) (number : Option Int) :
    PyM R.G (List Nat) :=
  let number : Int := number.getD nitems
  if nitems ≠ ws.length then PyM.raise .valueError
  else if number * 100 ≤ (nitems : Int) * 42 then lowK R nitems number (number.toNat + 1) ws []
  else highK R ws number.toNat

end Fauxdoc
