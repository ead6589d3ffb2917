import Verif.Model.Choice
import Verif.Model.MathTools
import Verif.Py.Double
/-
`poisson` and `gaussian` of `/repo/src/fauxdoc/mathtools.py` as CPython computes them, in binary64
arithmetic, and the two factories built on them.  `poisson`/`gaussian` of `Model/MathTools.lean` are
the functions of the reals that they approximate.

`F` is the rounding of the floating-point unit.  `math.exp`, `math.sqrt` and `float ** int` are taken
to be correctly rounded.  A float that grows past the largest double silently becomes `inf` when it
comes out of `+ - * /`; that is not modelled (it needs a standard deviation or mean around 1e308).
-/
namespace Fauxdoc

/-- What `int` to `float` conversion, `float ** int` and `math.exp` do with their mathematical result:
round it, or raise `OverflowError` when that is beyond the largest double. -/
def toFloat {K : Type} [Field K] [LinearOrder K] (F : Rounding K) (x : K) : Py K :=
  if 2 ^ 1024 ≤ |F.rnd x| then .error .overflow else .ok (F.rnd x)

/-- `poisson`, mathtools.py 9-22: `(mu ** x) * (math.exp(-1 * mu)) / math.factorial(x)`, for
`mu >= 0`.  An `int` power is converted when it is multiplied, the factorial when it divides. -/
noncomputable def poissonF (F : Rounding ℝ) (x : Nat) (mu : ℝ) : Py ℝ := do
  let p ← toFloat F (mu ^ x)
  let e ← toFloat F (Real.exp (F.rnd (-1 * mu)))
  let f ← toFloat F (x.factorial : ℝ)
  return F.rnd (F.rnd (p * e) / f)

/-- `gaussian`, mathtools.py 25-42. -/
noncomputable def gaussianF (F : Rounding ℝ) (x mu sigma : ℝ) : Py ℝ := do
  if sigma = 0 then .error .zeroDivision
  else do
    let z2 ← toFloat F (F.rnd (F.rnd (x - mu) / sigma) ^ 2)
    let term1 := F.rnd (Real.exp (F.rnd (-1 * z2 / 2)))
    let term2 := F.rnd (1 / F.rnd (F.rnd (Real.sqrt (F.rnd (2 * F.rnd Real.pi))) * sigma))
    return F.rnd (term1 * term2)

/-- The weight lists of choice.py 384-385 and 422-423: `[clamp(pdf(x), mn=floor) for x in range(1, n + 1)]`. -/
noncomputable def floorWeights (pdf : Nat → Py ℝ) (n : Nat) (floor : ℝ) : Py (List ℝ) :=
  (List.range n).mapM fun i => do
    let v ← pdf (i + 1)
    return clamp v (some floor) none

/-- The weights of `poisson_choice`, choice.py 384-385. -/
noncomputable def poissonWeights (F : Rounding ℝ) (n : Nat) (mu floor : ℝ) : Py (List ℝ) :=
  floorWeights (fun x => poissonF F x mu) n floor

/-- The weights of `gaussian_choice`, choice.py 422-423. -/
noncomputable def gaussianWeights (F : Rounding ℝ) (n : Nat) (mu sigma floor : ℝ) : Py (List ℝ) :=
  floorWeights (fun x => gaussianF F x mu sigma) n floor

variable {α : Type} [PyHash α] {R : Rng ℝ}

/-- `poisson_choice`, choice.py 359-387. -/
noncomputable def poissonChoice (F : Rounding ℝ) (items : List α) (mu floor : ℝ)
    (replace roac : Bool) (rngSeed : Option Int) : PyM Nat (ChoiceSt α R) := do
  let ws ← PyM.lift (poissonWeights F items.length mu floor)
  Choice.init items (some ws) replace roac rngSeed none

/-- `gaussian_choice`, choice.py 390-425. -/
noncomputable def gaussianChoice (F : Rounding ℝ) (items : List α) (mu sigma floor : ℝ)
    (replace roac : Bool) (rngSeed : Option Int) : PyM Nat (ChoiceSt α R) := do
  let ws ← PyM.lift (gaussianWeights F items.length mu sigma floor)
  Choice.init items (some ws) replace roac rngSeed none

end Fauxdoc
