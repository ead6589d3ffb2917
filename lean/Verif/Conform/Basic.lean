import Verif.Py.Twister
import Verif.Model.Choice
/-
Running the model with CPython's own generator (`Py/Twister`), to compare it with what the project's
tests in `/repo/tests` expect of the code. These are tests of the model, not proofs of properties:
they are evidence that the model is a model of this code.
-/
namespace Fauxdoc
namespace Conform

/-- A line of a test of `Choice`. -/
inductive Step (α : Type) where
  /-- A statement. -/
  | run (o : ChoiceOp ℚ)
  /-- `ce.rng = random.Random(seed)`. -/
  | rng (seed : Int)
  /-- `assert ce(n) == l`, for `n` the length of `l`. -/
  | gives (l : List α)
  /-- `assert [ce() for _ in range(n)] == l`, for `n` the length of `l`. -/
  | ones (l : List α)
  /-- `with pytest.raises(e)`. -/
  | raises (o : ChoiceOp ℚ) (e : Err)
  /-- `assert ce.num_unique_values == n`. -/
  | values (n : Nat)
  /-- `assert ce.num_unique_items == n`. -/
  | items (n : Int)
  /-- `assert ce.emits_unique_values == b`. -/
  | unique (b : Bool)
  /-- `assert ce.weights == w`. -/
  | weights (w : Option (List ℚ))
  /-- `assert ce.cum_weights == w`. -/
  | cumWeights (w : Option (List ℚ))
  /-- `assert ce.replace == b`. -/
  | replace (b : Bool)
  /-- `assert ce.replace_only_after_call == b`. -/
  | roac (b : Bool)
  /-- `assert ce.rng_seed == s`. -/
  | seed (s : Int)

variable {α : Type} [DecidableEq α] [PyHash α]

/-- Whether a result is the value `a`. -/
def is {β : Type} [DecidableEq β] (r : Except Err β) (a : β) : Bool :=
  match r with
  | .ok b => decide (b = a)
  | .error _ => false

/-- Whether a result is the exception `e`. -/
def fails {β : Type} (r : Except Err β) (e : Err) : Bool :=
  match r with
  | .ok _ => false
  | .error e' => decide (e' = e)

/-- Single values, one after the other. -/
def singles : Nat → ChoiceM α pyRng (List α)
  | 0 => return []
  | n + 1 => do
    let v ← Choice.call none
    let vs ← singles n
    return v ++ vs

/-- Whether all assertions hold, and no other exception is raised. -/
def check : List (Step α) → ChoiceSt α pyRng × Nat → Bool
  | [], _ => true
  | .run o :: rest, s =>
    match o.run s with
    | (.ok _, s') => check rest s'
    | (.error _, _) => false
  | .rng seed :: rest, s => check rest ({ s.1 with rng := Twister.ofSeed seed }, s.2)
  | .gives l :: rest, s =>
    match Choice.call (some l.length) s with
    | (r, s') => is r l && check rest s'
  | .ones l :: rest, s =>
    match singles l.length s with
    | (r, s') => is r l && check rest s'
  | .raises o e :: rest, s =>
    match o.run s with
    | (r, s') => fails r e && check rest s'
  | .values n :: rest, s => is (Choice.numUniqueValues s).1 n && check rest s
  | .items n :: rest, s => is (Choice.numUniqueItems s).1 n && check rest s
  | .unique b :: rest, s => is (Choice.emitsUniqueValues s).1 b && check rest s
  | .weights w :: rest, s => decide (s.1.weights = w) && check rest s
  | .cumWeights w :: rest, s => decide (s.1.cumWeights = w) && check rest s
  | .replace b :: rest, s => decide (s.1.replace = b) && check rest s
  | .roac b :: rest, s => decide (s.1.roac = b) && check rest s
  | .seed n :: rest, s => decide (s.1.rngSeed = some n) && check rest s

/-- `Choice(...)`, then the lines of the test. -/
def choice (items : List α) (weights cum : Option (List ℚ)) (replace roac : Bool)
    (seed : Option Int) (steps : List (Step α)) : Bool :=
  match Choice.init (R := pyRng) items weights replace roac seed cum 0 with
  | (.ok s, e) => check steps (s, e)
  | (.error _, _) => false

/-- `with pytest.raises(e): Choice(...)`. -/
def noChoice (items : List α) (weights cum : Option (List ℚ)) (e : Err) : Bool :=
  fails (Choice.init (R := pyRng) items weights true false none cum 0).1 e

end Conform
end Fauxdoc
