import Verif.Py.Slice
import Mathlib.Algebra.Order.Floor.Ring
import Mathlib.Algebra.Order.Field.Basic
import Mathlib.Data.Rat.Floor
import Mathlib.Data.List.Sort
/-
`random.Random` as an abstract generator with laws, and the CPython algorithms built on top of
`random()` that fauxdoc relies on (`choices`, `choice`, `bisect`).
-/
namespace Fauxdoc

/-- A generator: state type, construction, primitive draws and their laws.  Every theorem quantifies
over all such generators, hence over every possible stream of draws.
* `ofSeed s` is the state of `random.Random(s)` and of `rng.seed(s)`;
* `ofEntropy i` is the state after the `i`-th seeding from OS entropy (seed `None`);
* `random` is `rng.random()`, `randbelow n` is `rng._randbelow(n)`, `sample n k` are the positions
  picked by `rng.sample(population of size n, k)` for `k <= n`;
* `log` is `math.log` on positive arguments. -/
structure Rng (K : Type) [Field K] [LinearOrder K] where
  G : Type
  ofSeed : Int → G
  ofEntropy : Nat → G
  random : G → K × G
  randbelow : Nat → G → Nat × G
  sample : Nat → Nat → G → List Nat × G
  log : K → K
  random_nonneg : ∀ g, 0 ≤ (random g).1
  random_lt_one : ∀ g, (random g).1 < 1
  randbelow_lt : ∀ n g, 0 < n → (randbelow n g).1 < n
  sample_length : ∀ n k g, k ≤ n → (sample n k g).1.length = k
  sample_nodup : ∀ n k g, k ≤ n → (sample n k g).1.Nodup
  sample_lt : ∀ n k g, k ≤ n → ∀ i ∈ (sample n k g).1, i < n
  log_neg : ∀ x, 0 < x → x < 1 → log x < 0

variable {K : Type} [Field K] [LinearOrder K]

/-- `random.Random(seed)` / `rng.seed(seed)`: `None` takes fresh OS entropy (the counter counts
how often that happened). -/
def Rng.new (R : Rng K) : Option Int → PyM Nat R.G
  | some s => fun e => (.ok (R.ofSeed s), e)
  | none => fun e => (.ok (R.ofEntropy e), e + 1)

/-- `rng.random()`. -/
def Rng.rand (R : Rng K) : PyM R.G K := fun g => (.ok (R.random g).1, (R.random g).2)

/-- `n` successive `random()` values. -/
def Rng.rands (R : Rng K) : Nat → PyM R.G (List K)
  | 0 => pure []
  | n + 1 => do
    let u ← R.rand
    let us ← R.rands n
    return u :: us

/-- `rng.choice(seq)` as a position: `IndexError` on an empty sequence. -/
def Rng.choice (R : Rng K) (n : Nat) : PyM R.G Nat := fun g =>
  if n = 0 then (.error .indexError, g)
  else (.ok (R.randbelow n g).1, (R.randbelow n g).2)

/-- `rng.sample(seq, k)` as positions: `ValueError` unless `0 <= k <= n`. -/
def Rng.samplePos (R : Rng K) (n : Nat) (k : Int) : PyM R.G (List Nat) := fun g =>
  if 0 ≤ k ∧ k ≤ n then (.ok (R.sample n k.toNat g).1, (R.sample n k.toNat g).2)
  else (.error .valueError, g)

/-- `itertools.accumulate` (running sums), starting from `acc`. -/
def accumulateFrom (acc : K) : List K → List K
  | [] => []
  | w :: ws => (acc + w) :: accumulateFrom (acc + w) ws

/-- `list(itertools.accumulate(weights))`. -/
def accumulate (ws : List K) : List K := accumulateFrom 0 ws

/-- The loop of `bisect.bisect_right(a, x, lo, hi)`; `fuel >= hi - lo` suffices. -/
def bisectGo (a : List K) (x : K) : Nat → Nat → Nat → Nat
  | 0, lo, _ => lo
  | fuel + 1, lo, hi =>
    if lo < hi then
      let mid := (lo + hi) / 2
      if x < a.getD mid 0 then bisectGo a x fuel lo mid else bisectGo a x fuel (mid + 1) hi
    else lo

/-- `bisect.bisect_right(a, x, 0, hi)`. -/
def bisect (a : List K) (x : K) (hi : Nat) : Nat := bisectGo a x hi 0 hi

/-- The position selected by one weighted draw `u` of `rng.choices` (CPython `random.py`). -/
def choicesPick (cum : List K) (total u : K) : Nat := bisect cum (u * total) (cum.length - 1)

/-- `rng.choices(population of size n, cum_weights=cum, k=k)` as positions: `ValueError` on a
length mismatch or a non-positive total; `k <= 0` gives `[]`. -/
def Rng.choicesCum (R : Rng K) (n : Nat) (cum : List K) (k : Int) : PyM R.G (List Nat) := do
  if cum.length ≠ n then PyM.raise .valueError
  else
    match cum.getLast? with
    | none => PyM.raise .indexError
    | some total =>
      if total ≤ 0 then PyM.raise .valueError
      else do
        let us ← R.rands k.toNat
        return us.map (choicesPick cum total)

variable [FloorRing K]

/-- `rng.choices(population of size n, k=k)` without weights: `floor(random() * n)`.  On an empty
population the first pick fails. -/
def Rng.choicesUniform (R : Rng K) (n : Nat) (k : Int) : PyM R.G (List Nat) := do
  if n = 0 ∧ 0 < k then do
    let _ ← R.rand
    PyM.raise .indexError
  else do
    let us ← R.rands k.toNat
    return us.map fun u => ⌊u * (n : K)⌋.toNat

end Fauxdoc
