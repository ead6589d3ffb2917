import Verif.Model.Choice
import Mathlib.Data.Rat.Defs
import Mathlib.Algebra.Order.Ring.Unbundled.Rat
/-
`len(set(items))` with Python's own notion of equality, in which `True == 1 == 1.0`.

`num_unique_values` (mixins.py 92-95, choice.py 282-294) and with it `emits_unique_values`
(choice.py 268-280) are the only places of the library where values of the user are compared.  In
`Model/Choice` they are compared structurally; here they are compared as a Python set does it.

Simplifications: `__eq__` and `__hash__` of values have no side effects and do not raise (other than
the `TypeError` of unhashable values).
-/
namespace Fauxdoc

/-- What a set asks of values: `hash(x)` (`none`: `TypeError`), and `x is y or x == y`. -/
class PyEq (α : Type) where
  hash : α → Option Int
  same : α → α → Bool

section
variable {α : Type} [PyEq α]

/-- `s.add(x)`: an entry counts as the same if the hashes are equal and it is `x` or equals `x`
(CPython, `set_add_entry`). -/
def pySetAdd (s : List α) (x : α) : Py (List α) :=
  match PyEq.hash x with
  | none => .error .typeError
  | some h =>
    .ok (if s.any fun y => decide (PyEq.hash y = some h) && PyEq.same y x then s else s ++ [x])

/-- `set(l)`, as the list of its entries. -/
def pySet (l : List α) : Py (List α) := l.foldlM pySetAdd []

/-- `len(set(l))`. -/
def pySetLen (l : List α) : Py Nat := do return (← pySet l).length

variable {K : Type} [Field K] [LinearOrder K] [FloorRing K] {R : Rng K}

/-- `num_unique_values`, choice.py 282-294 and mixins.py 92-95. -/
def Choice.pyNumUniqueValues : ChoiceM α R Nat := do
  let c ← Choice.self
  if ¬ c.replace then do
    let i ← Choice.shuffledIndex
    PyM.lift (pySetLen (pyListSlice1 c.shuffled i c.shuffled.length))
  else PyM.lift (pySetLen c.items)

/-- `emits_unique_values`, choice.py 268-280. -/
def Choice.pyEmitsUniqueValues : ChoiceM α R Bool := do
  let c ← Choice.self
  if ¬ c.replace then do
    let n ← Choice.numUniqueItems
    let m ← Choice.pyNumUniqueValues
    return decide (n = m)
  else return false
end

/-- Values of built-in types.  A float is its exact value, or a `nan` with its identity; infinities are
left out. -/
inductive PyConst where
  | none
  | bool (b : Bool)
  | int (i : Int)
  | float (q : ℚ)
  | nan (object : Nat)
  | str (s : List Char)
  | tuple (l : List PyConst)
  | list (l : List PyConst)

/-- The number that a bool, an int or a float is. -/
def PyConst.number : PyConst → Option ℚ
  | .bool b => some (if b then 1 else 0)
  | .int i => some i
  | .float q => some q
  | _ => Option.none

mutual
/-- `x is y or x == y`: numbers of different types are compared by their exact values (`True == 1`,
`1 == 1.0`), `nan` is only identical to itself, tuples and lists are compared item by item, where
items are the same if they are identical or equal. -/
def PyConst.same : PyConst → PyConst → Bool
  | .none, .none => true
  | .nan i, .nan j => i == j
  | .str s, .str t => s == t
  | .tuple l, .tuple m => PyConst.sameAll l m
  | .list l, .list m => PyConst.sameAll l m
  | x, y =>
    match x.number, y.number with
    | some p, some q => p == q
    | _, _ => false
def PyConst.sameAll : List PyConst → List PyConst → Bool
  | [], [] => true
  | x :: xs, y :: ys => PyConst.same x y && PyConst.sameAll xs ys
  | _, _ => false
end

/-- The hash functions of the interpreter: one for all kinds of numbers (`hash(1.0) == hash(1)`), one
for strings (different in every process), for `nan` objects, and for tuples from the hashes of the
items. -/
structure Hashes where
  none : Int
  number : ℚ → Int
  nan : Nat → Int
  str : List Char → Int
  tuple : List Int → Int

mutual
/-- `hash(x)`; lists and tuples containing lists have none. -/
def PyConst.hash (H : Hashes) : PyConst → Option Int
  | .none => some H.none
  | .bool b => some (H.number (if b then 1 else 0))
  | .int i => some (H.number i)
  | .float q => some (H.number q)
  | .nan i => some (H.nan i)
  | .str s => some (H.str s)
  | .tuple l => (PyConst.hashAll H l).map H.tuple
  | .list _ => Option.none
def PyConst.hashAll (H : Hashes) : List PyConst → Option (List Int)
  | [] => some []
  | x :: xs => (PyConst.hash H x).bind fun h => (PyConst.hashAll H xs).map (h :: ·)
end

/-- Built-in values in a set. -/
abbrev PyConst.eq (H : Hashes) : PyEq PyConst := ⟨PyConst.hash H, PyConst.same⟩

end Fauxdoc
