import Verif.Model.Fixed
/-
Model of `Sequential` (`/repo/src/fauxdoc/emitters/fixed.py` 201-319) whose items are in lists that
the user may change in place, and whose `iterator_factory` may be saved and assigned again.

`Model/Fixed` leaves out such changes. Here the lists live in a heap (a list per reference). A
CPython list iterator is a reference to the list and an index; `next` compares the index with the
length that the list has at that time.

Simplification: a factory is the one that `__init__` makes, or `lambda: iter(x)` for a list `x` of
the user. The deprecation warning is not modelled.
-/
namespace Fauxdoc
namespace LiveSeq

/-- A sequence: a list of the user, or a tuple, which cannot change. -/
inductive Held (α : Type) where
  | list (r : Nat)
  | tuple (l : List α)

/-- An iterator factory: `lambda: iter(self.items)` (fixed.py 250) or `lambda: iter(x)`. -/
inductive Fac where
  | own
  | ext (r : Nat)

/-- The lists of the user, and the attributes of a `Sequential`. `cur` is the source iterator that
the generator `_iterator` is in: the sequence and the index. It is `none` before the first
`next`. -/
structure St (α : Type) where
  lists : Nat → List α
  items : Held α
  factory : Fac
  resetAfterCall : Bool
  cur : Option (Held α × Nat)

variable {α : Type}

/-- What is in a sequence at the moment. -/
def Held.now (lists : Nat → List α) : Held α → List α
  | .list r => lists r
  | .tuple l => l

/-- The sequence over which an iterator of the factory `f` runs. `lambda: iter(self.items)` looks
`items` up when it is called. -/
def target (s : St α) : Fac → Held α
  | .own => s.items
  | .ext r => .list r

/-- `Sequential(x, reset_after_call)` for the list `x` with the reference `r`, fixed.py 233-251;
`ItemsMixin.__init__` (mixins.py 84) keeps the list itself. -/
def init (lists : Nat → List α) (r : Nat) (resetAfterCall : Bool) : Py (St α) :=
  if (lists r).isEmpty then .error .valueError
  else .ok ⟨lists, .list r, .own, resetAfterCall, none⟩

/-- `reset`, fixed.py 264-266. -/
def reset : PyM (St α) Unit := PyM.modify fun s => { s with cur := none }

/-- The first `next` on a new iterator of the factory. A generator whose factory makes an empty
iterator never yields (fixed.py 143-145). -/
def nextRound (s : St α) : Except Err α × St α :=
  match (target s s.factory).now s.lists with
  | [] => (.error .diverges, s)
  | a :: _ => (.ok a, { s with cur := some (target s s.factory, 1) })

/-- `next(self._iterator)`: `make_infinite_iter`, fixed.py 135-145. -/
def nextItem : PyM (St α) α := fun s =>
  match s.cur with
  | none => nextRound s
  | some (h, i) =>
    match (h.now s.lists)[i]? with
    | some a => (.ok a, { s with cur := some (h, i + 1) })
    | none => nextRound s

/-- `list(islice(self._iterator, 0, n))`. -/
def takeItems : Nat → PyM (St α) (List α)
  | 0 => pure []
  | n + 1 => do
    let a ← nextItem
    let as ← takeItems n
    return a :: as

/-- `if self.reset_after_call: self.reset()`. -/
def afterCall : PyM (St α) Unit := do
  if (← PyM.get).resetAfterCall then reset else pure ⟨⟩

/-- `emit`, fixed.py 303-308. -/
def emit : PyM (St α) α := do
  let a ← nextItem
  afterCall
  return a

/-- `emit_many`, fixed.py 310-319: `islice` raises `ValueError` for a negative number. -/
def emitMany (number : Int) : PyM (St α) (List α) := do
  if number < 0 then PyM.raise .valueError
  else do
    let as ← takeItems number.toNat
    afterCall
    return as

/-- `em()` as a singleton and `em(n)`: `Emitter.__call__`, emitter.py 74-102. -/
def call : Option Int → PyM (St α) (List α)
  | none => do return [← emit]
  | some n => if n = 1 then do return [← emit] else emitMany n

/-- Setter of `iterator_factory`, fixed.py 278-301. Iterators of lists and tuples have an integer
`__length_hint__`, so `check_seq_iter_factory` passes. -/
def setFactory (f : Fac) : PyM (St α) Unit := fun s =>
  if ((target s f).now s.lists).isEmpty then (.error .valueError, s)
  else (.ok ⟨⟩, { s with items := .tuple ((target s f).now s.lists), factory := f, cur := none })

/-- Assignment to `reset_after_call`. -/
def setResetAfterCall (b : Bool) : PyM (St α) Unit :=
  PyM.modify fun s => { s with resetAfterCall := b }

/-- The user changes a list in place: afterwards it holds `l`. -/
def change (r : Nat) (l : List α) : PyM (St α) Unit :=
  PyM.modify fun s => { s with lists := fun k => if k = r then l else s.lists k }

/-- The attribute `items` as a list. -/
def itemsNow (s : St α) : List α := s.items.now s.lists

/-- `num_unique_values`, mixins.py 92-95. -/
def numUniqueValues [DecidableEq α] [PyHash α] (s : St α) : Py Nat := pyLenSet (itemsNow s)

/-- What a user can do. -/
inductive Op (α : Type) where
  | call (n : Option Int)
  | reset
  | setFactory (f : Fac)
  | setResetAfterCall (b : Bool)
  | change (r : Nat) (l : List α)

/-- One operation; only calls return values. -/
def Op.run : Op α → PyM (St α) (List α)
  | .call n => LiveSeq.call n
  | .reset => do LiveSeq.reset; return []
  | .setFactory f => do LiveSeq.setFactory f; return []
  | .setResetAfterCall b => do LiveSeq.setResetAfterCall b; return []
  | .change r l => do LiveSeq.change r l; return []

/-- The state after a history; a history goes on after an exception. -/
def after (s : St α) : List (Op α) → St α
  | [] => s
  | op :: ops => after (op.run s).2 ops

/-- The results of the operations of a history. -/
def results (s : St α) : List (Op α) → List (Except Err (List α))
  | [] => []
  | op :: ops => (op.run s).1 :: results (op.run s).2 ops

end LiveSeq
end Fauxdoc
