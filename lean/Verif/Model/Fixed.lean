import Verif.Py.Core
import Mathlib.Data.List.Dedup
/-
Model of `/repo/src/fauxdoc/emitters/fixed.py` over an arbitrary item type.

Simplifications: an iterator factory is a callable that returns an equal iterator every time it is
called and whose iterators do not raise (`Src`); sequences are not mutated by the
user (`Model/LiveSeq` has a `Sequential` whose lists are).
-/
namespace Fauxdoc

/-- `len(set(l))`: the number of distinct values, `TypeError` if one of them is unhashable. -/
def pyLenSet {α : Type} [DecidableEq α] [PyHash α] (l : List α) : Py Nat :=
  if allHashable l then .ok l.dedup.length else .error .typeError

/-- What an iterator (still) yields: a finite list or an endless stream. -/
inductive Src (α : Type) where
  | fin (l : List α)
  | inf (f : Nat → α)

/-- `next(iterator)`; `none` is `StopIteration`. -/
def Src.next {α : Type} : Src α → Option (α × Src α)
  | .fin [] => none
  | .fin (x :: xs) => some (x, .fin xs)
  | .inf f => some (f 0, .inf fun k => f (k + 1))

/-- An iterator factory: what its iterators yield, and whether they have an integer
`__length_hint__`. -/
structure Factory (α : Type) where
  src : Src α
  hasLengthHint : Bool

/-- The attributes shared by `Iterative` and `Sequential`: the factory, `reset_after_call`, and
the rest of the source iterator that the generator `_iterator` is in (`fin []` when the generator
has not started or is at the end of a source iterator). -/
structure IterSt (α : Type) where
  factory : Factory α
  resetAfterCall : Bool
  cur : Src α

/-- A `Sequential`: additionally its `items`. -/
structure SeqSt (α : Type) where
  items : List α
  it : IterSt α

/-- A `Static`: `_value` and `_items`. -/
structure StaticSt (α : Type) where
  value : α
  items : List α
  deriving DecidableEq

variable {α : Type}

namespace Static

/-- `Static(value)`, fixed.py 25-32. -/
def init (v : α) : StaticSt α := ⟨v, [v]⟩

/-- Setter of `value`, fixed.py 39-43. -/
def setValue (v : α) : PyM (StaticSt α) Unit := PyM.modify fun s => { s with value := v, items := [v] }

/-- `emit`, fixed.py 45-47. -/
def emit : PyM (StaticSt α) α := do return (← PyM.get).value

/-- `emit_many`, fixed.py 49-55: `[value] * number` is empty for a negative number. -/
def emitMany (number : Int) : PyM (StaticSt α) (List α) := do
  return List.replicate number.toNat (← PyM.get).value

/-- `em()` as a singleton and `em(n)`: `Emitter.__call__`, emitter.py 74-102. -/
def call : Option Int → PyM (StaticSt α) (List α)
  | none => do return [← emit]
  | some n => if n = 1 then do return [← emit] else emitMany n

/-- `num_unique_values`, mixins.py 92-95. -/
def numUniqueValues [DecidableEq α] [PyHash α] (s : StaticSt α) : Py Nat := pyLenSet s.items

end Static

namespace Iterative

/-- `reset`, fixed.py 164-166 (and 264-266): a new, not yet started generator. -/
def reset : PyM (IterSt α) Unit := PyM.modify fun s => { s with cur := .fin [] }

/-- `check_iter_factory`, fixed.py 123-133. -/
def checkIterFactory (f : Factory α) : Py Unit :=
  match f.src.next with
  | some _ => .ok ⟨⟩
  | none => .error .valueError

/-- Setter of `iterator_factory`, fixed.py 152-157. -/
def setFactory (f : Factory α) : PyM (IterSt α) Unit := do
  PyM.lift (checkIterFactory f)
  PyM.modify fun s => { s with factory := f }
  reset

/-- `Iterative(factory, reset_after_call)`, fixed.py 111-121. -/
def init (f : Factory α) (resetAfterCall : Bool) : Py (IterSt α) :=
  match setFactory f ⟨f, resetAfterCall, .fin []⟩ with
  | (.ok _, s) => .ok s
  | (.error e, _) => .error e

/-- `next(self._iterator)` for the generator `make_infinite_iter` (fixed.py 135-145): at the end of
a source iterator a new one is requested from the factory; if that one is empty, the generator
never yields. -/
def nextItem : PyM (IterSt α) α := fun s =>
  match s.cur.next with
  | some (a, r) => (.ok a, { s with cur := r })
  | none =>
    match s.factory.src.next with
    | some (a, r) => (.ok a, { s with cur := r })
    | none => (.error .diverges, s)

/-- `list(islice(self._iterator, 0, n))`. -/
def takeItems : Nat → PyM (IterSt α) (List α)
  | 0 => pure []
  | n + 1 => do
    let a ← nextItem
    let as ← takeItems n
    return a :: as

/-- `if self.reset_after_call: self.reset()`. -/
def afterCall : PyM (IterSt α) Unit := do
  if (← PyM.get).resetAfterCall then reset else pure ⟨⟩

/-- `emit`, fixed.py 168-173 and 303-308. -/
def emit : PyM (IterSt α) α := do
  let a ← nextItem
  afterCall
  return a

/-- `emit_many`, fixed.py 175-184 and 310-319: `islice` raises `ValueError` for a negative
number. -/
def emitMany (number : Int) : PyM (IterSt α) (List α) := do
  if number < 0 then PyM.raise .valueError
  else do
    let as ← takeItems number.toNat
    afterCall
    return as

/-- `em()` as a singleton and `em(n)`: `Emitter.__call__`, emitter.py 74-102. -/
def call : Option Int → PyM (IterSt α) (List α)
  | none => do return [← emit]
  | some n => if n = 1 then do return [← emit] else emitMany n

/-- Assignment to `reset_after_call`. -/
def setResetAfterCall (b : Bool) : PyM (IterSt α) Unit :=
  PyM.modify fun s => { s with resetAfterCall := b }

end Iterative

namespace Sequential

/-- Run code shared with `Iterative` on the instance (fixed.py 264-266, 303-319 are textually the
same as in `Iterative`). -/
def onIt {β : Type} (m : PyM (IterSt α) β) : PyM (SeqSt α) β := fun s =>
  match m s.it with
  | (r, i) => (r, { s with it := i })

/-- `Sequential(items, reset_after_call)`, fixed.py 233-251. -/
def init (items : List α) (resetAfterCall : Bool) : Py (SeqSt α) :=
  if items.isEmpty then .error .valueError
  else .ok { items, it := ⟨⟨.fin items, true⟩, resetAfterCall, .fin []⟩ }

/-- `check_seq_iter_factory`, fixed.py 253-262. -/
def checkSeqIterFactory (f : Factory α) : Py Unit :=
  if f.hasLengthHint then .ok ⟨⟩ else .error .valueError

/-- `tuple([item for item in factory()])`: never finishes on an endless iterator. -/
def listOf (f : Factory α) : Py (List α) :=
  match f.src with
  | .fin l => .ok l
  | .inf _ => .error .diverges

/-- Setter of `iterator_factory`, fixed.py 278-301 (the deprecation warning is not modelled). -/
def setFactory (f : Factory α) : PyM (SeqSt α) Unit := do
  PyM.lift (Iterative.checkIterFactory f)
  PyM.lift (checkSeqIterFactory f)
  let items ← PyM.lift (listOf f)
  PyM.modify fun s => { s with items := items }
  onIt (PyM.modify fun s => { s with factory := f })
  onIt Iterative.reset

/-- `em()` and `em(n)`. -/
def call (n : Option Int) : PyM (SeqSt α) (List α) := onIt (Iterative.call n)

/-- `num_unique_values`, mixins.py 92-95. -/
def numUniqueValues [DecidableEq α] [PyHash α] (s : SeqSt α) : Py Nat := pyLenSet s.items

end Sequential

/-- Everything a user can do to an existing `Iterative` or `Sequential`. -/
inductive IterOp (α : Type) where
  | call (n : Option Int)
  | reset
  | setFactory (f : Factory α)
  | setResetAfterCall (b : Bool)

/-- One user operation on an `Iterative`; only calls return values. -/
def IterOp.runIter : IterOp α → PyM (IterSt α) (List α)
  | .call n => Iterative.call n
  | .reset => do Iterative.reset; return []
  | .setFactory f => do Iterative.setFactory f; return []
  | .setResetAfterCall b => do Iterative.setResetAfterCall b; return []

/-- One user operation on a `Sequential`. -/
def IterOp.runSeq : IterOp α → PyM (SeqSt α) (List α)
  | .call n => Sequential.call n
  | .reset => do Sequential.onIt Iterative.reset; return []
  | .setFactory f => do Sequential.setFactory f; return []
  | .setResetAfterCall b => do Sequential.onIt (Iterative.setResetAfterCall b); return []

/-- Everything a user can do to an existing `Static`. -/
inductive StaticOp (α : Type) where
  | call (n : Option Int)
  | reset
  | setValue (v : α)

/-- One user operation on a `Static`; `reset` is the no-op of `Emitter` (emitter.py 20-27). -/
def StaticOp.run : StaticOp α → PyM (StaticSt α) (List α)
  | .call n => Static.call n
  | .reset => return []
  | .setValue v => do Static.setValue v; return []

end Fauxdoc
