import Verif.Py.Core
/-
Model of `Iterative` (`/repo/src/fauxdoc/emitters/fixed.py`) for arbitrary iterator factories: a
factory may return another iterator every time or the same one, its iterators may share state, and
both may raise exceptions.  (`Model/Fixed` has the case of a factory that always returns an equal
iterator; `C84_constant` relates the two.)

Simplification: the factory and its iterators do not use the emitter themselves.
-/
namespace Fauxdoc

/-- An iterator factory over some outside state `σ`: `factory()` and, for the iterators it returns,
`next(it)`, where `none` is the end (`StopIteration`). -/
structure IterFac (σ H α : Type) where
  make : PyM σ H
  next : H → PyM σ (Option α)

/-- The generator `make_infinite_iter(factory)`: not started; suspended in the loop over an iterator;
or finished, which happens only when an exception passes through it. -/
inductive GenSt (H : Type) where
  | fresh
  | inside (it : H)
  | dead
  deriving DecidableEq

/-- The attributes of an `Iterative`. -/
structure IterObj (σ H α : Type) where
  factory : IterFac σ H α
  resetAfterCall : Bool
  gen : GenSt H

variable {σ H α : Type}

/-- State of a computation: the emitter and everything outside. -/
abbrev IterObjM (σ H α : Type) := PyM (IterObj σ H α × σ)

namespace IterObj

/-- Read the instance. -/
def self : IterObjM σ H α (IterObj σ H α) := fun s => (.ok s.1, s)

/-- Assign attributes. -/
def upd (f : IterObj σ H α → IterObj σ H α) : IterObjM σ H α Unit := fun s => (.ok ⟨⟩, (f s.1, s.2))

/-- Run code of the factory or of an iterator. -/
def outside {β : Type} (m : PyM σ β) : IterObjM σ H α β := fun s =>
  match m s.2 with
  | (r, t) => (r, (s.1, t))

/-- Run code of the factory or of an iterator inside the generator: an exception ends the generator. -/
def inGen {β : Type} (m : PyM σ β) : IterObjM σ H α β := fun s =>
  match m s.2 with
  | (.ok b, t) => (.ok b, (s.1, t))
  | (.error e, t) => (.error e, ({ s.1 with gen := .dead }, t))

/-- A `StopIteration` raised inside a generator becomes a `RuntimeError` (PEP 479). -/
def notStop {β : Type} (m : PyM σ β) : PyM σ β := fun s =>
  match m s with
  | (.error .stopIteration, t) => (.error .runtime, t)
  | p => p

/-- `check_iter_factory`, fixed.py 123-133: `next(factory())`, with `StopIteration` turned into
`ValueError`. -/
def checkIterFactory (f : IterFac σ H α) : PyM σ Unit := fun s =>
  match f.make s with
  | (.error e, t) => (.error (if e = .stopIteration then .valueError else e), t)
  | (.ok it, t) =>
    match f.next it t with
    | (.error e, t') => (.error e, t')
    | (.ok none, t') => (.error .valueError, t')
    | (.ok (some _), t') => (.ok ⟨⟩, t')

/-- `reset`, fixed.py 164-166. -/
def reset : IterObjM σ H α Unit := upd fun o => { o with gen := .fresh }

/-- Setter of `iterator_factory`, fixed.py 152-157. -/
def setFactory (f : IterFac σ H α) : IterObjM σ H α Unit := do
  outside (checkIterFactory f)
  upd fun o => { o with factory := f }
  reset

/-- `Iterative(factory, reset_after_call)`, fixed.py 111-121; on an exception no object exists. -/
def init (f : IterFac σ H α) (resetAfterCall : Bool) : PyM σ (IterObj σ H α) := fun s =>
  match setFactory f (⟨f, resetAfterCall, .fresh⟩, s) with
  | (.ok _, (o, t)) => (.ok o, t)
  | (.error e, (_, t)) => (.error e, t)

/-- The loop of `make_infinite_iter`, fixed.py 143-145, from the top of `while True` to the next
`yield`.  `fuel` bounds how many empty iterators in a row are looked at; a loop that finds more than
any bound does not end. -/
def loop : Nat → IterObjM σ H α α
  | 0 => PyM.raise .diverges
  | fuel + 1 => do
    let it ← inGen (notStop (← self).factory.make)
    match ← inGen ((← self).factory.next it) with
    | some a => do
      upd fun o => { o with gen := .inside it }
      return a
    | none => loop fuel

/-- `next(self._iterator)`. -/
def nextItem (fuel : Nat) : IterObjM σ H α α := do
  match (← self).gen with
  | .dead => PyM.raise .stopIteration
  | .fresh => loop fuel
  | .inside it =>
    match ← inGen ((← self).factory.next it) with
    | some a => return a
    | none => loop fuel

/-- `list(islice(self._iterator, 0, n))`: ends early when the generator is finished. -/
def takeItems (fuel : Nat) : Nat → IterObjM σ H α (List α)
  | 0 => pure []
  | n + 1 => do
    match (← self).gen with
    | .dead => return []
    | _ => do
      let a ← nextItem fuel
      let as ← takeItems fuel n
      return a :: as

/-- `if self.reset_after_call: self.reset()`. -/
def afterCall : IterObjM σ H α Unit := do
  if (← self).resetAfterCall then reset else pure ⟨⟩

/-- `emit`, fixed.py 168-173. -/
def emit (fuel : Nat) : IterObjM σ H α α := do
  let a ← nextItem fuel
  afterCall
  return a

/-- `emit_many`, fixed.py 175-184. -/
def emitMany (fuel : Nat) (number : Int) : IterObjM σ H α (List α) := do
  if number < 0 then PyM.raise .valueError
  else do
    let as ← takeItems fuel number.toNat
    afterCall
    return as

/-- `em()` as a singleton and `em(n)`: `Emitter.__call__`, emitter.py 74-102. -/
def call (fuel : Nat) : Option Int → IterObjM σ H α (List α)
  | none => do return [← emit fuel]
  | some n => if n = 1 then do return [← emit fuel] else emitMany fuel n

/-- Assignment to `reset_after_call`. -/
def setResetAfterCall (b : Bool) : IterObjM σ H α Unit := upd fun o => { o with resetAfterCall := b }

end IterObj

/-- Everything a user can do to an existing `Iterative`. -/
inductive IterObjOp (σ H α : Type) where
  | call (n : Option Int)
  | reset
  | setFactory (f : IterFac σ H α)
  | setResetAfterCall (b : Bool)

/-- One user operation; only calls return values. -/
def IterObjOp.run (fuel : Nat) : IterObjOp σ H α → IterObjM σ H α (List α)
  | .call n => IterObj.call fuel n
  | .reset => do IterObj.reset; return []
  | .setFactory f => do IterObj.setFactory f; return []
  | .setResetAfterCall b => do IterObj.setResetAfterCall b; return []

end Fauxdoc
