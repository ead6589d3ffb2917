import Verif.Model.DtRange
/-
Model of `DateOrTimeRange` instances as mutable Python objects, `/repo/src/fauxdoc/dtrange.py`
54-206: which attributes exist, the set-once setters, the constructor with arguments of any type,
and the cached `stop` and `repr`.
-/
namespace Fauxdoc

/-- The attributes of an instance; `none` means `hasattr` is false. -/
structure DTObj where
  length : Option Int
  start : Option DT
  step : Option Int
  indexRange : Option PyRange
  stop : Option DT
  repr : Option String
  deriving DecidableEq

/-- An instance before `__init__`. -/
def DTObj.blank : DTObj := ⟨none, none, none, none, none, none⟩

/-- A `start` argument: a date/time value or any other object. -/
inductive StartArg where
  | dt (v : DT)
  | other
  deriving DecidableEq

/-- A `step` argument: a timedelta or any other object. -/
inductive StepArg where
  | td (us : Int)
  | other
  deriving DecidableEq

/-- A `length` argument, by what `int(x)` does with it and whether it can be used as an index:
`int n` for ints and objects with `__index__`; `castable n` for floats, digit strings and the like,
for which `int(x)` is `n`; `raises e` if `int(x)` raises `e`. -/
inductive LengthArg where
  | int (n : Int)
  | castable (n : Int)
  | raises (e : Err)
  deriving DecidableEq

namespace DTObj

/-- Setter of `length`, dtrange.py 158-168.  A `ValueError` is replaced by another one. -/
def setLength (arg : LengthArg) : PyM DTObj Unit := fun o =>
  if o.length.isSome then (.error .attributeError, o)
  else match arg with
    | .int n => (.ok (), { o with length := some n })
    | .castable n => (.ok (), { o with length := some n })
    | .raises e => (.error e, o)

/-- Setter of `start`, dtrange.py 104-114. -/
def setStart (arg : StartArg) : PyM DTObj Unit := fun o =>
  if o.start.isSome then (.error .attributeError, o)
  else match arg with
    | .dt v => (.ok (), { o with start := some v })
    | .other => (.error .valueError, o)

/-- Setter of `step`, dtrange.py 128-151; `self.start` of an instance without `_start` is an
`AttributeError`. -/
def setStep (arg : StepArg) : PyM DTObj Unit := fun o =>
  if o.step.isSome then (.error .attributeError, o)
  else match arg with
    | .other => (.error .valueError, o)
    | .td us =>
      match o.start with
      | none => (.error .attributeError, o)
      | some (.date _) =>
        if Int.fmod (totalSeconds us) (86400 * SEC) ≠ 0 then (.error .valueError, o)
        else (.ok (), { o with step := some us })
      | some (.time _) =>
        if 86400 * (SEC : Int) ≤ ((totalSeconds us).natAbs : Int) then (.error .valueError, o)
        else (.ok (), { o with step := some us })
      | some (.datetime _) => (.ok (), { o with step := some us })

/-- `self._index_range = range(0, length)`, dtrange.py 97, with the argument as given: anything that
is no index is a `TypeError`. -/
def setIndexRange (arg : LengthArg) : PyM DTObj Unit := fun o =>
  match arg with
  | .int n => (.ok (), { o with indexRange := some ⟨0, n, 1⟩ })
  | _ => (.error .typeError, o)

/-- `__init__`, dtrange.py 86-97. -/
def init (start : StartArg) (length : LengthArg) (step : StepArg) : PyM DTObj Unit := do
  setLength length
  setStart start
  setStep step
  setIndexRange length

/-- Assigning `stop` (dtrange.py 116-121): a property without setter. -/
def setStop : PyM DTObj Unit := PyM.raise .attributeError

/-- The range the attributes describe (for the read accesses `self._start` etc.). -/
def view (o : DTObj) : Py DTR :=
  match o.start, o.length, o.step with
  | some s, some n, some d => .ok ⟨s, n, d⟩
  | _, _, _ => .error .attributeError

/-- Reading `stop`, dtrange.py 116-121: computed once and kept. -/
def getStop : PyM DTObj DT := fun o =>
  match o.stop with
  | some v => (.ok v, o)
  | none =>
    match o.view with
    | .error e => (.error e, o)
    | .ok r =>
      match r.stop with
      | .error e => (.error e, o)
      | .ok v => (.ok v, { o with stop := some v })

/-- `repr(r)`, dtrange.py 195-206: built once and kept.  `fmt` is the formatting of start, stop,
length and step into the text, lines 198-205. -/
def getRepr (fmt : DTR → DT → String) : PyM DTObj String := fun o =>
  match o.repr with
  | some t => (.ok t, o)
  | none =>
    match getStop o with
    | (.error e, o') => (.error e, o')
    | (.ok v, o') =>
      match o'.view with
      | .error e => (.error e, o')
      | .ok r => (.ok (fmt r v), { o' with repr := some (fmt r v) })

/-- What a program can do to a range that may change the object; all other operations (length,
start, step, `[]`, `in`, `index`, `count`, `==`, `hash`, iteration) only read `view` and
`indexRange`. -/
inductive Op where
  | setLength (a : LengthArg)
  | setStart (a : StartArg)
  | setStep (a : StepArg)
  | setStop
  | getStop
  | getRepr

/-- Run one such operation; the result is the exception or nothing. -/
def Op.run (fmt : DTR → DT → String) : Op → PyM DTObj Unit
  | .setLength a => DTObj.setLength a
  | .setStart a => DTObj.setStart a
  | .setStep a => DTObj.setStep a
  | .setStop => DTObj.setStop
  | .getStop => DTObj.getStop >>= fun _ => pure ()
  | .getRepr => DTObj.getRepr fmt >>= fun _ => pure ()

/-- The object after a history of operations, whatever they raised. -/
def after (fmt : DTR → DT → String) (ops : List Op) (o : DTObj) : DTObj :=
  ops.foldl (fun o op => (op.run fmt o).2) o

end DTObj

/-- `reversed(r)` (`collections.abc.Sequence.__reversed__`, inherited by dtrange.py 54):
`for i in reversed(range(len(self))): yield self[i]`, listed. -/
def DTR.revFrom (r : DTR) : Nat → Py (List DT)
  | 0 => .ok []
  | n + 1 => do
    let v ← r.getItem n
    return v :: (← r.revFrom n)

/-- `list(reversed(r))`. -/
def DTR.reversed (r : DTR) : Py (List DT) := do
  let n ← r.len
  r.revFrom n.toNat

end Fauxdoc
