import Verif.Py.Slice
import Verif.Model.TotalSeconds
/-
Model of `/repo/src/fauxdoc/dtrange.py` and of the parts of `datetime` it uses.

Simplifications: naive values only (no tzinfo, no fold).  A `date` is its proleptic ordinal
(`date.toordinal`), a `time` is microseconds since midnight, a `datetime` is
`ordinal * 86_400_000_000 + microseconds since midnight`, a `timedelta` is its microseconds.
`total_seconds()` is a double, rounded: see `Model/TotalSeconds.lean`.
-/
namespace Fauxdoc

/-- Microseconds per day. -/
def DAY : Int := 86400000000

/-- `date.max.toordinal()`. -/
def MAXORD : Int := 3652059

/-- A `date`, `time` or `datetime` value. -/
inductive DT where
  | date (ord : Int)
  | time (us : Int)
  | datetime (us : Int)
  deriving DecidableEq, Repr

/-- The values the `datetime` module can represent. -/
def DT.Valid : DT → Prop
  | .date o => 1 ≤ o ∧ o ≤ MAXORD
  | .time u => 0 ≤ u ∧ u < DAY
  | .datetime u => DAY ≤ u ∧ u < (MAXORD + 1) * DAY

instance (v : DT) : Decidable v.Valid := by cases v <;> unfold DT.Valid <;> infer_instance

/-- `timedelta` values: `-999999999 days .. 999999999 days 23:59:59.999999`. -/
def tdValid (d : Int) : Prop := -999999999 * DAY ≤ d ∧ d < 1000000000 * DAY

instance (d : Int) : Decidable (tdValid d) := by unfold tdValid; infer_instance

/-- Build a timedelta, `OverflowError` outside the representable range. -/
def mkTd (d : Int) : Py Int := if tdValid d then .ok d else .error .overflow

/-- `datetime + timedelta`: `OverflowError` outside years 1..9999. -/
def datetimeAdd (u d : Int) : Py Int :=
  if DAY ≤ u + d ∧ u + d < (MAXORD + 1) * DAY then .ok (u + d) else .error .overflow

/-- `date + timedelta`: only the (floored) `.days` component counts. -/
def dateAdd (o d : Int) : Py Int :=
  let o' := o + Int.fdiv d DAY
  if 1 ≤ o' ∧ o' ≤ MAXORD then .ok o' else .error .overflow

/-- `divmod(a, b)` on timedeltas: floor division; `ZeroDivisionError` for `b == 0`. -/
def tdDivmod (a b : Int) : Py (Int × Int) :=
  if b = 0 then .error .zeroDivision else .ok (Int.fdiv a b, Int.fmod a b)

/-- `_index_to_value`, dtrange.py 10-20.  `date(99, 1, 1).toordinal() == 35795`. -/
def indexToValue (index : Int) (start : DT) (step : Int) : Py DT := do
  let delta ← mkTd (step * index)
  match start with
  | .time u =>
    let v ← datetimeAdd (35795 * DAY + u) delta
    return .time (Int.fmod v DAY)
  | .date o => return .date (← dateAdd o delta)
  | .datetime u => return .datetime (← datetimeAdd u delta)

/-- `_value_to_index`, dtrange.py 23-51.  Subtracting values of different types raises `TypeError`
(also `datetime - date`); comparing a non-time with a time raises `TypeError`.  Subtracting two
valid values never overflows a timedelta. -/
def valueToIndex (value start : DT) (step : Int) : Py (Int × Int) :=
  match start, value with
  | .time s, .time v =>
    let startdt := 35796 * DAY + s
    let valdt :=
      if v < s ∧ 0 < totalSeconds step then 35797 * DAY + v
      else if v > s ∧ totalSeconds step < 0 then 35795 * DAY + v
      else 35796 * DAY + v
    tdDivmod (valdt - startdt) step
  | .date s, .date v => tdDivmod ((v - s) * DAY) step
  | .datetime s, .datetime v => tdDivmod (v - s) step
  | _, _ => .error .typeError

/-- A `DateOrTimeRange` instance (attributes `start`, `length`, `step`; `_index_range` is
`range(0, length)`). -/
structure DTR where
  start : DT
  length : Int
  step : Int
  deriving DecidableEq, Repr

/-- `DateOrTimeRange.__init__`, dtrange.py 85-97, with the setters of `start` (104-114), `step`
(128-151) and `length` (158-168).  Arguments are already of the right Python types. -/
def DTR.mk' (start : DT) (length step : Int) : Py DTR :=
  match start with
  | .date _ =>
    if Int.fmod (totalSeconds step) (86400 * SEC) ≠ 0 then .error .valueError
    else .ok ⟨start, length, step⟩
  | .time _ =>
    if 86400 * (SEC : Int) ≤ ((totalSeconds step).natAbs : Int) then .error .valueError
    else .ok ⟨start, length, step⟩
  | .datetime _ => .ok ⟨start, length, step⟩

/-- `_index_range`, dtrange.py 97. -/
def DTR.indexRange (r : DTR) : PyRange := ⟨0, r.length, 1⟩

/-- `len(r)`: `__len__` (dtrange.py 191-193) returns `length`; Python raises `ValueError` when it
is negative.  (`sys.maxsize` is not modelled.) -/
def DTR.len (r : DTR) : Py Int := if r.length < 0 then .error .valueError else .ok r.length

/-- `r[i]` for an int, dtrange.py 184-189. -/
def DTR.getItem (r : DTR) (i : Int) : Py DT := do
  let j ← r.indexRange.getItem i
  indexToValue j r.start r.step

/-- `r[a:b:c]`, dtrange.py 180-183. -/
def DTR.getSlice (r : DTR) (s : PySlice) : Py DTR := do
  let slc ← r.indexRange.getSlice s
  let start ← indexToValue slc.start r.start r.step
  let step ← mkTd (r.step * slc.step)
  DTR.mk' start slc.len step

/-- `for v in r` (`collections.abc.Sequence.__iter__`): `r[0], r[1], ...` until `IndexError`;
`fuel` bounds the number of steps, `r.length.toNat` of them suffice. -/
def DTR.iterFrom (r : DTR) : Nat → Nat → Py (List DT)
  | 0, _ => .ok []
  | fuel + 1, i =>
    match r.getItem i with
    | .ok v => do return v :: (← r.iterFrom fuel (i + 1))
    | .error .indexError => .ok []
    | .error e => .error e

/-- The values a `for` loop over the range visits. -/
def DTR.iter (r : DTR) : Py (List DT) := r.iterFrom (r.length.toNat + 1) 0

/-- `list(r)`: calls `len()` first (as a size hint), then iterates. -/
def DTR.toList (r : DTR) : Py (List DT) := do
  let _ ← r.len
  r.iter

/-- `bool(r)`: truth value through `__len__`. -/
def DTR.truthy (r : DTR) : Py Bool := do return (← r.len) ≠ 0

/-- `isinstance(value, type(self.start))`; `datetime` is a subclass of `date`. -/
def DT.isInstanceOfTypeOf : DT → DT → Bool
  | .date _, .date _ => true
  | .datetime _, .date _ => true
  | .time _, .time _ => true
  | .datetime _, .datetime _ => true
  | _, _ => false

/-- `r.index(value, start, stop)`, dtrange.py 229-246. -/
def DTR.index (r : DTR) (value : DT) (start stop : Option Int) : Py Int :=
  if value.isInstanceOfTypeOf r.start then do
    let (index, rem) ← valueToIndex value r.start r.step
    let slc ← r.indexRange.getSlice ⟨start, stop, none⟩
    if rem = 0 ∧ slc.contains index then .ok index else .error .valueError
  else .error .valueError

/-- `value in r`, dtrange.py 248-257: only `ValueError` is caught. -/
def DTR.contains (r : DTR) (value : DT) : Py Bool :=
  if value.isInstanceOfTypeOf r.start then
    match r.index value none none with
    | .ok _ => .ok true
    | .error .valueError => .ok false
    | .error e => .error e
  else .ok false

/-- `r.count(value)`, dtrange.py 259-265. -/
def DTR.count (r : DTR) (value : DT) : Py Int := do
  if ← r.contains value then return 1 else return 0

/-- Python `==` on date/time values: same type and same value. -/
def DT.eq (a b : DT) : Bool := decide (a = b)

/-- `r == s` for two ranges, dtrange.py 208-220. -/
def DTR.eq (r s : DTR) : Py Bool := do
  let n ← r.len
  let m ← s.len
  if n ≠ m then return false
  if n = 0 then return true
  if n = 1 then return r.start.eq s.start
  return r.start.eq s.start && decide (r.step = s.step)

/-- The tuple that `__hash__` (dtrange.py 222-227) hashes. -/
def DTR.hashKey (r : DTR) : Py (Int × Option DT × Option Int) := do
  let n ← r.len
  return (n, if n > 0 then some r.start else none, if n > 1 then some r.step else none)

/-- `r.stop`, dtrange.py 116-121. -/
def DTR.stop (r : DTR) : Py DT := do
  let n ← r.len
  indexToValue n r.start r.step

/-- Same concrete type (`type(start_obj) != type(stop_obj)`, dtrange.py 328). -/
def DT.sameType : DT → DT → Bool
  | .date _, .date _ => true
  | .time _, .time _ => true
  | .datetime _, .datetime _ => true
  | _, _ => false

/-- `dtrange` after argument parsing, dtrange.py 328-357, with the step as a timedelta. -/
def dtrangeTd (start stop : DT) (step : Int) : Py DTR := do
  if ¬ start.sameType stop then .error .valueError
  let (q, rem) ←
    match start with
    | .time u =>
      if start = stop then do
        let stopRef ← datetimeAdd (35795 * DAY + u) DAY
        valueToIndex (.datetime stopRef) (.datetime (35795 * DAY + u)) step
      else valueToIndex stop start step
    | _ => valueToIndex stop start step
  let length := if rem ≠ 0 then q + 1 else q
  DTR.mk' start length step

/-- Keyword names accepted by `timedelta`, with their size in microseconds. -/
def tdUnit : String → Option Int
  | "weeks" => some (7 * DAY)
  | "days" => some DAY
  | "hours" => some 3600000000
  | "minutes" => some 60000000
  | "seconds" => some 1000000
  | "milliseconds" => some 1000
  | "microseconds" => some 1
  | _ => none

/-- `timedelta(**{step_unit: step})` for an int `step`, dtrange.py 336-342: an unknown unit is a
`TypeError` which the code turns into `ValueError`.  (Float steps are not modelled here; use
`dtrangeTd` with the resulting timedelta.) -/
def stepTd (unit : String) (step : Int) : Py Int :=
  match tdUnit unit with
  | none => .error .valueError
  | some u => mkTd (step * u)

/-- A `start`/`stop` argument of `dtrange`: a date/time value, a string or something else. -/
inductive UserDate where
  | dt (v : DT)
  | str (s : String)
  | other
  deriving DecidableEq, Repr

/-- `fromisoformat` of the three types, as partial functions (`none` = `ValueError`). -/
structure IsoParsers where
  date : String → Option Int
  time : String → Option Int
  datetime : String → Option Int

/-- `_parse_user_date`, dtrange.py 268-288: tries `date`, then `time`, then `datetime`. -/
def parseUserDate (iso : IsoParsers) : UserDate → Py DT
  | .dt v => .ok v
  | .str s =>
    match iso.date s with
    | some o => .ok (.date o)
    | none =>
      match iso.time s with
      | some u => .ok (.time u)
      | none =>
        match iso.datetime s with
        | some u => .ok (.datetime u)
        | none => .error .valueError
  | .other => .error .valueError

/-- Default `step_unit`, dtrange.py 333-334. -/
def defaultUnit : DT → String
  | .date _ => "days"
  | _ => "seconds"

/-- `dtrange`, dtrange.py 291-357, for int steps. -/
def dtrange (iso : IsoParsers) (start stop : UserDate) (step : Int := 1)
    (stepUnit : Option String := none) : Py DTR := do
  let a ← parseUserDate iso start
  let b ← parseUserDate iso stop
  if ¬ a.sameType b then .error .valueError
  let td ← stepTd (stepUnit.getD (defaultUnit a)) step
  dtrangeTd a b td

end Fauxdoc
