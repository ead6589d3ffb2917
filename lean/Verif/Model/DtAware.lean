import Verif.Model.DtRange
/-
`/repo/src/fauxdoc/dtrange.py` for values with a `tzinfo`.  `Model/DtRange.lean` has naive values
only; this model has both (`Props/DtAware.lean` proves that it agrees with the other one on naive
values).

Simplifications: a `tzinfo` is a fixed offset from UTC (`datetime.timezone`), in microseconds, a
multiple of a second.  Zones with daylight saving time and `fold` are left out.
-/
namespace Fauxdoc

/-- A `date`, `time` or `datetime`, the latter two as shown on the local clock, with `utcoffset()`. -/
inductive ADT where
  | date (ord : Int)
  | time (us : Int) (tz : Option Int)
  | datetime (us : Int) (tz : Option Int)
  deriving DecidableEq, Repr

/-- What `<`, `>` and `-` do with two local clocks: the naive readings are compared if both values are
naive, the readings in UTC if both are aware; one of each is a `TypeError`. -/
def aligned (a : Int) (ta : Option Int) (b : Int) (tb : Option Int) : Py (Int × Int) :=
  match ta, tb with
  | none, none => .ok (a, b)
  | some x, some y => .ok (a - x, b - y)
  | _, _ => .error .typeError

/-- Python `==`: never an exception; an aware value does not equal a naive one. -/
def ADT.eq : ADT → ADT → Bool
  | .date a, .date b => decide (a = b)
  | .time a ta, .time b tb => clock a ta b tb
  | .datetime a ta, .datetime b tb => clock a ta b tb
  | _, _ => false
where
  clock (a : Int) (ta : Option Int) (b : Int) (tb : Option Int) : Bool :=
    match aligned a ta b tb with
    | .ok (x, y) => decide (x = y)
    | .error _ => false

/-- `_index_to_value`, dtrange.py 10-20.  `datetime.combine` takes the `tzinfo` of the time over, but
`.time()` (line 19) gives a naive time. -/
def ADT.ofIndex (index : Int) (start : ADT) (step : Int) : Py ADT := do
  let delta ← mkTd (step * index)
  match start with
  | .time u _ =>
    let v ← datetimeAdd (35795 * DAY + u) delta
    return .time (Int.fmod v DAY) none
  | .date o => return .date (← dateAdd o delta)
  | .datetime u tz => return .datetime (← datetimeAdd u delta) tz

/-- `datetime - datetime`. -/
def datetimeSub (a : Int) (ta : Option Int) (b : Int) (tb : Option Int) : Py Int := do
  let (x, y) ← aligned a ta b tb
  return x - y

/-- `_value_to_index`, dtrange.py 23-51. -/
def ADT.toIndex (value start : ADT) (step : Int) : Py (Int × Int) :=
  match start, value with
  | .time s ts, .time v tv => do
    let (x, y) ← aligned v tv s ts
    let valdate : Int :=
      if x < y ∧ 0 < totalSeconds step then 35797
      else if x > y ∧ totalSeconds step < 0 then 35795
      else 35796
    let d ← datetimeSub (valdate * DAY + v) tv (35796 * DAY + s) ts
    tdDivmod d step
  | .date s, .date v => tdDivmod ((v - s) * DAY) step
  | .datetime s ts, .datetime v tv => do
    let d ← datetimeSub v tv s ts
    tdDivmod d step
  | _, _ => .error .typeError

/-- A `DateOrTimeRange` instance. -/
structure ADTR where
  start : ADT
  length : Int
  step : Int
  deriving DecidableEq, Repr

/-- `DateOrTimeRange.__init__`, dtrange.py 85-97, with the setters (104-114, 128-151). -/
def ADTR.mk' (start : ADT) (length step : Int) : Py ADTR :=
  match start with
  | .date _ =>
    if Int.fmod (totalSeconds step) (86400 * SEC) ≠ 0 then .error .valueError
    else .ok ⟨start, length, step⟩
  | .time .. =>
    if 86400 * (SEC : Int) ≤ ((totalSeconds step).natAbs : Int) then .error .valueError
    else .ok ⟨start, length, step⟩
  | .datetime .. => .ok ⟨start, length, step⟩

namespace ADTR

/-- `_index_range`, dtrange.py 97. -/
def indexRange (r : ADTR) : PyRange := ⟨0, r.length, 1⟩

/-- `len(r)`, dtrange.py 191-193. -/
def len (r : ADTR) : Py Int := if r.length < 0 then .error .valueError else .ok r.length

/-- `r[i]`, dtrange.py 184-189. -/
def getItem (r : ADTR) (i : Int) : Py ADT := do
  let j ← r.indexRange.getItem i
  ADT.ofIndex j r.start r.step

/-- `r[a:b:c]`, dtrange.py 180-183. -/
def getSlice (r : ADTR) (s : PySlice) : Py ADTR := do
  let slc ← r.indexRange.getSlice s
  let start ← ADT.ofIndex slc.start r.start r.step
  let step ← mkTd (r.step * slc.step)
  ADTR.mk' start slc.len step

/-- Iteration (`Sequence.__iter__`). -/
def iterFrom (r : ADTR) : Nat → Nat → Py (List ADT)
  | 0, _ => .ok []
  | fuel + 1, i =>
    match r.getItem i with
    | .ok v => do return v :: (← r.iterFrom fuel (i + 1))
    | .error .indexError => .ok []
    | .error e => .error e

/-- `for v in r`. -/
def iter (r : ADTR) : Py (List ADT) := r.iterFrom (r.length.toNat + 1) 0

/-- `list(r)`. -/
def toList (r : ADTR) : Py (List ADT) := do
  let _ ← r.len
  r.iter

end ADTR

/-- `isinstance(value, type(self.start))`. -/
def ADT.isInstanceOfTypeOf : ADT → ADT → Bool
  | .date _, .date _ => true
  | .datetime .., .date _ => true
  | .time .., .time .. => true
  | .datetime .., .datetime .. => true
  | _, _ => false

namespace ADTR

/-- `r.index(value, start, stop)`, dtrange.py 230-250. -/
def index (r : ADTR) (value : ADT) (start stop : Option Int) : Py Int :=
  if value.isInstanceOfTypeOf r.start then do
    let (index, rem) ← ADT.toIndex value r.start r.step
    let slc ← r.indexRange.getSlice ⟨start, stop, none⟩
    if rem = 0 ∧ slc.contains index then .ok index else .error .valueError
  else .error .valueError

/-- `value in r`, dtrange.py 252-261: only `ValueError` is caught. -/
def contains (r : ADTR) (value : ADT) : Py Bool :=
  if value.isInstanceOfTypeOf r.start then
    match r.index value none none with
    | .ok _ => .ok true
    | .error .valueError => .ok false
    | .error e => .error e
  else .ok false

/-- `r.count(value)`, dtrange.py 263-269. -/
def count (r : ADTR) (value : ADT) : Py Int := do
  if ← r.contains value then return 1 else return 0

/-- `r == s`, dtrange.py 208-220. -/
def eq (r s : ADTR) : Py Bool := do
  let n ← r.len
  let m ← s.len
  if n ≠ m then return false
  if n = 0 then return true
  if n = 1 then return r.start.eq s.start
  return r.start.eq s.start && decide (r.step = s.step)

end ADTR

/-- What `hash` of a date/time value depends on: aware values are hashed by their reading in UTC. -/
def ADT.hashKey : ADT → ADT
  | .time a (some x) => .time (a - x) (some 0)
  | .datetime a (some x) => .datetime (a - x) (some 0)
  | v => v

namespace ADTR

/-- What `hash(r)` depends on, dtrange.py 222-227. -/
def hashKey (r : ADTR) : Py (Int × Option ADT × Option Int) := do
  let n ← r.len
  return (n, if n > 0 then some r.start.hashKey else none, if n > 1 then some r.step else none)

/-- `r.stop`, dtrange.py 116-121. -/
def stop (r : ADTR) : Py ADT := do
  let n ← r.len
  ADT.ofIndex n r.start r.step

end ADTR

/-- Same concrete type, dtrange.py 328. -/
def ADT.sameType : ADT → ADT → Bool
  | .date _, .date _ => true
  | .time .., .time .. => true
  | .datetime .., .datetime .. => true
  | _, _ => false

/-- `dtrange` after argument parsing, dtrange.py 328-357, with the step as a timedelta. -/
def dtrangeA (start stop : ADT) (step : Int) : Py ADTR := do
  if ¬ start.sameType stop then .error .valueError
  let (q, rem) ←
    match start with
    | .time u tz =>
      if start.eq stop then do
        let stopRef ← datetimeAdd (35795 * DAY + u) DAY
        ADT.toIndex (.datetime stopRef tz) (.datetime (35795 * DAY + u) tz) step
      else ADT.toIndex stop start step
    | _ => ADT.toIndex stop start step
  let length := if rem ≠ 0 then q + 1 else q
  ADTR.mk' start length step

end Fauxdoc
