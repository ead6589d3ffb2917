import Verif.Model.DtRange
/-
`/repo/src/fauxdoc/dtrange.py` for datetimes in time zones whose offset from UTC changes (daylight
saving time).  `Model/DtAware.lean` has fixed offsets only (`Props/DtZone.lean` proves that the two
models agree there).

Simplifications: datetimes only (a `time` in such a zone has no `utcoffset()` and is naive to Python).
A `tzinfo` object is a number; two values have the same `tzinfo` object if the numbers are equal.
`utcoffset()` depends on the clock reading and on `fold`, and never is `None` for a value that has a
`tzinfo`.
-/
namespace Fauxdoc

/-- `tzinfo.utcoffset`: from the object, the clock reading and `fold`, to microseconds. -/
abbrev Zones := Nat → Int → Bool → Int

/-- A `datetime`: the reading of the local clock, `fold` and the `tzinfo` object. -/
structure ZDT where
  us : Int
  fold : Bool
  tz : Option Nat
  deriving DecidableEq, Repr

namespace ZDT

/-- `value.utcoffset()`. -/
def off (Z : Zones) (v : ZDT) : Option Int := v.tz.map fun z => Z z v.us v.fold

/-- `a - b`: two values with the same `tzinfo` object are subtracted as they read, others in UTC. -/
def sub (Z : Zones) (a b : ZDT) : Py Int :=
  if a.tz = b.tz then .ok (a.us - b.us)
  else
    match a.off Z, b.off Z with
    | some x, some y => .ok (a.us - x - (b.us - y))
    | _, _ => .error .typeError

/-- Whether `utcoffset()` depends on `fold` (in the repeated hour and in the missing one). -/
def ambiguous (Z : Zones) (v : ZDT) : Bool :=
  v.off Z != { v with fold := !v.fold }.off Z

/-- `a == b`: `fold` does not count if the `tzinfo` object is the same; if not, a value in the repeated
or missing hour equals none (PEP 495). -/
def eq (Z : Zones) (a b : ZDT) : Bool :=
  if a.tz = b.tz then decide (a.us = b.us)
  else
    match a.off Z, b.off Z with
    | some x, some y =>
      decide (a.us - x = b.us - y) && !a.ambiguous Z && !b.ambiguous Z
    | _, _ => false

/-- What `hash(v)` depends on: the reading in UTC with `fold` 0, and whether there is a `tzinfo`. -/
def hashKey (Z : Zones) (v : ZDT) : Int × Bool :=
  match { v with fold := false }.off Z with
  | some x => (v.us - x, true)
  | none => (v.us, false)

/-- `_index_to_value`, dtrange.py 10-20: `datetime + timedelta` keeps the `tzinfo`, moves the local
clock, and gives `fold` 0. -/
def ofIndex (index : Int) (start : ZDT) (step : Int) : Py ZDT := do
  let delta ← mkTd (step * index)
  return ⟨← datetimeAdd start.us delta, false, start.tz⟩

/-- `_value_to_index`, dtrange.py 23-51. -/
def toIndex (Z : Zones) (value start : ZDT) (step : Int) : Py (Int × Int) := do
  let d ← value.sub Z start
  tdDivmod d step

end ZDT

/-- A `DateOrTimeRange` of such datetimes; `__init__` (dtrange.py 85-97) accepts every step. -/
structure ZDTR where
  start : ZDT
  length : Int
  step : Int
  deriving DecidableEq, Repr

namespace ZDTR

/-- `_index_range`, dtrange.py 97. -/
def indexRange (r : ZDTR) : PyRange := ⟨0, r.length, 1⟩

/-- `len(r)`, dtrange.py 191-193. -/
def len (r : ZDTR) : Py Int := if r.length < 0 then .error .valueError else .ok r.length

/-- `r[i]`, dtrange.py 184-189. -/
def getItem (r : ZDTR) (i : Int) : Py ZDT := do
  let j ← r.indexRange.getItem i
  ZDT.ofIndex j r.start r.step

/-- `r[a:b:c]`, dtrange.py 180-183. -/
def getSlice (r : ZDTR) (s : PySlice) : Py ZDTR := do
  let slc ← r.indexRange.getSlice s
  let start ← ZDT.ofIndex slc.start r.start r.step
  let step ← mkTd (r.step * slc.step)
  return ⟨start, slc.len, step⟩

/-- Iteration (`Sequence.__iter__`). -/
def iterFrom (r : ZDTR) : Nat → Nat → Py (List ZDT)
  | 0, _ => .ok []
  | fuel + 1, i =>
    match r.getItem i with
    | .ok v => do return v :: (← r.iterFrom fuel (i + 1))
    | .error .indexError => .ok []
    | .error e => .error e

/-- `list(r)`. -/
def toList (r : ZDTR) : Py (List ZDT) := do
  let _ ← r.len
  r.iterFrom (r.length.toNat + 1) 0

/-- `r.index(value, start, stop)`, dtrange.py 230-250. -/
def index (Z : Zones) (r : ZDTR) (value : ZDT) (start stop : Option Int) : Py Int := do
  let (index, rem) ← value.toIndex Z r.start r.step
  let slc ← r.indexRange.getSlice ⟨start, stop, none⟩
  if rem = 0 ∧ slc.contains index then .ok index else .error .valueError

/-- `value in r`, dtrange.py 252-261. -/
def contains (Z : Zones) (r : ZDTR) (value : ZDT) : Py Bool :=
  match r.index Z value none none with
  | .ok _ => .ok true
  | .error .valueError => .ok false
  | .error e => .error e

/-- `r == s`, dtrange.py 208-220. -/
def eq (Z : Zones) (r s : ZDTR) : Py Bool := do
  let n ← r.len
  let m ← s.len
  if n ≠ m then return false
  if n = 0 then return true
  if n = 1 then return r.start.eq Z s.start
  return r.start.eq Z s.start && decide (r.step = s.step)

/-- What `hash(r)` depends on, dtrange.py 222-227. -/
def hashKey (Z : Zones) (r : ZDTR) : Py (Int × Option (Int × Bool) × Option Int) := do
  let n ← r.len
  return (n, if n > 0 then some (r.start.hashKey Z) else none, if n > 1 then some r.step else none)

/-- `r.stop`, dtrange.py 116-121. -/
def stop (r : ZDTR) : Py ZDT := do
  let n ← r.len
  ZDT.ofIndex n r.start r.step

end ZDTR

/-- `dtrange` for two datetimes, dtrange.py 328-357, with the step as a timedelta. -/
def dtrangeZ (Z : Zones) (start stop : ZDT) (step : Int) : Py ZDTR := do
  let (q, rem) ← stop.toIndex Z start step
  let length := if rem ≠ 0 then q + 1 else q
  return ⟨start, length, step⟩

end Fauxdoc
