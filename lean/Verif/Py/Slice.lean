import Verif.Py.Core
/-
Python slices, `range(0, n)` objects and list slicing (CPython `Objects/sliceobject.c`,
`Objects/rangeobject.c`), in exact integers.
-/
namespace Fauxdoc

/-- A Python `slice(a, b, c)` whose components are `None` or an int. -/
structure PySlice where
  start : Option Int
  stop : Option Int
  step : Option Int
  deriving DecidableEq, Repr

/-- One bound of a slice, normalised against a sequence length (`_PySlice_GetLongIndices`):
negative bounds count from the end, then the bound is clipped into `[lower, upper]`. -/
def sliceBound (len lower upper dflt : Int) : Option Int → Int
  | none => dflt
  | some i =>
    if i < 0 then (if i + len < lower then lower else i + len)
    else (if i > upper then upper else i)

/-- `slice(a, b, c).indices(len)`: `ValueError` if the step is zero. -/
def PySlice.indices (s : PySlice) (len : Int) : Py (Int × Int × Int) :=
  let step := s.step.getD 1
  if step = 0 then .error .valueError
  else if step < 0 then
    .ok (sliceBound len (-1) (len - 1) (len - 1) s.start,
         sliceBound len (-1) (len - 1) (-1) s.stop, step)
  else
    .ok (sliceBound len 0 len 0 s.start, sliceBound len 0 len len s.stop, step)

/-- Length of `range(start, stop, step)` for `step != 0` (`compute_range_length`). -/
def rangeLen (start stop step : Int) : Nat :=
  if 0 < step then (if start < stop then ((stop - start - 1) / step + 1).toNat else 0)
  else (if stop < start then ((start - stop - 1) / (-step) + 1).toNat else 0)

/-- A Python `range` object (step never zero). -/
structure PyRange where
  start : Int
  stop : Int
  step : Int
  deriving DecidableEq, Repr

/-- `len(range(...))`. -/
def PyRange.len (r : PyRange) : Nat := rangeLen r.start r.stop r.step

/-- `range(...)[i]` for an int `i`. -/
def PyRange.getItem (r : PyRange) (i : Int) : Py Int :=
  let n : Int := r.len
  let j := if i < 0 then i + n else i
  if j < 0 ∨ n ≤ j then .error .indexError else .ok (r.start + j * r.step)

/-- `range(...)[a:b:c]` (`compute_slice`). -/
def PyRange.getSlice (r : PyRange) (s : PySlice) : Py PyRange := do
  let (a, b, c) ← s.indices r.len
  .ok ⟨r.start + a * r.step, r.start + b * r.step, r.step * c⟩

/-- `i in range(...)` (`range_contains_long`). -/
def PyRange.contains (r : PyRange) (i : Int) : Bool :=
  if 0 < r.step then decide (r.start ≤ i ∧ i < r.stop) && decide ((i - r.start) % r.step = 0)
  else decide (i ≤ r.start ∧ r.stop < i) && decide ((i - r.start) % r.step = 0)

/-- `l[a:b:c]` for a Python list: the elements at `start, start+step, ...`. -/
def pyListSlice {α : Type _} (l : List α) (s : PySlice) : Py (List α) := do
  let (a, b, c) ← s.indices l.length
  .ok ((List.range (rangeLen a b c)).filterMap fun (k : Nat) => l[(a + k * c).toNat]?)

/-- `l[start:end]` for a Python list (step 1), total. -/
def pyListSlice1 {α : Type _} (l : List α) (start stop : Int) : List α :=
  let n : Int := l.length
  let a := sliceBound n 0 n 0 (some start)
  let b := sliceBound n 0 n n (some stop)
  (l.drop a.toNat).take (b - a).toNat

/-- `l[i]` for a Python list. -/
def pyListGet {α : Type _} (l : List α) (i : Int) : Py α :=
  let n : Int := l.length
  let j := if i < 0 then i + n else i
  if j < 0 then .error .indexError else
    match l[j.toNat]? with
    | some a => .ok a
    | none => .error .indexError

/-- Python `//` on ints: floor division (`b != 0`). -/
def pyFloorDiv (a b : Int) : Int := Int.fdiv a b

/-- Python `%` on ints: result has the sign of `b` (`b != 0`). -/
def pyMod (a b : Int) : Int := Int.fmod a b

end Fauxdoc
