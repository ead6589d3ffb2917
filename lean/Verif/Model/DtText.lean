import Verif.Model.DtRangeObj
/-
Model of `str` on dates, times, datetimes and timedeltas (CPython `Lib/datetime.py`, version 3.11)
and of `DateOrTimeRange.__repr__`, `/repo/src/fauxdoc/dtrange.py` 195-206.

Texts are lists of characters. Naive values only, as in `Model/DtRange`.
-/
namespace Fauxdoc

/-- `"%d" % n` for `n >= 0`. -/
def dec (n : Nat) : List Char := Nat.toDigits 10 n

/-- `"%0wd" % n` for `n >= 0`. -/
def zpad (w n : Nat) : List Char := List.replicate (w - (dec n).length) '0' ++ dec n

/-- `"%d" % n`. -/
def decInt (n : Int) : List Char := if n < 0 then '-' :: dec n.natAbs else dec n.natAbs

/-- A year, a month and a day. -/
structure YMD where
  year : Nat
  month : Nat
  day : Nat
  deriving DecidableEq, Repr

/-- `_is_leap`, datetime.py. -/
def isLeap (y : Nat) : Bool := y % 4 = 0 ∧ (y % 100 ≠ 0 ∨ y % 400 = 0)

/-- `_DAYS_BEFORE_MONTH[m]`, datetime.py. -/
def daysBefore : Nat → Nat
  | 2 => 31
  | 3 => 59
  | 4 => 90
  | 5 => 120
  | 6 => 151
  | 7 => 181
  | 8 => 212
  | 9 => 243
  | 10 => 273
  | 11 => 304
  | 12 => 334
  | _ => 0

/-- `_DAYS_IN_MONTH[m]`, datetime.py. -/
def daysIn : Nat → Nat
  | 2 => 28
  | 4 => 30
  | 6 => 30
  | 9 => 30
  | 11 => 30
  | _ => 31

/-- The end of `_ord2ymd`, datetime.py: month and day of the day `n` (from 0) of a year. -/
def monthDay (leap : Bool) (n : Nat) : Nat × Nat :=
  let month := (n + 50) / 32
  let preceding := daysBefore month + if 2 < month ∧ leap then 1 else 0
  if n < preceding then
    let preceding' := preceding - (daysIn (month - 1) + if month - 1 = 2 ∧ leap then 1 else 0)
    (month - 1, n - preceding' + 1)
  else (month, n - preceding + 1)

/-- `_ord2ymd`, datetime.py: 400, 100, 4 and 1 years have 146097, 36524, 1461 and 365 days. -/
def ord2ymd (ordinal : Nat) : YMD :=
  let n := ordinal - 1
  let n400 := n / 146097
  let n := n % 146097
  let n100 := n / 36524
  let n := n % 36524
  let n4 := n / 1461
  let n := n % 1461
  let n1 := n / 365
  let n := n % 365
  let year := n400 * 400 + 1 + n100 * 100 + n4 * 4 + n1
  if n1 = 4 ∨ n100 = 4 then ⟨year - 1, 12, 31⟩
  else
    let leap := decide (n1 = 3 ∧ (n4 ≠ 24 ∨ n100 = 3))
    let md := monthDay leap n
    ⟨year, md.1, md.2⟩

/-- `str(date)`: `date.isoformat`. -/
def strDate (ordinal : Nat) : List Char :=
  let d := ord2ymd ordinal
  zpad 4 d.year ++ '-' :: (zpad 2 d.month ++ '-' :: zpad 2 d.day)

/-- `".%06d" % us`, left out for zero. -/
def fraction (us : Nat) : List Char := if us = 0 then [] else '.' :: zpad 6 us

/-- `str(time)`: `time.isoformat`, for microseconds since midnight. -/
def strTime (u : Nat) : List Char :=
  zpad 2 (u / 3600000000) ++ ':' :: (zpad 2 (u / 60000000 % 60) ++ ':' ::
    (zpad 2 (u / 1000000 % 60) ++ fraction (u % 1000000)))

/-- `str(value)`; `datetime.__str__` is `isoformat(sep=' ')`. -/
def DT.str : DT → List Char
  | .date o => strDate o.toNat
  | .time u => strTime u.toNat
  | .datetime u => strDate (u / DAY).toNat ++ ' ' :: strTime (u % DAY).toNat

/-- `"day"` or `"days"`. -/
def dayWord (n : Int) : List Char := if n.natAbs = 1 then "day".toList else "days".toList

/-- `timedelta.__str__`: hours have no leading zero; `days` is negative for negative values. -/
def strTd (d : Int) : List Char :=
  let days := Int.fdiv d DAY
  let u := (Int.fmod d DAY).toNat
  (if days = 0 then [] else decInt days ++ ' ' :: (dayWord days ++ ", ".toList)) ++
    (dec (u / 3600000000) ++ ':' :: (zpad 2 (u / 60000000 % 60) ++ ':' ::
      (zpad 2 (u / 1000000 % 60) ++ fraction (u % 1000000))))

/-- The text of the stop value, dtrange.py 198-203. `self.step * len(self)` was computed for
`self.stop` already, so it does not overflow here. -/
def DTR.stopText (r : DTR) (stop : DT) : List Char :=
  match r.start with
  | .time _ =>
    let days := Int.fdiv (r.step * r.length) DAY
    if 0 < days then
      decInt days ++ ' ' :: ((if days = 1 then "day".toList else "days".toList) ++ " + ".toList ++ stop.str)
    else stop.str
  | _ => stop.str

/-- The text, dtrange.py 204-205. (`type(self).__name__` of a subclass is not modelled.) -/
def DTR.format (r : DTR) (stop : DT) : List Char :=
  "DateOrTimeRange(\"".toList ++ (r.start.str ++ "\", \"".toList ++ (r.stopText stop ++
    "\", step=\"".toList ++ (strTd r.step ++ "\")".toList)))

/-- `repr(r)` and `str(r)`, dtrange.py 195-206, on a range whose text was not asked for before (for
the cache see `DTObj.getRepr`). -/
def DTR.repr (r : DTR) : Py (List Char) := do
  let stop ← r.stop
  return r.format stop

end Fauxdoc
