import Verif.Model.DtText
/-
Model of `fromisoformat` of `date`, `time` and `datetime`, which `_parse_user_date`
(`/repo/src/fauxdoc/dtrange.py` 268-288) calls: the formats that the library reference of Python 3.7
to 3.10 documents.

Simplifications: texts with a UTC offset, which give values with a time zone, are not read (naive
values only, as in `Model/DtRange`). Python 3.11 and later read further forms (`20160101`,
`2016-W01`, `2010` as a time).
-/
namespace Fauxdoc

/-- A number of a fixed number of digits. -/
def isoDigits (cs : List Char) : Option Nat :=
  if cs.all Char.isDigit then some (Nat.ofDigitChars 10 cs 0) else none

/-- `_days_in_month`, datetime.py. -/
def daysInMonth (y m : Nat) : Nat := if m = 2 ∧ isLeap y then 29 else daysIn m

/-- `_ymd2ord`, datetime.py. -/
def ymd2ord (d : YMD) : Nat :=
  let y := d.year - 1
  y * 365 + y / 4 - y / 100 + y / 400 + (daysBefore d.month + if 2 < d.month ∧ isLeap d.year then 1 else 0) + d.day

/-- `_check_date_fields` and the construction of the date. -/
def mkDate (y m d : Nat) : Option Nat :=
  if 1 ≤ y ∧ y ≤ 9999 ∧ 1 ≤ m ∧ m ≤ 12 ∧ 1 ≤ d ∧ d ≤ daysInMonth y m then some (ymd2ord ⟨y, m, d⟩) else none

/-- `date.fromisoformat`: `YYYY-MM-DD`. -/
def isoDate : List Char → Option Nat
  | [y1, y2, y3, y4, '-', m1, m2, '-', d1, d2] => do
    let y ← isoDigits [y1, y2, y3, y4]
    let m ← isoDigits [m1, m2]
    let d ← isoDigits [d1, d2]
    mkDate y m d
  | _ => none

/-- `_check_time_fields` and the construction of the time, in microseconds since midnight. -/
def mkTime (h m s f : Nat) : Option Nat :=
  if h < 24 ∧ m < 60 ∧ s < 60 then some (((h * 60 + m) * 60 + s) * 1000000 + f) else none

/-- The digits after the point: three or six. -/
def isoFraction (cs : List Char) : Option Nat :=
  if cs.length = 3 then (isoDigits cs).map (· * 1000)
  else if cs.length = 6 then isoDigits cs else none

/-- `time.fromisoformat`: `HH[:MM[:SS[.fff[fff]]]]`. -/
def isoTime : List Char → Option Nat
  | [h1, h2] => do
    mkTime (← isoDigits [h1, h2]) 0 0 0
  | [h1, h2, ':', m1, m2] => do
    let h ← isoDigits [h1, h2]
    let m ← isoDigits [m1, m2]
    mkTime h m 0 0
  | [h1, h2, ':', m1, m2, ':', s1, s2] => do
    let h ← isoDigits [h1, h2]
    let m ← isoDigits [m1, m2]
    let s ← isoDigits [s1, s2]
    mkTime h m s 0
  | h1 :: h2 :: ':' :: m1 :: m2 :: ':' :: s1 :: s2 :: '.' :: rest => do
    let h ← isoDigits [h1, h2]
    let m ← isoDigits [m1, m2]
    let s ← isoDigits [s1, s2]
    let f ← isoFraction rest
    mkTime h m s f
  | _ => none

/-- `datetime.fromisoformat`: `YYYY-MM-DD[*HH[:MM[:SS[.fff[fff]]]]]`, where `*` is any character. -/
def isoDatetime (s : List Char) : Option Nat := do
  let o ← isoDate (s.take 10)
  match s.drop 10 with
  | [] => some (o * DAY.toNat)
  | _ :: t =>
    let u ← isoTime t
    some (o * DAY.toNat + u)

/-- The three methods. -/
def isoReaders : IsoParsers where
  date s := (isoDate s.toList).map Int.ofNat
  time s := (isoTime s.toList).map Int.ofNat
  datetime s := (isoDatetime s.toList).map Int.ofNat

end Fauxdoc
