import Verif.Model.DtText
/-
The Gregorian calendar, day after day, and the parts of the text of a range.
-/
namespace Fauxdoc

/-- Whether the Gregorian calendar has a 29 February in the year `y`. -/
def LeapYear (y : Nat) : Prop := 400 ∣ y ∨ 4 ∣ y ∧ ¬ 100 ∣ y

instance (y : Nat) : Decidable (LeapYear y) := by unfold LeapYear; infer_instance

/-- The length of the month `m` of the year `y`. -/
def monthLength (y m : Nat) : Nat :=
  if m = 2 then (if LeapYear y then 29 else 28)
  else if m = 4 ∨ m = 6 ∨ m = 9 ∨ m = 11 then 30 else 31

/-- The day after a day. -/
def YMD.next (d : YMD) : YMD :=
  if d.day < monthLength d.year d.month then ⟨d.year, d.month, d.day + 1⟩
  else if d.month < 12 then ⟨d.year, d.month + 1, 1⟩
  else ⟨d.year + 1, 1, 1⟩

/-- The day that is `n` days after 1 January of the year 1. -/
def YMD.after : Nat → YMD
  | 0 => ⟨1, 1, 1⟩
  | n + 1 => (YMD.after n).next

/-- A day that the calendar has. -/
def YMD.Proper (d : YMD) : Prop :=
  1 ≤ d.year ∧ 1 ≤ d.month ∧ d.month ≤ 12 ∧ 1 ≤ d.day ∧ d.day ≤ monthLength d.year d.month

end Fauxdoc
