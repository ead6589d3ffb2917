import Verif.Model.DtRange
/-
Specification vocabulary for date/time ranges, independent of the model's arithmetic helpers.
-/
namespace Fauxdoc

/-- Position of a value on its own axis, in microseconds. -/
def DT.num : DT → Int
  | .date o => o * DAY
  | .time u => u
  | .datetime u => u

/-- `a` comes strictly before `b` when walking in the direction of `step`. -/
def Before (step a b : Int) : Prop := (0 < step ∧ a < b) ∨ (step < 0 ∧ b < a)

instance (step a b : Int) : Decidable (Before step a b) := by unfold Before; infer_instance

/-- The value reached from `start` after moving `us` microseconds; the clock wraps at midnight. -/
def DT.plus : DT → Int → DT
  | .date o, us => .date (o + us / DAY)
  | .time u, us => .time ((u + us) % DAY)
  | .datetime u, us => .datetime (u + us)

/-- `date` and `datetime` values (everything but the clock). -/
def DT.isCalendar : DT → Prop
  | .time _ => False
  | _ => True

/-- The ranges that `DateOrTimeRange(start, length, step)` can build from valid arguments. -/
def DTR.Built (r : DTR) : Prop :=
  r.start.Valid ∧ tdValid r.step ∧ DTR.mk' r.start r.length r.step = .ok r

/-- Moving by `step` is exact: dates need whole days (dtrange.py 75-80). -/
def WholeStep (s : DT) (step : Int) : Prop := ∀ o, s = .date o → DAY ∣ step

/-- A range with such a step. -/
def DTR.Whole (r : DTR) : Prop := WholeStep r.start r.step

/-- A range all of whose elements exist (no calendar overflow inside). -/
def DTR.Proper (r : DTR) : Prop :=
  r.Built ∧ ∀ i : Nat, (i : Int) < r.length → ∃ v, indexToValue i r.start r.step = .ok v

/-- The range covers at most one turn of the clock (only relevant for times). -/
def DTR.OneTurn (r : DTR) : Prop :=
  r.start.isCalendar ∨ (r.length - 1) * (r.step.natAbs : Int) < DAY

end Fauxdoc
