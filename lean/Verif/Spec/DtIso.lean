import Verif.Model.DtText
import Verif.Spec.DtText
/-
How dates and times are written in ISO 8601.
-/
namespace Fauxdoc

/-- The day `n` days after 0001-01-01, written `YYYY-MM-DD`. -/
def dayText (n : Nat) : List Char :=
  zpad 4 (YMD.after n).year ++ '-' :: (zpad 2 (YMD.after n).month ++ '-' :: zpad 2 (YMD.after n).day)

/-- A time of day in microseconds, and a way to write it. -/
inductive ClockText : Nat → List Char → Prop
  | hour {h : Nat} : h < 24 → ClockText (h * 3600000000) (zpad 2 h)
  | minute {h m : Nat} : h < 24 → m < 60 →
      ClockText (h * 3600000000 + m * 60000000) (zpad 2 h ++ ':' :: zpad 2 m)
  | second {h m s : Nat} : h < 24 → m < 60 → s < 60 →
      ClockText (h * 3600000000 + m * 60000000 + s * 1000000)
        (zpad 2 h ++ ':' :: (zpad 2 m ++ ':' :: zpad 2 s))
  | milli {h m s f : Nat} : h < 24 → m < 60 → s < 60 → f < 1000 →
      ClockText (h * 3600000000 + m * 60000000 + s * 1000000 + f * 1000)
        (zpad 2 h ++ ':' :: (zpad 2 m ++ ':' :: (zpad 2 s ++ '.' :: zpad 3 f)))
  | micro {h m s f : Nat} : h < 24 → m < 60 → s < 60 → f < 1000000 →
      ClockText (h * 3600000000 + m * 60000000 + s * 1000000 + f)
        (zpad 2 h ++ ':' :: (zpad 2 m ++ ':' :: (zpad 2 s ++ '.' :: zpad 6 f)))

/-- A value and a way to write it. Between the date and the time of a datetime any character may
stand. -/
inductive Written : DT → List Char → Prop
  | date {n : Nat} : (n : Int) + 1 ≤ MAXORD → Written (.date (n + 1)) (dayText n)
  | time {u : Nat} {t : List Char} : ClockText u t → Written (.time u) t
  | datetime {n u : Nat} {t : List Char} (c : Char) : (n : Int) + 1 ≤ MAXORD → ClockText u t →
      Written (.datetime ((n + 1) * DAY + u)) (dayText n ++ c :: t)

end Fauxdoc
