import Verif.Conform.Basic
import Verif.Model.DtText
/-
`test_dateortimerange_string_representation`, `/repo/tests/test_dtrange.py` 162-175, run on the model.
-/
namespace Fauxdoc
namespace Conform

/-- `str(DateOrTimeRange(start, length, step)) == text`. -/
def printed (start : DT) (length step : Int) (text : String) : Bool :=
  is ((DTR.mk start length step).repr) text.toList

example : printed (.date 735964) 6 DAY
    "DateOrTimeRange(\"2016-01-01\", \"2016-01-07\", step=\"1 day, 0:00:00\")" = true := by
  decide +kernel
example : printed (.time 0) 86399 1000000
    "DateOrTimeRange(\"00:00:00\", \"23:59:59\", step=\"0:00:01\")" = true := by decide +kernel
example : printed (.time 0) 86400 1000000
    "DateOrTimeRange(\"00:00:00\", \"1 day + 00:00:00\", step=\"0:00:01\")" = true := by
  decide +kernel
example : printed (.time 0) (86400 * 2) 1000000
    "DateOrTimeRange(\"00:00:00\", \"2 days + 00:00:00\", step=\"0:00:01\")" = true := by
  decide +kernel
example : printed (.time 0) 1441 60000000
    "DateOrTimeRange(\"00:00:00\", \"1 day + 00:01:00\", step=\"0:01:00\")" = true := by
  decide +kernel

end Conform
end Fauxdoc
