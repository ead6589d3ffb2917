import Verif.Conform.Basic
import Verif.Model.DtStep
import Verif.Proofs.Double
/-
The model of `timedelta(**{unit: step})` for float steps against CPython 3.11.10.  Written by
`tools/conform_datetime.py`.  The last sample is rounded to the farther of two microseconds.
-/
namespace Fauxdoc
namespace Conform

/-- Unit, step and the microseconds of the timedelta. -/
def floatSteps : List (String × ℚ × Int) := [
  ("weeks", (1 : ℚ) / 2, 302400000000),
  ("weeks", (3602879701896397 : ℚ) / 36028797018963968, 60480000000),
  ("weeks", (-3602879701896397 : ℚ) / 36028797018963968, -60480000000),
  ("weeks", (6004799503160661 : ℚ) / 18014398509481984, 201600000000),
  ("weeks", (-5 : ℚ) / 2, -1512000000000),
  ("weeks", (3 : ℚ) / 2, 907200000000),
  ("weeks", (2 : ℚ) / 1, 1209600000000),
  ("weeks", (4835703278458517 : ℚ) / 4835703278458516698824704, 605),
  ("weeks", (2833419889721787 : ℚ) / 9444732965739290427392, 181440),
  ("weeks", (6787108751669409 : ℚ) / 549755813888, 7466666598720000),
  ("weeks", (1453599330796315 : ℚ) / 4503599627370496, 195207600143),
  ("weeks", (-4272926485181775 : ℚ) / 1125899906842624, -2295289237109),
  ("weeks", (5 : ℚ) / 2, 1512000000000),
  ("weeks", (3976615420573365 : ℚ) / 9007199254740992, 267014966400),
  ("days", (1 : ℚ) / 2, 43200000000),
  ("days", (3602879701896397 : ℚ) / 36028797018963968, 8640000000),
  ("days", (-3602879701896397 : ℚ) / 36028797018963968, -8640000000),
  ("days", (6004799503160661 : ℚ) / 18014398509481984, 28800000000),
  ("days", (-5 : ℚ) / 2, -216000000000),
  ("days", (3 : ℚ) / 2, 129600000000),
  ("days", (2 : ℚ) / 1, 172800000000),
  ("days", (4835703278458517 : ℚ) / 4835703278458516698824704, 86),
  ("days", (2833419889721787 : ℚ) / 9444732965739290427392, 25920),
  ("days", (6787108751669409 : ℚ) / 549755813888, 1066666656960000),
  ("days", (2717000939938327 : ℚ) / 4503599627370496, 52124722585),
  ("days", (-8309976765114041 : ℚ) / 140737488355328, -5101568891816),
  ("days", (-7 : ℚ) / 2, -302400000000),
  ("days", (5646433068812033 : ℚ) / 576460752303423488, 846288000),
  ("hours", (1 : ℚ) / 2, 1800000000),
  ("hours", (3602879701896397 : ℚ) / 36028797018963968, 360000000),
  ("hours", (-3602879701896397 : ℚ) / 36028797018963968, -360000000),
  ("hours", (6004799503160661 : ℚ) / 18014398509481984, 1200000000),
  ("hours", (-5 : ℚ) / 2, -9000000000),
  ("hours", (3 : ℚ) / 2, 5400000000),
  ("hours", (2 : ℚ) / 1, 7200000000),
  ("hours", (4835703278458517 : ℚ) / 4835703278458516698824704, 4),
  ("hours", (2833419889721787 : ℚ) / 9444732965739290427392, 1080),
  ("hours", (6787108751669409 : ℚ) / 549755813888, 44444444040000),
  ("hours", (4016414315942941 : ℚ) / 9007199254740992, 1605281634),
  ("hours", (-2582289483178031 : ℚ) / 35184372088832, -264215092882),
  ("hours", (-15 : ℚ) / 2, -27000000000),
  ("hours", (2681145980560987 : ℚ) / 4503599627370496, 2143202400),
  ("minutes", (1 : ℚ) / 2, 30000000),
  ("minutes", (3602879701896397 : ℚ) / 36028797018963968, 6000000),
  ("minutes", (-3602879701896397 : ℚ) / 36028797018963968, -6000000),
  ("minutes", (6004799503160661 : ℚ) / 18014398509481984, 20000000),
  ("minutes", (-5 : ℚ) / 2, -150000000),
  ("minutes", (3 : ℚ) / 2, 90000000),
  ("minutes", (2 : ℚ) / 1, 120000000),
  ("minutes", (4835703278458517 : ℚ) / 4835703278458516698824704, 0),
  ("minutes", (2833419889721787 : ℚ) / 9444732965739290427392, 18),
  ("minutes", (6787108751669409 : ℚ) / 549755813888, 740740734000),
  ("minutes", (489852549067077 : ℚ) / 4503599627370496, 6526147),
  ("minutes", (-5315675747768835 : ℚ) / 70368744177664, -4532417746),
  ("minutes", (-15 : ℚ) / 2, -450000000),
  ("minutes", (5100164448410501 : ℚ) / 72057594037927936, 4246740),
  ("seconds", (1 : ℚ) / 2, 500000),
  ("seconds", (3602879701896397 : ℚ) / 36028797018963968, 100000),
  ("seconds", (-3602879701896397 : ℚ) / 36028797018963968, -100000),
  ("seconds", (6004799503160661 : ℚ) / 18014398509481984, 333333),
  ("seconds", (-5 : ℚ) / 2, -2500000),
  ("seconds", (3 : ℚ) / 2, 1500000),
  ("seconds", (2 : ℚ) / 1, 2000000),
  ("seconds", (4835703278458517 : ℚ) / 4835703278458516698824704, 0),
  ("seconds", (2833419889721787 : ℚ) / 9444732965739290427392, 0),
  ("seconds", (6787108751669409 : ℚ) / 549755813888, 12345678900),
  ("seconds", (2076723509516625 : ℚ) / 2251799813685248, 922251),
  ("seconds", (-8301166959333897 : ℚ) / 281474976710656, -29491669),
  ("seconds", (1 : ℚ) / 2, 500000),
  ("seconds", (5374487708912893 : ℚ) / 18014398509481984, 298344),
  ("milliseconds", (1 : ℚ) / 2, 500),
  ("milliseconds", (3602879701896397 : ℚ) / 36028797018963968, 100),
  ("milliseconds", (-3602879701896397 : ℚ) / 36028797018963968, -100),
  ("milliseconds", (6004799503160661 : ℚ) / 18014398509481984, 333),
  ("milliseconds", (-5 : ℚ) / 2, -2500),
  ("milliseconds", (3 : ℚ) / 2, 1500),
  ("milliseconds", (2 : ℚ) / 1, 2000),
  ("milliseconds", (4835703278458517 : ℚ) / 4835703278458516698824704, 0),
  ("milliseconds", (2833419889721787 : ℚ) / 9444732965739290427392, 0),
  ("milliseconds", (6787108751669409 : ℚ) / 549755813888, 12345679),
  ("milliseconds", (972661222543801 : ℚ) / 2251799813685248, 432),
  ("milliseconds", (-3264287241323503 : ℚ) / 140737488355328, -23194),
  ("milliseconds", (9 : ℚ) / 2, 4500),
  ("milliseconds", (8624087041639839 : ℚ) / 18014398509481984, 479),
  ("milliseconds", (1152921504606847 : ℚ) / 2305843009213693952, 0),
  ("milliseconds", (3458764513820541 : ℚ) / 2305843009213693952, 2),
  ("milliseconds", (4509229126904709 : ℚ) / 2251799813685248, 2002),
  ("milliseconds", (4505851427184181 : ℚ) / 4503599627370496, 1000),
  ("microseconds", (1 : ℚ) / 2, 0),
  ("microseconds", (3602879701896397 : ℚ) / 36028797018963968, 0),
  ("microseconds", (-3602879701896397 : ℚ) / 36028797018963968, 0),
  ("microseconds", (6004799503160661 : ℚ) / 18014398509481984, 0),
  ("microseconds", (-5 : ℚ) / 2, -2),
  ("microseconds", (3 : ℚ) / 2, 2),
  ("microseconds", (2 : ℚ) / 1, 2),
  ("microseconds", (4835703278458517 : ℚ) / 4835703278458516698824704, 0),
  ("microseconds", (2833419889721787 : ℚ) / 9444732965739290427392, 0),
  ("microseconds", (6787108751669409 : ℚ) / 549755813888, 12346),
  ("microseconds", (667809066083007 : ℚ) / 2251799813685248, 0),
  ("microseconds", (-4888533209300939 : ℚ) / 70368744177664, -69),
  ("microseconds", (15 : ℚ) / 2, 8),
  ("microseconds", (6550296506826037 : ℚ) / 9007199254740992, 1),
  ("microseconds", (5 : ℚ) / 2, 2),
  ("microseconds", (7 : ℚ) / 2, 4),
  ("microseconds", (-7 : ℚ) / 2, -4),
  ("microseconds", (1 : ℚ) / 2, 0),
  ("microseconds", (-1 : ℚ) / 2, 0),
  ("microseconds", (2469135 : ℚ) / 2, 1234568),
  ("weeks", (4338204186364117 : ℚ) / 4503599627370496, 582588619994)]

example : floatSteps.all (fun s => stepTdF (rounding ℚ) s.1 (.fin s.2.1) == .ok s.2.2) = true := by
  decide +kernel

end Conform
end Fauxdoc
