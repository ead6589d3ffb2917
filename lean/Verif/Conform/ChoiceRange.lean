import Verif.Conform.DtRange
import Verif.Model.Choice
/-
The tests of `/repo/tests/test_emitters_choice.py` that choose dates and times, run on the model.
Made by `tools/conform_dtrange.py` from the text of the tests. Left out, because the ranges are
long: `test_choice_times` 0, `test_choice_datetimes` 2.
-/
namespace Fauxdoc
namespace Conform

instance : PyHash DT := ⟨fun _ => true⟩

/-- `Choice(dtrange(start, stop, step, unit), weights=weights, rng_seed=seed)`, then
`assert em(n) == l`. -/
def picks (start stop : DT) (step : Int) (unit : Option String) (weights : Option (List ℚ))
    (seed : Int) (l : List DT) : Bool :=
  match dtrange testIso (.dt start) (.dt stop) step unit >>= DTR.toList with
  | .ok items => choice items weights none true false (some seed) [.gives l]
  | .error _ => false

/-! `test_choice_dates`, line 537 -/
example : picks (.date 735599) (.date 735600) 1 none none 999 [(.date 735599), (.date 735599),
    (.date 735599), (.date 735599), (.date 735599), (.date 735599), (.date 735599), (.date
    735599), (.date 735599), (.date 735599)] = true := by decide +kernel
example : picks (.date 735599) (.date 735604) 1 none none 999 [(.date 735602), (.date 735599),
    (.date 735603), (.date 735601), (.date 735601), (.date 735599), (.date 735602), (.date
    735600), (.date 735602), (.date 735603)] = true := by decide +kernel
example : picks (.date 735599) (.date 735604) 1 none (some (List.replicate 1 60 ++
    List.replicate 1 20 ++ List.replicate 1 10 ++ List.replicate 2 5)) 999 [(.date 735600),
    (.date 735599), (.date 735601), (.date 735599), (.date 735599), (.date 735599), (.date
    735600), (.date 735599), (.date 735600), (.date 735601)] = true := by decide +kernel
/-! `test_choice_times`, line 568 -/
example : picks (.time 0) (.time 0) 60 (some "seconds") none 999 [(.time 67500000000), (.time
    6900000000), (.time 75360000000), (.time 49560000000), (.time 42360000000), (.time
    11400000000), (.time 69000000000), (.time 27480000000), (.time 68640000000), (.time
    73020000000)] = true := by decide +kernel
example : picks (.time 18000000000) (.time 19800000000) 1 (some "seconds") none 999 [(.time
    19406000000), (.time 18144000000), (.time 19570000000), (.time 19032000000), (.time
    18883000000), (.time 18237000000), (.time 19437000000), (.time 18572000000), (.time
    19430000000), (.time 19521000000)] = true := by decide +kernel
example : picks (.time 18000000000) (.time 43200000000) 1 (some "minutes") (some (List.replicate
    120 1 ++ List.replicate 60 5 ++ List.replicate 60 10 ++ List.replicate 60 5 ++
    List.replicate 60 3 ++ List.replicate 60 2)) 999 [(.time 35340000000), (.time 25260000000),
    (.time 37860000000), (.time 31800000000), (.time 31020000000), (.time 26280000000), (.time
    35640000000), (.time 29340000000), (.time 35580000000), (.time 36960000000)] = true := by
    decide +kernel
example : picks (.time 21600000000) (.time 32400000000) 10 (some "minutes") (some
    (List.replicate 6 10 ++ List.replicate 6 5 ++ List.replicate 6 2)) 999 [(.time 27000000000),
    (.time 21600000000), (.time 28200000000), (.time 24600000000), (.time 24600000000), (.time
    22200000000), (.time 27600000000), (.time 23400000000), (.time 27600000000), (.time
    28200000000)] = true := by decide +kernel
example : picks (.time 72001000000) (.time 72060000000) 20 (some "seconds") (some
    (List.replicate 1 50 ++ List.replicate 1 30 ++ List.replicate 1 20)) 999 [(.time
    72021000000), (.time 72001000000), (.time 72041000000), (.time 72021000000), (.time
    72001000000), (.time 72001000000), (.time 72021000000), (.time 72001000000), (.time
    72021000000), (.time 72041000000)] = true := by decide +kernel
/-! `test_choice_datetimes`, line 596 -/
example : picks (.datetime 63587361600000000) (.datetime 63587401200000000) 1 (some "minutes")
    none 999 [(.datetime 63587392500000000), (.datetime 63587364720000000), (.datetime
    63587396100000000), (.datetime 63587384280000000), (.datetime 63587380980000000), (.datetime
    63587366820000000), (.datetime 63587393220000000), (.datetime 63587374140000000), (.datetime
    63587393040000000), (.datetime 63587395020000000)] = true := by decide +kernel
example : picks (.datetime 63587289600000000) (.datetime 63618912000000000) 12 (some "hours")
    none 999 [(.datetime 63611956800000000), (.datetime 63589795200000000), (.datetime
    63614851200000000), (.datetime 63605390400000000), (.datetime 63602798400000000), (.datetime
    63591436800000000), (.datetime 63612518400000000), (.datetime 63597312000000000), (.datetime
    63612388800000000), (.datetime 63613987200000000)] = true := by decide +kernel

end Conform
end Fauxdoc
