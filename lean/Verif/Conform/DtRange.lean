import Verif.Conform.Basic
import Verif.Model.DtRangeObj
/-
The tests of `/repo/tests/test_dtrange.py`, run on the model. Made by `tools/conform_dtrange.py`
from the text of the tests. Left out: `test_dateortimerange_string_representation` (in
`Conform/DtRepr`) and error messages.
-/
namespace Fauxdoc
namespace Conform

/-- Whether `DateOrTimeRange(start, length, step)` is accepted, with the given attributes. -/
def validates (start : StartArg) (length : LengthArg) (step : StepArg) (ok : Bool) : Bool :=
  match DTObj.init start length step DTObj.blank with
  | (.ok _, o) =>
    ok && (match start, length, step with
      | .dt v, .int n, .td d =>
        decide (o.start = some v) && decide (o.length = some n) && decide (o.step = some d)
      | _, _, _ => false)
  | (.error e, _) => !ok && decide (e = .valueError)

/-- `DateOrTimeRange(start, length, step)`, then something that has to be true. -/
def withRange (start : DT) (length step : Int) (f : DTR → Bool) : Bool :=
  match DTR.mk' start length step with
  | .ok r => f r
  | .error _ => false

def stops (start : DT) (length step : Int) (v : DT) : Bool :=
  withRange start length step fun r => is r.stop v

def lists (start : DT) (length step : Int) (l : List DT) : Bool :=
  withRange start length step fun r => is r.toList l

def item (start : DT) (length step : Int) (i : Int) (v : DT) : Bool :=
  withRange start length step fun r => is (r.getItem i) v

def noItem (start : DT) (length step : Int) (i : Int) : Bool :=
  withRange start length step fun r => fails (r.getItem i) .indexError

def slices (start : DT) (length step : Int) (s : PySlice) (l : List DT) : Bool :=
  withRange start length step fun r => is (r.getSlice s >>= DTR.toList) l

/-- `==` of the ranges, of their lists and of what is hashed. -/
def equals (start : DT) (length step : Int) (start' : DT) (length' step' : Int) (b : Bool) : Bool :=
  withRange start length step fun r => withRange start' length' step' fun r' =>
    is (r.eq r') b
      && is (do return decide ((← r.toList) = (← r'.toList))) b
      && is (do return decide ((← r.hashKey) = (← r'.hashKey))) b

/-- `index`, `in` and `count`. -/
def finds (start : DT) (length step : Int) (v : DT) (n : Option Int) : Bool :=
  withRange start length step fun r =>
    (match n with
      | some i => is (r.index v none none) i
      | none => fails (r.index v none none) .valueError)
    && is (r.contains v) n.isSome
    && is (r.count v) (if n.isSome then 1 else 0)

/-- What `fromisoformat` makes of the texts in the tests. -/
def testIso : IsoParsers where
  date s := match s with
    | "2015-12-31" => some 735963
    | "2016-01-01" => some 735964
    | "2016-01-05" => some 735968
    | "2016-01-06" => some 735969
    | _ => none
  time s := match s with
    | "03:00" => some 10800000000
    | "04:00:00" => some 14400000000
    | "22:00" => some 79200000000
    | _ => none
  datetime s := match s with
    | "2015-12-31" => some 63587203200000000
    | "2015-12-31T23:59:58" => some 63587289598000000
    | "2016-01-01" => some 63587289600000000
    | "2016-01-01T00:00:02" => some 63587289602000000
    | "2016-01-05" => some 63587635200000000
    | "2016-01-06" => some 63587721600000000
    | _ => none

def noRange (start stop : UserDate) (step : Int) (unit : Option String) : Bool :=
  fails (dtrange testIso start stop step unit) .valueError

def ranges (start stop : UserDate) (step : Int) (unit : Option String) (l : List DT) : Bool :=
  is (dtrange testIso start stop step unit >>= DTR.toList) l

def hasLength (start stop : UserDate) (step : Int) (unit : Option String) (n : Int) : Bool :=
  is (dtrange testIso start stop step unit >>= DTR.len) n

/-! `test_dateortimerange_validation`, line 61 -/
example : validates .other (.int 7) (.td 86400000000) false = true := by decide +kernel
example : validates .other (.int 7) (.td 86400000000) false = true := by decide +kernel
example : validates (.dt (.date 735964)) (.int 7) (.td 86400000000) true = true := by
    decide +kernel
example : validates (.dt (.datetime 63587325600000000)) (.int 7) (.td 86400000000) true = true
    := by decide +kernel
example : validates (.dt (.time 36000000000)) (.int 10) (.td 1000000) true = true := by
    decide +kernel
example : validates (.dt (.date 735964)) (.raises .valueError) (.td 86400000000) false = true :=
    by decide +kernel
example : validates (.dt (.date 735964)) (.int 7) .other false = true := by decide +kernel
example : validates (.dt (.date 735964)) (.int 7) .other false = true := by decide +kernel
example : validates (.dt (.date 735964)) (.int 7) (.td 7200000000) false = true := by
    decide +kernel
example : validates (.dt (.date 735964)) (.int 7) (.td 20000000) false = true := by
    decide +kernel
example : validates (.dt (.date 735964)) (.int 7) (.td (-72000000000)) false = true := by
    decide +kernel
example : validates (.dt (.date 735964)) (.int 7) (.td 216000000000) false = true := by
    decide +kernel
example : validates (.dt (.date 735964)) (.int 7) (.td 86400000000) true = true := by
    decide +kernel
example : validates (.dt (.date 735964)) (.int 7) (.td (-86400000000)) true = true := by
    decide +kernel
example : validates (.dt (.date 735964)) (.int 7) (.td 86400000000) true = true := by
    decide +kernel
example : validates (.dt (.date 735964)) (.int 7) (.td (-86400000000)) true = true := by
    decide +kernel
example : validates (.dt (.time 36000000000)) (.int 12) (.td 86400000000) false = true := by
    decide +kernel
example : validates (.dt (.time 36000000000)) (.int 12) (.td 216000000000) false = true := by
    decide +kernel
example : validates (.dt (.time 36000000000)) (.int 12) (.td 86400000000) false = true := by
    decide +kernel
example : validates (.dt (.time 36000000000)) (.int 12) (.td 86399000000) true = true := by
    decide +kernel
example : validates (.dt (.time 36000000000)) (.int 12) (.td (-300000000)) true = true := by
    decide +kernel
example : validates (.dt (.time 36000000000)) (.int 12) (.td (-86399000000)) true = true := by
    decide +kernel
example : validates (.dt (.datetime 63587325600000000)) (.int 10) (.td 43200000000) true = true
    := by decide +kernel
example : validates (.dt (.datetime 63587325600000000)) (.int 10) (.td 172800000000) true = true
    := by decide +kernel
example : validates (.dt (.datetime 63587325600000000)) (.int 10) (.td 216000000000) true = true
    := by decide +kernel
/-! `test_dateortimerange_stop_value_is_correct`, line 83 -/
example : stops (.date 735964) 5 86400000000 (.date 735969) = true := by decide +kernel
example : stops (.date 735964) 5 (-86400000000) (.date 735959) = true := by decide +kernel
example : stops (.time 85800000000) 5 600000000 (.time 2400000000) = true := by decide +kernel
example : stops (.time 86100000000) 5 60000000 (.time 0) = true := by decide +kernel
example : stops (.time 300000000) 5 (-60000000) (.time 0) = true := by decide +kernel
example : stops (.time 300000000) 6 (-60000000) (.time 86340000000) = true := by decide +kernel
example : stops (.datetime 63587368800000000) 5 3600000000 (.datetime 63587386800000000) = true
    := by decide +kernel
/-! `test_dateortimerange_items_as_list`, line 118 -/
example : lists (.date 735964) 6 86400000000 [(.date 735964), (.date 735965), (.date 735966),
    (.date 735967), (.date 735968), (.date 735969)] = true := by decide +kernel
example : lists (.date 735964) 3 172800000000 [(.date 735964), (.date 735966), (.date 735968)] =
    true := by decide +kernel
example : lists (.date 735964) 3 (-86400000000) [(.date 735964), (.date 735963), (.date 735962)]
    = true := by decide +kernel
example : lists (.time 36000000000) 5 1000000 [(.time 36000000000), (.time 36001000000), (.time
    36002000000), (.time 36003000000), (.time 36004000000)] = true := by decide +kernel
example : lists (.time 36000000000) 5 60000000 [(.time 36000000000), (.time 36060000000), (.time
    36120000000), (.time 36180000000), (.time 36240000000)] = true := by decide +kernel
example : lists (.time 85200000000) 5 600000000 [(.time 85200000000), (.time 85800000000),
    (.time 0), (.time 600000000), (.time 1200000000)] = true := by decide +kernel
example : lists (.time 900000000) 5 (-300000000) [(.time 900000000), (.time 600000000), (.time
    300000000), (.time 0), (.time 86100000000)] = true := by decide +kernel
example : lists (.datetime 63587325600000000) 6 86400000000 [(.datetime 63587325600000000),
    (.datetime 63587412000000000), (.datetime 63587498400000000), (.datetime 63587584800000000),
    (.datetime 63587671200000000), (.datetime 63587757600000000)] = true := by decide +kernel
example : lists (.datetime 63587289600000000) 3 43200000000 [(.datetime 63587289600000000),
    (.datetime 63587332800000000), (.datetime 63587376000000000)] = true := by decide +kernel
example : lists (.datetime 63587289600000000) 4 (-5000000) [(.datetime 63587289600000000),
    (.datetime 63587289595000000), (.datetime 63587289590000000), (.datetime 63587289585000000)]
    = true := by decide +kernel
example : lists (.datetime 63587332800000000) 4 129600000000 [(.datetime 63587332800000000),
    (.datetime 63587462400000000), (.datetime 63587592000000000), (.datetime 63587721600000000)]
    = true := by decide +kernel
/-! `test_dateortimerange_getitem_by_index`, line 150 -/
example : item (.date 735964) 6 86400000000 0 (.date 735964) = true := by decide +kernel
example : item (.date 735964) 6 86400000000 (-1) (.date 735969) = true := by decide +kernel
example : item (.date 735964) 6 86400000000 2 (.date 735966) = true := by decide +kernel
example : item (.date 735964) 6 172800000000 (-1) (.date 735974) = true := by decide +kernel
example : item (.date 735964) 6 (-86400000000) 0 (.date 735964) = true := by decide +kernel
example : item (.date 735964) 6 (-86400000000) (-1) (.date 735959) = true := by decide +kernel
example : item (.date 735964) 6 (-86400000000) 5 (.date 735959) = true := by decide +kernel
example : noItem (.date 735964) 6 (-86400000000) 6 = true := by decide +kernel
example : slices (.date 735964) 6 86400000000 ⟨(some 0), (some 3), none⟩ [(.date 735964), (.date
    735965), (.date 735966)] = true := by decide +kernel
example : slices (.date 735964) 6 86400000000 ⟨(some 1), (some 4), none⟩ [(.date 735965), (.date
    735966), (.date 735967)] = true := by decide +kernel
example : slices (.date 735964) 6 86400000000 ⟨(some 1), (some 1), none⟩ [] = true := by
    decide +kernel
example : slices (.date 735964) 6 86400000000 ⟨(some 7), (some 7), none⟩ [] = true := by
    decide +kernel
example : slices (.date 735964) 6 86400000000 ⟨(some 3), (some 1), none⟩ [] = true := by
    decide +kernel
example : slices (.date 735964) 6 86400000000 ⟨none, none, (some (-1))⟩ [(.date 735969), (.date
    735968), (.date 735967), (.date 735966), (.date 735965), (.date 735964)] = true := by
    decide +kernel
example : slices (.date 735964) 6 86400000000 ⟨(some 3), none, (some (-1))⟩ [(.date 735967),
    (.date 735966), (.date 735965), (.date 735964)] = true := by decide +kernel
example : slices (.date 735964) 6 86400000000 ⟨none, (some 2), (some (-1))⟩ [(.date 735969),
    (.date 735968), (.date 735967)] = true := by decide +kernel
example : slices (.date 735964) 6 86400000000 ⟨none, none, (some (-2))⟩ [(.date 735969), (.date
    735967), (.date 735965)] = true := by decide +kernel
example : slices (.date 735964) 6 172800000000 ⟨none, none, (some 4)⟩ [(.date 735964), (.date
    735972)] = true := by decide +kernel
/-! `test_dateortimerange_equality_and_hash`, line 196 -/
example : equals (.date 735964) 6 86400000000 (.date 735964) 6 86400000000 true = true := by
    decide +kernel
example : equals (.date 735964) 6 86400000000 (.date 735964) 5 86400000000 false = true := by
    decide +kernel
example : equals (.date 735964) 6 86400000000 (.date 735964) 6 (-86400000000) false = true := by
    decide +kernel
example : equals (.date 735965) 6 86400000000 (.date 735964) 6 (-86400000000) false = true := by
    decide +kernel
example : equals (.datetime 63587289600000000) 6 86400000000 (.date 735964) 6 86400000000 false
    = true := by decide +kernel
example : equals (.date 735964) 6 172800000000 (.date 735964) 6 172800000000 true = true := by
    decide +kernel
example : equals (.date 735964) 6 172800000000 (.time 0) 6 60000000 false = true := by
    decide +kernel
example : equals (.datetime 63587318400000000) 6 86400000000 (.date 735964) 6 86400000000 false
    = true := by decide +kernel
/-! `test_dateortimerange_find_index_by_item`, line 217 -/
example : finds (.date 735964) 6 86400000000 (.date 735964) (some 0) = true := by decide +kernel
example : finds (.date 735964) 6 86400000000 (.date 735969) (some 5) = true := by decide +kernel
example : finds (.date 735964) 6 86400000000 (.date 735970) none = true := by decide +kernel
example : finds (.date 735964) 6 86400000000 (.date 735963) none = true := by decide +kernel
example : finds (.date 735964) 6 172800000000 (.date 735966) (some 1) = true := by
    decide +kernel
example : finds (.date 735964) 6 172800000000 (.date 735965) none = true := by decide +kernel
example : finds (.time 28800000000) 5 3600000000 (.time 36000000000) (some 2) = true := by
    decide +kernel
example : finds (.time 28800000000) 5 3600000000 (.time 30600000000) none = true := by
    decide +kernel
example : finds (.datetime 63587318400000000) 5 3600000000 (.time 30600000000) none = true := by
    decide +kernel
example : finds (.datetime 63587318400000000) 5 3600000000 (.date 735964) none = true := by
    decide +kernel
example : finds (.datetime 63587318400000000) 5 3600000000 (.datetime 63587322000000000) (some
    1) = true := by decide +kernel
/-! `test_dtrange_validation`, line 242 -/
example : noRange (.str "2016/1/1") (.str "2016/1/5") 1 (some "days") = true := by
    decide +kernel
example : noRange (.str "2016-01-01") (.str "2016/1/5") 1 (some "days") = true := by
    decide +kernel
example : noRange .other (.str "2016/1/5") 1 (some "days") = true := by decide +kernel
example : noRange (.dt (.date 735964)) (.dt (.datetime 63587462400000000)) 1 (some "days") =
    true := by decide +kernel
example : noRange (.str "2016-01-01") (.str "04:00:00") 1 (some "days") = true := by
    decide +kernel
example : noRange (.dt (.date 735964)) (.dt (.date 735966)) 1 (some "day") = true := by
    decide +kernel
example : noRange (.dt (.date 735964)) (.dt (.date 735966)) 1 (some "month") = true := by
    decide +kernel
/-! `test_dtrange_return_value`, line 273 -/
example : ranges (.str "2016-01-01") (.str "2016-01-06") 1 none [(.date 735964), (.date 735965),
    (.date 735966), (.date 735967), (.date 735968)] = true := by decide +kernel
example : ranges (.str "2016-01-05") (.str "2015-12-31") (-1) none [(.date 735968), (.date
    735967), (.date 735966), (.date 735965), (.date 735964)] = true := by decide +kernel
example : ranges (.dt (.date 735964)) (.dt (.date 735969)) 2 (some "days") [(.date 735964),
    (.date 735966), (.date 735968)] = true := by decide +kernel
example : ranges (.dt (.date 735964)) (.dt (.date 735968)) 2 (some "days") [(.date 735964),
    (.date 735966)] = true := by decide +kernel
example : ranges (.dt (.time 37800000000)) (.dt (.time 37806000000)) 1 none [(.time
    37800000000), (.time 37801000000), (.time 37802000000), (.time 37803000000), (.time
    37804000000), (.time 37805000000)] = true := by decide +kernel
example : ranges (.dt (.time 82800000000)) (.dt (.time 10800000000)) 1 (some "hours") [(.time
    82800000000), (.time 0), (.time 3600000000), (.time 7200000000)] = true := by decide +kernel
example : ranges (.str "03:00") (.str "22:00") (-1) (some "hours") [(.time 10800000000), (.time
    7200000000), (.time 3600000000), (.time 0), (.time 82800000000)] = true := by decide +kernel
example : ranges (.dt (.datetime 63587289600000000)) (.dt (.datetime 63587462400000000)) 12
    (some "hours") [(.datetime 63587289600000000), (.datetime 63587332800000000), (.datetime
    63587376000000000), (.datetime 63587419200000000)] = true := by decide +kernel
example : ranges (.str "2015-12-31T23:59:58") (.str "2016-01-01T00:00:02") 1 none [(.datetime
    63587289598000000), (.datetime 63587289599000000), (.datetime 63587289600000000), (.datetime
    63587289601000000)] = true := by decide +kernel
/-! `test_dtrange_start_equals_stop`, line 286 -/
example : hasLength (.dt (.time 0)) (.dt (.time 0)) 1 none 86400 = true := by decide +kernel
example : hasLength (.dt (.time 3600000000)) (.dt (.time 3600000000)) 1 none 86400 = true := by
    decide +kernel
example : hasLength (.dt (.time 0)) (.dt (.time 0)) 1 (some "hours") 24 = true := by
    decide +kernel
example : hasLength (.dt (.time 0)) (.dt (.time 60000000)) 1 (some "minutes") 1 = true := by
    decide +kernel
example : hasLength (.dt (.date 735964)) (.dt (.date 735964)) 1 none 0 = true := by
    decide +kernel
example : hasLength (.dt (.datetime 63587289600000000)) (.dt (.datetime 63587289600000000)) 1
    none 0 = true := by decide +kernel

end Conform
end Fauxdoc
