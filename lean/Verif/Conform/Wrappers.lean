import Verif.Conform.Callbacks
/-
Tests of `/repo/tests/test_emitters_wrappers.py` and single tests of
`/repo/tests/test_emitters_fromfields.py`, run on the model (for the tables of expected values see
`Conform/Fields`). Left out: tests with mock objects, with a `BoundWrapper` of their own, with dates,
and with a plain function as the source.
-/
namespace Fauxdoc
namespace Conform
open World

/-- A parameter without default. -/
def par (name : String) : Param := ⟨name, .posOrKw, false⟩

/-- `NumberEmitter`, lines 14-25, up to 99. -/
def numbers : Test Ref := newSequential .other ((List.range 100).map fun n => .int n) false

/-- The body of `test_wrapone_emit_no_rng` and `test_wrapmany_emit`. -/
def emits (m : Test Ref) (l : List Val) : Bool :=
  passes (do
    let r ← m
    let b ← each r l
    reset deep r
    let b' ← many r l
    return b && b')

/-- The body of `test_wrapone_emit_w_rng` and `test_wrapmany_emit_w_rng`. -/
def emitsRng (m : Test Ref) (l l' : List Val) : Bool :=
  passes (do
    let r ← m
    let b ← each r l
    reset deep r
    let b' ← many r l'
    return b && b')

/-- `WrapOne(source, f, seed)`. -/
def wrapOne (source : Test Ref) (f : Callback Twister.G) (seed : Option Int) : Test Ref := do
  newWrapOne pyStr deep (← source) f seed

/-- `lambda x: t`, for `t` a function of `str(x)`. -/
def onText (f : List Char → List Char) : Callback Twister.G :=
  function [par "x"] fun args _ => match args with
    | [v] => .ok (.str (f (pyStr v)))
    | _ => .error .typeError

/-- `int`, on digits. -/
def intFunction : Callback Twister.G :=
  ⟨none, fun args _ => match args with
    | [.str cs] => .ok (.int (cs.foldl (fun n c => 10 * n + (c.toNat - 48)) 0))
    | _ => .error .typeError, fun _ _ => PyM.raise .typeError⟩

/-! `test_wrapone_emit_no_rng`, line 130 -/
example : emits (wrapOne (static (.int 1000)) strFunction none) [s "1000"] = true := by decide +kernel
example : emits (wrapOne numbers strFunction none)
    (["0", "1", "2", "3", "4", "5", "6", "7"].map s) = true := by decide +kernel
example : emits (wrapOne (static (s "1000")) intFunction none) [.int 1000] = true := by decide +kernel
example : emits (wrapOne (static (s "Susan"))
    (onText (· ++ " says, \"Hello!\"".toList)) none) [s "Susan says, \"Hello!\""] = true := by
  decide +kernel

/-- `rng.choice([True, False])`. -/
def pickBool : PyM Twister.G Bool := do return (← pyRng.choice 2) = 0

/-- `v.upper()`. -/
def upper : Val → Val
  | .str cs => .str (cs.map Char.toUpper)
  | v => v

/-- `lambda v, rng: v.upper() if rng.choice([True, False]) else v`, line 139. -/
def sometimesUpper : Callback Twister.G :=
  functionRng [par "v", par "rng"] fun args _ => do
    match args with
    | [v] => if ← pickBool then return upper v else return v
    | _ => PyM.raise .typeError

/-! `test_wrapone_emit_w_rng`, line 145 -/
example : emitsRng (wrapOne (pick (chars "abcdefg") none) sometimesUpper (some 999))
    (chars "GfaGe") (chars "FagEd") = true := by decide +kernel
example : emitsRng (wrapOne (static (s "a")) sometimesUpper (some 999))
    (chars "AaaAa") (chars "AaaAa") = true := by decide +kernel

/-- `WrapMany(sources, f, seed)`, for two sources. -/
def wrapTwo (k : String) (a : Test Ref) (k' : String) (b : Test Ref) (f : Callback Twister.G)
    (seed : Option Int) : Test Ref := do
  newWrapMany pyStr deep [(k, ← a), (k', ← b)] f seed

/-- The value of a keyword argument. -/
def kwarg (kw : Dict Val) (k : String) : Val := (kw.get? k).getD .none

/-! `test_wrapmany_emit`, line 225 -/
example : emits (do
    newWrapMany pyStr deep [("a", ← static (.int 1000))]
      (function [par "a"] fun _ kw => .ok (strOf (kwarg kw "a"))) none) [s "1000", s "1000"] =
    true := by decide +kernel
example : emits (wrapTwo "a" (static (s "A")) "b" numbers
    (function [par "a", par "b"] fun _ kw =>
      .ok (.str (pyStr (kwarg kw "a") ++ " -- ".toList ++ pyStr (kwarg kw "b")))) none)
    (["A -- 0", "A -- 1", "A -- 2", "A -- 3", "A -- 4", "A -- 5"].map s) = true := by decide +kernel
example : emits (do
    newWrapMany pyStr deep
      [("subj", ← static (s "Susan")), ("verb", ← static (s "says")), ("obj", ← static (s "Hello"))]
      (function [par "subj", par "verb", par "obj"] fun _ kw =>
        .ok (.str (pyStr (kwarg kw "subj") ++ ' ' :: pyStr (kwarg kw "verb") ++ ", \"".toList ++
          pyStr (kwarg kw "obj") ++ "!\"".toList))) none)
    (["Susan says, \"Hello!\"", "Susan says, \"Hello!\""].map s) = true := by decide +kernel

/-! `test_wrapmany_emit_w_rng`, line 240 -/
example : emitsRng (wrapTwo "a" (pick (chars "abcdefg") none) "b" (pick (ints 1 5) none)
    (functionRng [par "a", par "b", par "rng"] fun _ kw => do
      if ← pickBool then return kwarg kw "a" else return strOf (kwarg kw "b")) (some 999))
    (chars "g55g4") (chars "f15e3") = true := by decide +kernel
example : emitsRng (wrapTwo "a" (static (s "a")) "b" (static (s "b"))
    (functionRng [par "rng", par "a", par "b"] fun _ kw => do
      if ← pickBool then return upper (kwarg kw "a") else return kwarg kw "b") (some 999))
    (chars "AbbAb") (chars "AbbAb") = true := by decide +kernel

/-! `test_wrapone_wrapper_is_settable`, line 192, and
`test_wrapone_setting_wrapper_w_invalid_callable_raises_error`, line 201 -/
example : passes (do
    let r ← wrapOne (static (.int 1)) (function [par "val"] fun _ _ => .ok .none) none
    let _ ← one r
    setWrapper pyStr deep r (onText id)
    each r [s "1"]) = true := by decide +kernel
example : raises (do
    let r ← wrapOne (static (.int 1)) (function [par "val"] fun _ _ => .ok .none) none
    setWrapper pyStr deep r (function [par "val1", par "val2"] fun _ _ => .ok .none)) .typeError =
    true := by decide +kernel

/-! `test_wrapmany_wrapper_is_settable`, line 293, and
`test_wrapmany_setting_wrapper_w_invalid_callable_raises_error`, line 303 -/
example : passes (do
    let r ← wrapTwo "one" (static (.int 1)) "two" (static (.int 2))
      (function [par "one", par "two"] fun _ _ => .ok .none) none
    let _ ← one r
    setWrapper pyStr deep r (function [par "one", par "two"] fun _ kw =>
      .ok (.str (pyStr (kwarg kw "one") ++ ' ' :: pyStr (kwarg kw "two"))))
    each r [s "1 2"]) = true := by decide +kernel
example : raises (do
    let r ← wrapTwo "one" (static (.int 1)) "two" (static (.int 2))
      (function [par "one", par "two"] fun _ _ => .ok .none) none
    setWrapper pyStr deep r (function [par "val1", par "val2", par "val3"] fun _ _ => .ok .none))
    .typeError = true := by decide +kernel

/-! test_emitters_fromfields.py: `test_copyfields_source_is_settable`, line 208 -/
example : passes (do
    let f ← field "test" (static (s "one")) none none false none
    let r ← newCopyFields [f] true none
    let g ← field "test1" (static (s "one")) none none false none
    let h ← field "test2" (static (s "two")) none none false none
    setSourceFields r [g, h] false
    load [g, h]
    let b ← each r [.list [s "one", s "two"]]
    let b' ← isSingle r false
    return b && b') = true := by decide +kernel

/-- `lambda test1, test2: f'{test1} {test2}'`. -/
def bothTests : Callback Twister.G :=
  function [par "test1", par "test2"] fun _ kw => .ok (spaced [kwarg kw "test1", kwarg kw "test2"])

/-! `test_basedonfields_source_is_settable`, line 405 -/
example : passes (do
    let f ← field "test" (static (s "one")) none none false none
    let r ← newBasedOnFields pyStr deep [f] true (onText id) none
    let g ← field "test1" (static (s "one")) none none false none
    let h ← field "test2" (static (s "two")) none none false none
    setSourceFields r [g, h] false
    load [g, h]
    let b ← expecting (one r) .typeError
    setAction pyStr deep r bothTests
    let b' ← each r [s "one two"]
    return b && b') = true := by decide +kernel

/-! `test_basedonfields_action_is_settable`, line 442, and
`test_basedonfields_setting_action_w_invalid_callable_raises_error`, line 453 -/
example : passes (do
    let f ← field "test" (static (.int 1)) none none false none
    let r ← newBasedOnFields pyStr deep [f] true (function [par "val"] fun _ _ => .ok .none) none
    load [f]
    setAction pyStr deep r (onText id)
    each r [s "1"]) = true := by decide +kernel
example : passes (do
    let f ← field "test" (static (.int 1)) none none false none
    let r ← newBasedOnFields pyStr deep [f] true (function [par "val"] fun _ _ => .ok .none) none
    expecting (setAction pyStr deep r bothTests) .typeError) = true := by decide +kernel

end Conform
end Fauxdoc
