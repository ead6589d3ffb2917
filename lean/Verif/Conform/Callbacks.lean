import Verif.Conform.World
/-
The fixtures of `/repo/tests/test_profile.py` and `/repo/tests/test_emitters_fromfields.py`, written
for the model.
-/
namespace Fauxdoc
namespace Conform
open World

/-- The fixture `emitter` of test_profile.py, lines 14-26. -/
def WORDS : List Val :=
  ["bicycle", "warm", "snowstorm", "zebra", "sympathy", "flautist", "yellow", "happy", "sluggish",
    "eat", "crazy", "chairs"].map s

/-- The fixture `emitter` of test_profile.py, lines 22-26. -/
def subjects : Test Ref := pick WORDS none

/-- The loop of `test_field_caches_previous_value`. -/
def caches (r : Ref) (prev : Val) : List Val → Test Bool
  | [] => return true
  | v :: vs => do
    let p ← previous r
    let _ ← one r
    let p' ← previous r
    if p = prev ∧ p' = v then caches r v vs else return false

/-- `assert field.multi_valued == b`. -/
def isMulti (r : Ref) (b : Bool) : Test Bool := do
  return World.multiValued r (← PyM.get) == b

/-- `CopyFields(source, separator)`. -/
def copy (src : List (Test Ref)) (single : Bool) (sep : Option String) : Test Ref := do
  newCopyFields (← all src) single (sep.map String.toList)

/-- `assert em.single_valued == b`. -/
def isSingle (r : Ref) (b : Bool) : Test Bool := do
  let w ← PyM.get
  match (w.obj r).node with
  | some (.copyFields src single _) =>
    return (sourceGroup (fun g => call pyStr deep g none) (reset deep) (seed deep) w src
      single).singleValued w == b
  | _ => return false

/-- The body of `test_copyfields_emit`. -/
def copies (r : Ref) (v : Val) : Test Bool := do
  load ((← PyM.get).obj r).sources
  let b ← each r [v]
  let b' ← many r [v, v]
  return b && b'

/-- A function with these parameters, that uses no generator. -/
def function (ps : List Param) (run : List Val → Dict Val → Py Val) : Callback Twister.G :=
  ⟨some ps, run, fun _ _ => PyM.raise .typeError⟩

/-- A function with these parameters, that has a parameter `rng`. -/
def functionRng (ps : List Param) (run : List Val → Dict Val → PyM Twister.G Val) :
    Callback Twister.G :=
  ⟨some ps, fun _ _ => .error .typeError, run⟩

/-- The elements of a list. -/
def listed : Val → List Val
  | .list l => l
  | _ => []

/-- `str(v)`. -/
def strOf (v : Val) : Val := .str (pyStr v)

/-- `' '.join(str(v) for v in l)`. -/
def spaced (l : List Val) : Val := .str (joinWith [' '] (l.map pyStr))

/-- `str`, a builtin. -/
def strFunction : Callback Twister.G :=
  ⟨none, fun args _ => match args with
    | [v] => .ok (strOf v)
    | _ => .error .typeError, fun _ _ => PyM.raise .typeError⟩

/-- `single_field_multi`, test_emitters_fromfields.py 15-17. -/
def singleFieldMulti : Callback Twister.G :=
  function [⟨"values", .posOrKw, false⟩] fun args _ => match args with
    | [.list l] => .ok (.list (l.map strOf))
    | _ => .ok .none

/-- `single_field_multi_collapse`, lines 20-22. -/
def singleFieldMultiCollapse : Callback Twister.G :=
  function [⟨"values", .posOrKw, false⟩] fun args _ => match args with
    | [.list l] => .ok (spaced l)
    | _ => .ok .none

/-- A call of `chance(0.5)` with the given generator. -/
def halfChance : PyM Twister.G Bool := fun g =>
  match chance (R := pyRng) (1 / 2) none 0 with
  | (.ok st, e) =>
    match Choice.call (R := pyRng) none ({ st with rng := g }, e) with
    | (.ok l, (st', _)) => (.ok (l.headD false), st'.rng)
    | (.error x, (st', _)) => (.error x, st'.rng)
  | (.error x, _) => (.error x, g)

/-- `single_field_random`, lines 25-28. -/
def singleFieldRandom : Callback Twister.G :=
  functionRng [⟨"value", .posOrKw, false⟩, ⟨"rng", .posOrKw, false⟩] fun args _ => do
    match args with
    | [v] => if ← halfChance then return strOf v else return v
    | _ => PyM.raise .typeError

/-- `**kwargs`. -/
def kwargsParam : Param := ⟨"kwargs", .varKw, false⟩

/-- `x or None` for a list. -/
def orNone (l : List Val) : Val := if l.isEmpty then .none else .list l

/-- The values that are not `None`. -/
def notNone (kw : Dict Val) : List Val := (kw.map (·.2)).filter (· ≠ .none)

/-- `multi_field_each_single`, lines 31-32. -/
def multiFieldEachSingle : Callback Twister.G :=
  function [kwargsParam] fun _ kw => .ok (orNone ((notNone kw).map strOf))

/-- `multi_field_each_multi`, lines 35-38. -/
def multiFieldEachMulti : Callback Twister.G :=
  function [kwargsParam] fun _ kw => .ok (orNone (((notNone kw).flatMap listed).map strOf))

/-- `x or None` for a string. -/
def textOrNone (v : Val) : Val := if v = .str [] then .none else v

/-- `multi_field_each_single_collapse`, lines 41-42. -/
def multiFieldEachSingleCollapse : Callback Twister.G :=
  function [kwargsParam] fun _ kw => .ok (textOrNone (spaced (notNone kw)))

/-- `multi_field_each_multi_collapse`, lines 45-48. -/
def multiFieldEachMultiCollapse : Callback Twister.G :=
  function [kwargsParam] fun _ kw => .ok (textOrNone (spaced ((notNone kw).flatMap listed)))

/-- `multi_field_random`, lines 51-61. -/
def multiFieldRandom : Callback Twister.G :=
  functionRng [⟨"rng", .posOrKw, false⟩, kwargsParam] fun _ kw => do
    let l ← mapPyM (fun v => do
      if ← halfChance then return .str (pyStr v ++ ['!']) else return strOf v)
      (kw.flatMap fun kv => listed kv.2)
    return spaced l

/-- `lambda t1, t2, t3: ':'.join([' '.join(t1), t2, t3])`, line 347. -/
def joinThree : Callback Twister.G :=
  function [⟨"t1", .posOrKw, false⟩, ⟨"t2", .posOrKw, false⟩, ⟨"t3", .posOrKw, false⟩]
    fun _ kw => match kw with
    | [("t1", .list l), ("t2", .str b), ("t3", .str c)] =>
      .ok (.str (joinWith [':'] [joinWith [' '] (l.map pyStr), b, c]))
    | _ => .error .typeError

/-- The body of `test_basedonfields_emit`. -/
def based (src : List (Test Ref)) (single : Bool) (cb : Callback Twister.G) (sd : Option Int)
    (v : Val) : Bool :=
  passes (do
    let fs ← all src
    let r ← newBasedOnFields pyStr deep fs single cb sd
    seedSource pyStr deep r sd
    load fs
    let b ← each r [v]
    resetSource pyStr deep r
    reset deep r
    load fs
    let b' ← many r [v, v]
    return b && b')

/-- The body of `test_basedonfields_emit_bad_action_raises_error`. -/
def badAction (src : List (Test Ref)) (single : Bool) (ps : List Param) : Bool :=
  raises (do
    newBasedOnFields pyStr deep (← all src) single (function ps fun _ _ => .ok .none) none) .typeError

/-- The body of `test_wrapone_emit_bad_wrapper_raises_error`. -/
def badWrapOne (ps : List Param) : Bool :=
  raises (do
    newWrapOne pyStr deep (← static (s "test")) (function ps fun _ _ => .ok .none) none) .typeError

/-- The body of `test_wrapmany_emit_bad_wrapper_raises_error`. -/
def badWrapMany (ps : List Param) : Bool :=
  raises (do
    newWrapMany pyStr deep [("a", ← static (s "test_a")), ("b", ← static (s "test_b"))]
      (function ps fun _ _ => .ok .none) none) .typeError

end Conform
end Fauxdoc
