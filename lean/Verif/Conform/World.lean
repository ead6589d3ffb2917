import Verif.Conform.Basic
import Verif.Model.Assign
/-
Tests on objects that refer to each other: programs over the store of `Model/World`, run with
CPython's generator.
-/
namespace Fauxdoc
namespace Conform
open World

/-- A test. -/
abbrev Test := PyM (World pyRng)

/-- No objects yet. -/
def noObjects : World pyRng := ⟨fun _ => World.blank, 0, 0⟩

/-- Whether a test ends without an exception, with `true`. -/
def passes (m : Test Bool) : Bool :=
  match m noObjects with
  | (.ok b, _) => b
  | (.error _, _) => false

/-- Whether a test that makes an object and uses it ends without an exception, with `true`. -/
def holds (m : Test Ref) (f : Ref → Test Bool) : Bool := passes (do f (← m))

/-- Whether a test ends with the exception `e`. -/
def raises {β : Type} (m : Test β) (e : Err) : Bool := fails (m noObjects).1 e

/-- `with pytest.raises(e): ...` -/
def expecting {β : Type} (m : Test β) (e : Err) : Test Bool := fun w =>
  match m w with
  | (r, w') => (.ok (fails r e), w')

/-- `str()` of the values in the tests. -/
def pyStr : Val → List Char
  | .str s => s
  | .int i => (toString i).toList
  | .none => "None".toList
  | .bool true => "True".toList
  | .bool false => "False".toList
  | _ => []

/-- Depth of nesting for which calls are followed. -/
def deep : Nat := 10

/-- A string. -/
def s (t : String) : Val := .str t.toList

/-- The characters of a string. -/
def chars (t : String) : List Val := t.toList.map fun c => .str [c]

/-- The numbers from `mn` to `mx`. -/
def ints (mn mx : Nat) : List Val := (List.range' mn (mx + 1 - mn)).map fun n => .int n

/-- `Static(v)`. -/
def static (v : Val) : Test Ref := newStatic v

/-- `Choice(items, weights)` for items that are not a list. -/
def pick (items : List Val) (weights : Option (List ℚ)) : Test Ref :=
  newChoice .other items weights true false none none

/-- `Choice(items, replace_only_after_call=True)`. -/
def pickDistinct (items : List Val) (weights : Option (List ℚ)) : Test Ref :=
  newChoice .other items weights true true none none

/-- `Choice(items, replace=False)`. -/
def pickOnce (items : List Val) : Test Ref := newChoice .other items none false false none none

/-- `chance(p)`. -/
def withChance (p : ℚ) : Test Ref :=
  newChoice .list [.bool true, .bool false] (some [p, 1 - p]) true false none none

/-- `r()`. -/
def one (r : Ref) : Test Val := call pyStr deep r none

/-- `assert r(n) == l`, for `n` the length of `l`. -/
def many (r : Ref) (l : List Val) : Test Bool := do
  let v ← call pyStr deep r (some (.int l.length))
  return decide (v = .list l)

/-- `assert [r() for _ in range(n)] == l`, for `n` the length of `l`. -/
def each : Ref → List Val → Test Bool
  | _, [] => return true
  | r, v :: vs => do
    let v' ← one r
    if v' = v then each r vs else return false

/-- `assert [r(k) for _ in range(n)] == l`. -/
def eachOf (k : Option Nat) : Ref → List Val → Test Bool
  | _, [] => return true
  | r, v :: vs => do
    let v' ← call pyStr deep r (k.map fun n => .int n)
    if v' = v then eachOf k r vs else return false

/-- Calls that are not looked at. -/
def callTimes : Nat → Ref → Test Unit
  | 0, _ => return ()
  | n + 1, r => do
    let _ ← one r
    callTimes n r

/-- `r.num_unique_values`. -/
def nuv (r : Ref) : Test (Option ℚ) := numUniqueValues r

/-- `r.rng_seed`. -/
def seedOf (r : Ref) : Test (Option Int) := do return ((← PyM.get).obj r).rngSeed

/-- `field.previous`. -/
def previous (r : Ref) : Test Val := do return ((← PyM.get).obj r).cache

/-- `[field() for field in fields]`. -/
def load : List Ref → Test Unit
  | [] => return ()
  | r :: rs => do
    let _ ← one r
    load rs

/-- A list of objects, made one after the other. -/
def all : List (Test Ref) → Test (List Ref)
  | [] => return []
  | m :: ms => do
    let r ← m
    let rs ← all ms
    return r :: rs

/-- `Field(name, emitter, repeat=..., gate=...)`. -/
def field (name : String) (emitter : Test Ref) (rep gate : Option (Test Ref)) (hide : Bool)
    (seed : Option Int) : Test Ref := do
  let e ← emitter
  let rp ← match rep with
    | some m => some <$> m
    | none => pure none
  let g ← match gate with
    | some m => some <$> m
    | none => pure none
  newField deep name e rp g hide seed

/-- `Word(length, alphabet, rng_seed)`. -/
def word (length alphabet : Test Ref) (seed : Option Int) : Test Ref := do
  newWord deep (← length) (← alphabet) seed

/-- `Text(numwords, word, sep, rng_seed)`. -/
def text (numwords wd : Test Ref) (sep : Option (Test Ref)) (seed : Option Int) : Test Ref := do
  let n ← numwords
  let w ← wd
  let sp ← match sep with
    | some m => some <$> m
    | none => pure none
  newText deep n w sp seed

/-- `assert r.num_unique_values == n`. -/
def hasUnique (m : Test Ref) (n : ℚ) : Bool :=
  passes (do return decide ((← nuv (← m)) = some n))

end Conform
end Fauxdoc
