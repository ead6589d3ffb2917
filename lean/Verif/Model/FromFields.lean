import Verif.Model.Wrappers
import Verif.Model.Group
/-
Model of `/repo/src/fauxdoc/emitters/fromfields.py`, over an arbitrary state `σ` in which the source
fields live.
-/
namespace Fauxdoc

/-- What the emitters of `fromfields.py` use of a source field: its name, its `previous` and
`multi_valued` attributes, calling, resetting and seeding it. -/
structure SourceField (σ : Type) where
  name : String
  previous : σ → Val
  multiValued : σ → Bool
  call : PyM σ Val
  reset : PyM σ Unit
  seed : Option Int → PyM σ Unit

/-- `SourceFieldGroup`, fromfields.py 17-45: the fields and whether a single field (not a sequence)
was given. -/
structure SourceGroup (σ : Type) where
  fields : List (SourceField σ)
  initSingle : Bool

namespace SourceGroup
variable {σ : Type}

/-- `SourceFieldGroup(field)`, fromfields.py 43-45. -/
def ofField (f : SourceField σ) : SourceGroup σ := ⟨[f], true⟩

/-- `SourceFieldGroup(fields)` for a sequence, fromfields.py 40-42. -/
def ofList (fs : List (SourceField σ)) : SourceGroup σ := ⟨fs, false⟩

/-- `single_valued`, fromfields.py 47-64. -/
def singleValued (g : SourceGroup σ) (s : σ) : Bool :=
  match g.fields with
  | [f] => g.initSingle && !f.multiValued s
  | _ => false

/-- `source.do_method('reset')`, fromfields.py 122-128 and 267-273: `AttributeError`s are ignored. -/
def resetSource (g : SourceGroup σ) : PyM σ Unit :=
  Group.doMethod (g.fields.map some) (·.reset)

/-- `source.do_method('seed', rng_seed)`, fromfields.py 275-285. -/
def seedSource (g : SourceGroup σ) (rngSeed : Option Int) : PyM σ Unit :=
  Group.doMethod (g.fields.map some) (·.seed rngSeed)

end SourceGroup

/-- `sep.join(l)`. -/
def joinWith (sep : List Char) : List (List Char) → List Char
  | [] => []
  | [a] => a
  | a :: b :: l => a ++ sep ++ joinWith sep (b :: l)

namespace CopyFields
variable {σ : Type}

/-- The loop of `emit`, fromfields.py 140-146, starting with `vals`. -/
def collect (s : σ) : List Val → List (SourceField σ) → List Val
  | vals, [] => vals
  | vals, f :: fs =>
    match f.previous s with
    | .none => collect s vals fs
    | .list l => collect s (vals ++ l) fs
    | .tuple l => collect s (vals ++ l) fs
    | v => collect s (vals ++ [v]) fs

/-- `emit`, fromfields.py 136-149.  `str` is Python's `str()`. -/
def emit (str : Val → List Char) (g : SourceGroup σ) (sep : Option (List Char)) : PyM σ Val := do
  let s ← PyM.get
  if g.singleValued s then
    match g.fields with
    | f :: _ => return f.previous s
    | [] => PyM.raise .indexError
  else
    let vals := collect s [] g.fields
    match sep with
    | none => if vals.isEmpty then return .none else return .list vals
    | some sp => return .str (joinWith sp (vals.map str))

/-- `emit_many`, fromfields.py 151-157: one value, repeated. -/
def emitMany (str : Val → List Char) (g : SourceGroup σ) (sep : Option (List Char)) (number : Int) :
    PyM σ (List Val) := do
  let v ← emit str g sep
  return List.replicate number.toNat v

/-- `[self.emit()] * number` for a number that is not an integer. -/
def emitBad (emit : PyM σ Val) (_ : Val) : PyM σ Val := do
  let _ ← emit
  PyM.raise .typeError

/-- `copy_fields()` and `copy_fields(n)`. -/
def call (str : Val → List Char) (g : SourceGroup σ) (sep : Option (List Char)) : Child σ :=
  emitterCallOr (emitBad (emit str g sep)) (emit str g sep) (emitMany str g sep)

end CopyFields

namespace BasedOnFields
variable {σ G : Type}

/-- `emit`, fromfields.py 287-292. -/
def emit (L : Attr σ G) (g : SourceGroup σ) (action : Callback G) : PyM σ Val := do
  let s ← PyM.get
  match g.fields with
  | [f] => action.call L [f.previous s] []
  | fs => action.call L [] (Dict.ofItems (fs.map fun f => (f.name, f.previous s)))

/-- `emit_many`, fromfields.py 294-300: the action is evaluated once. -/
def emitMany (L : Attr σ G) (g : SourceGroup σ) (action : Callback G) (number : Int) :
    PyM σ (List Val) := do
  let v ← emit L g action
  return List.replicate number.toNat v

/-- `based_on()` and `based_on(n)`. -/
def call (L : Attr σ G) (g : SourceGroup σ) (action : Callback G) : Child σ :=
  emitterCallOr (CopyFields.emitBad (emit L g action)) (emit L g action) (emitMany L g action)

/-- The trial arguments of the `action` setter, fromfields.py 254-259: every source field is
called. -/
def trial (g : SourceGroup σ) : PyM σ (List Val × Dict Val) :=
  match g.fields with
  | [f] => do return ([← f.call], [])
  | fs => do return ([], Dict.ofItems (← mapPyM (fun (f : SourceField σ) => do
      return (f.name, ← f.call)) fs))

/-- The `action` setter, fromfields.py 245-265.  `store` assigns `self._action`, `reset` is
`self.reset()` (which does not touch the source fields). -/
def setAction (g : SourceGroup σ) (action : Callback G) (store reset : PyM σ Unit) : PyM σ Unit := do
  store
  let args ← trial g
  PyM.finally_ (PyM.lift (action.tryMockCall args.1 args.2)) reset

end BasedOnFields
end Fauxdoc
