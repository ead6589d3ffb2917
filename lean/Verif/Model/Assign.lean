import Verif.Model.World
/-
Assignments that change references between objects or plain attributes: other child emitters, other
source fields, another name.

Simplification: Python lets a program assign any attribute of any object; attributes that a class does
not use are left out, assigning them is an error here.
-/
namespace Fauxdoc

/-- The attribute `emitters` (mixins.py 127-130): the children under their labels (text.py 92-95,
190-194, wrappers.py 256, 362, profile.py 128-132). -/
def Node.emitters : Node → Dict Ref
  | .word l c => [("length", l), ("alphabet", c)]
  | .text n w s => [("numwords", n), ("word", w), ("sep", s)]
  | .wrapOne s => [("source", s)]
  | .wrapMany ss => ss
  | .field _ e rp g _ => [("emitter", e), ("repeat", rp), ("gate", g)]
  | _ => []

/-- The object with `x` as the child labelled `label`; `none` if the class does not use that label. -/
def Node.withChild (label : String) (x : Ref) : Node → Option Node
  | .word l c =>
    if label = "length" then some (.word x c)
    else if label = "alphabet" then some (.word l x) else none
  | .text n w s =>
    if label = "numwords" then some (.text x w s)
    else if label = "word" then some (.text n x s)
    else if label = "sep" then some (.text n w x) else none
  | .wrapOne _ => if label = "source" then some (.wrapOne x) else none
  | .wrapMany ss => some (.wrapMany (ss.set label x))
  | .field n e rp g h =>
    if label = "emitter" then some (.field n x rp g h)
    else if label = "repeat" then some (.field n e x g h)
    else if label = "gate" then some (.field n e rp x h) else none
  | _ => none

variable {K : Type} [Field K] [LinearOrder K] [FloorRing K] {R : Rng K}

namespace World

/-- `r.emitters[label] = x`: `emitters` (mixins.py 127-130) is the `ObjectMap` that the methods use.

Simplification: a label that the class does not use would add a child that is reset and seeded but
never called; here it is an error. -/
def setChild (r : Ref) (label : String) (x : Ref) : PyM (World R) Unit := do
  match ((← PyM.get).obj r).node.bind (Node.withChild label x) with
  | some node => PyM.modify (upd r fun a => { a with node := some node })
  | none => PyM.raise .attributeError

/-- A setter of `Field` that is `self._emitters[label] = x`. -/
def setFieldChild (r : Ref) (label : String) (x : Ref) : PyM (World R) Unit := do
  match ((← PyM.get).obj r).node with
  | some (.field ..) => setChild r label x
  | _ => PyM.raise .attributeError

/-- `field.emitter = x`, profile.py 151-154. -/
def setEmitter (r x : Ref) : PyM (World R) Unit := setFieldChild r "emitter" x

/-- `field.repeat_emitter = x`, profile.py 161-166. -/
def setRepeat (r x : Ref) : PyM (World R) Unit := setFieldChild r "repeat" x

/-- `field.gate_emitter = x`, profile.py 173-176. -/
def setGate (r x : Ref) : PyM (World R) Unit := setFieldChild r "gate" x

/-- `field.name = name` (an ordinary attribute, profile.py 125). -/
def setName (r : Ref) (name : String) : PyM (World R) Unit := do
  match ((← PyM.get).obj r).node with
  | some (.field _ e rp g h) =>
    PyM.modify (upd r fun a => { a with node := some (.field name e rp g h) })
  | _ => PyM.raise .attributeError

/-- `field.hide = hide` (an ordinary attribute, profile.py 126). -/
def setHide (r : Ref) (hide : Bool) : PyM (World R) Unit := do
  match ((← PyM.get).obj r).node with
  | some (.field n e rp g _) =>
    PyM.modify (upd r fun a => { a with node := some (.field n e rp g hide) })
  | _ => PyM.raise .attributeError

/-- `copyfields.separator = separator` (an ordinary attribute, fromfields.py 108). -/
def setSeparator (r : Ref) (separator : Option (List Char)) : PyM (World R) Unit := do
  match ((← PyM.get).obj r).node with
  | some (.copyFields src single _) =>
    PyM.modify (upd r fun a => { a with node := some (.copyFields src single separator) })
  | _ => PyM.raise .attributeError

/-- `set_source_fields(source)` of `CopyFields` (fromfields.py 111-121) and `BasedOnFields` (216-226),
with `SourceFieldGroup.__init__` (32-44): `initSingle` says that one field was given, not a list. -/
def setSourceFields (r : Ref) (source : List Ref) (initSingle : Bool) : PyM (World R) Unit := do
  match ((← PyM.get).obj r).node with
  | some (.copyFields _ _ sep) =>
    PyM.modify (upd r fun a => { a with node := some (.copyFields source initSingle sep) })
  | some (.basedOn ..) =>
    PyM.modify (upd r fun a => { a with node := some (.basedOn source initSingle) })
  | _ => PyM.raise .attributeError

/-- `r.iterator_factory = f`: `Iterative` (fixed.py 152-157) and `Sequential` (278-301), which makes
`items` a tuple. -/
def setFactory (r : Ref) (f : Factory Val) : PyM (World R) Unit := do
  match ((← PyM.get).obj r).node with
  | some .iterative => (iterAttr r).run (Iterative.setFactory f)
  | some (.sequential _) => do
    (seqAttr r).run (Sequential.setFactory f)
    PyM.modify (upd r fun a => { a with node := some (.sequential .other) })
  | _ => PyM.raise .attributeError

/-! ### Reaching the source fields -/

/-- `r.reset_source()` of `CopyFields` (fromfields.py 123-129) and `BasedOnFields` (267-273). -/
def resetSource (str : Val → List Char) (fuel : Nat) (r : Ref) : PyM (World R) Unit := do
  let w ← PyM.get
  let group := sourceGroup (fun g => call str fuel g none) (reset fuel) (seed fuel) w
  match (w.obj r).node with
  | some (.copyFields src single _) => (group src single).resetSource
  | some (.basedOn src single) => (group src single).resetSource
  | _ => PyM.raise .attributeError

/-- `r.seed_source(s)` of `BasedOnFields` (fromfields.py 275-285); `CopyFields` has no such method. -/
def seedSource (str : Val → List Char) (fuel : Nat) (r : Ref) (s : Option Int) :
    PyM (World R) Unit := do
  let w ← PyM.get
  let group := sourceGroup (fun g => call str fuel g none) (reset fuel) (seed fuel) w
  match (w.obj r).node with
  | some (.basedOn src single) => (group src single).seedSource s
  | _ => PyM.raise .attributeError

end World
end Fauxdoc
