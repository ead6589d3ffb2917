import Verif.Spec.Build
/-
A field across a set of documents.
-/
namespace Fauxdoc
variable {K : Type} [Field K] [LinearOrder K] [FloorRing K] {R : Rng K}

/-- The values of the data emitter that a value of a field stands for: none if the gate was closed, one
without a repeat, and otherwise as many as there are in the list. -/
inductive Block : Val → List Val → Prop
  | closed : Block .none []
  | one (x : Val) : Block x [x]
  | many (l : List Val) : Block (.list l) l

/-- Among the fields, only the one named `name`, the object `f`, uses the emitter `e`, and it does so
only for its values. -/
structure OnlyUser (w : World R) (fields : Dict Ref) (name : String) (f e : Ref) : Prop where
  field : (name, f) ∈ fields
  node : ∃ n rp g hd, (w.obj f).node = some (.field n e rp g hd) ∧ ¬ Below w rp e ∧ ¬ Below w g e
  others : ∀ kg ∈ fields, kg.1 ≠ name → ¬ Below w kg.2 e

/-- Making documents one after the other, with any other use of objects above none of which is `e` in
between.  The list has what came of each document and the value of `f` afterwards (`f.previous`). -/
inductive DocHist (str : Val → List Char) (fields : Dict Ref) (f e : Ref) :
    World R → List (Except Err (Dict Val) × Val) → World R → Prop
  | nil (w) : DocHist str fields f e w [] w
  | doc {w : World R} {ds w'} (fuel : Nat)
    (h : DocHist str fields f e (World.document str fuel fields w).2 ds w') :
    DocHist str fields f e w (((World.document str fuel fields w).1,
      ((World.document str fuel fields w).2.obj f).cache) :: ds) w'
  | call {w : World R} {ds w'} (fuel : Nat) (r : Ref) (arg : Option Val) (ha : ArgOK arg)
    (hr : ¬ Below w r e) (h : DocHist str fields f e (World.call str fuel r arg w).2 ds w') :
    DocHist str fields f e w ds w'
  | reset {w : World R} {ds w'} (fuel : Nat) (r : Ref) (hr : ¬ Below w r e)
    (h : DocHist str fields f e (World.reset fuel r w).2 ds w') : DocHist str fields f e w ds w'
  | seed {w : World R} {ds w'} (fuel : Nat) (r : Ref) (s : Option Int) (hr : ¬ Below w r e)
    (h : DocHist str fields f e (World.seed fuel r s w).2 ds w') : DocHist str fields f e w ds w'

/-- The documents and what they took from the data emitter: each that could be made shows its part in
the value of the field. -/
def Shows (name : String) (hide : Bool) (d : Except Err (Dict Val) × Val) (b : List Val) : Prop :=
  ∀ doc, d.1 = .ok doc → Block d.2 b ∧ (hide = false → doc.get? name = some d.2)

/-- The single values in a value of a field: none in `None`, the members of a list, or the value. -/
def Val.parts : Val → List Val
  | .none => []
  | .list l => l
  | v => [v]

/-- Neither `None` nor a list. -/
def Val.Plain : Val → Prop
  | .none => False
  | .list _ => False
  | _ => True

/-- All single values that the field has in documents that were made, in order. -/
def made (ds : List (Except Err (Dict Val) × Val)) : List Val :=
  ds.flatMap fun d => match d.1 with
    | .ok _ => d.2.parts
    | .error _ => []

/-- Every document could be made. -/
def AllMade (ds : List (Except Err (Dict Val) × Val)) : Prop := ∀ d ∈ ds, ∃ doc, d.1 = .ok doc

end Fauxdoc
