import Verif.Spec.Contract
import Verif.Model.Assign
/-
Programs that use some objects, interleaved with other programs that keep away from them.
-/
namespace Fauxdoc
variable {K : Type} [Field K] [LinearOrder K] [FloorRing K] {R : Rng K}

/-- A use of some objects. -/
inductive Act where
  | call (fuel : Nat) (r : Ref) (arg : Option Val)
  | reset (fuel : Nat) (r : Ref)
  | seed (fuel : Nat) (r : Ref) (z : Int)
  | document (fuel : Nat) (fields : Dict Ref)
  | resetFields (fuel : Nat) (fields : Dict Ref)
  | seedFields (fuel : Nat) (z : Int) (fields : Dict Ref)

/-- What a use returns: a value, a document, or nothing. -/
inductive Outcome where
  | value (v : Val)
  | document (d : Dict Val)
  | done
  deriving DecidableEq

/-- The use itself. -/
def Act.run (str : Val → List Char) : Act → PyM (World R) Outcome
  | .call fuel r arg => do return .value (← World.call str fuel r arg)
  | .reset fuel r => do World.reset fuel r; return .done
  | .seed fuel r z => do World.seed fuel r (some z); return .done
  | .document fuel fields => do return .document (← World.document str fuel fields)
  | .resetFields fuel fields => do World.resetFields fuel fields; return .done
  | .seedFields fuel z fields => do World.seedFields fuel (some z) fields; return .done

/-- The objects a use is about are in `P`. -/
def Act.On (P : Ref → Prop) : Act → Prop
  | .call _ r _ | .reset _ r | .seed _ r _ => P r
  | .document _ fields | .resetFields _ fields | .seedFields _ _ fields => ∀ kf ∈ fields, P kf.2

/-- One use after the other, whatever their outcomes: what they return or raise, and the last store. -/
def runActs (str : Val → List Char) : List Act → World R → List (Except Err Outcome) × World R
  | [], w => ([], w)
  | a :: as, w =>
    let o := a.run str w
    let os := runActs str as o.2
    (o.1 :: os.1, os.2)

/-- `P` consists of existing objects, and no object outside `P` has an emitter in `P`. -/
structure Secluded (P : Ref → Prop) (w : World R) : Prop where
  inside : ∀ x, P x → x < w.next
  outside : ∀ x, ¬ P x → ∀ c ∈ (w.obj x).children, ¬ P c

/-- Anything a program can do without touching the objects in `P`, whatever the outcome: build objects
that have no emitters in `P`, use objects outside `P`, and assign to their attributes.  Objects outside
`P` may even read the values of fields in `P`, but the functions that call, reset or seed their source
fields, among them the constructor of `BasedOnFields`, need source fields outside `P`. -/
inductive Foreign (P : Ref → Prop) (str : Val → List Char) (w : World R) : World R → Prop
  | newStatic (v : Val) : Foreign P str w (World.newStatic v w).2
  | newIterative (f : Factory Val) (rac : Bool) : Foreign P str w (World.newIterative f rac w).2
  | newSequential (kind : ItemsKind) (items : List Val) (rac : Bool) :
    Foreign P str w (World.newSequential kind items rac w).2
  | newChoice (kind : ItemsKind) (items : List Val) (weights : Option (List K)) (replace roac : Bool)
    (s : Option Int) (cum : Option (List K)) :
    Foreign P str w (World.newChoice kind items weights replace roac s cum w).2
  | newWord (fuel : Nat) {length alphabet : Ref} (s : Option Int) (h1 : ¬ P length)
    (h2 : ¬ P alphabet) : Foreign P str w (World.newWord fuel length alphabet s w).2
  | newText (fuel : Nat) {numwords word : Ref} {sep : Option Ref} (s : Option Int)
    (h1 : ¬ P numwords) (h2 : ¬ P word) (h3 : ∀ x ∈ sep, ¬ P x) :
    Foreign P str w (World.newText fuel numwords word sep s w).2
  | newWrapOne (fuel : Nat) {source : Ref} (cb : Callback R.G) (s : Option Int) (h1 : ¬ P source) :
    Foreign P str w (World.newWrapOne str fuel source cb s w).2
  | newWrapMany (fuel : Nat) {sources : Dict Ref} (cb : Callback R.G) (s : Option Int)
    (h1 : ∀ ks ∈ sources, ¬ P ks.2) : Foreign P str w (World.newWrapMany str fuel sources cb s w).2
  | newCopyFields (source : List Ref) (single : Bool) (separator : Option (List Char)) :
    Foreign P str w (World.newCopyFields source single separator w).2
  | newBasedOnFields (fuel : Nat) {source : List Ref} (single : Bool) (cb : Callback R.G)
    (s : Option Int) (h1 : ∀ g ∈ source, ¬ P g) :
    Foreign P str w (World.newBasedOnFields str fuel source single cb s w).2
  | newField (fuel : Nat) (name : String) {emitter : Ref} {rep gate : Option Ref} (hide : Bool)
    (s : Option Int) (h1 : ¬ P emitter) (h2 : ∀ x ∈ rep, ¬ P x) (h3 : ∀ x ∈ gate, ¬ P x) :
    Foreign P str w (World.newField fuel name emitter rep gate hide s w).2
  | call (fuel : Nat) {r : Ref} (arg : Option Val) (hr : ¬ P r) :
    Foreign P str w (World.call str fuel r arg w).2
  | reset (fuel : Nat) {r : Ref} (hr : ¬ P r) : Foreign P str w (World.reset fuel r w).2
  | seed (fuel : Nat) {r : Ref} (s : Option Int) (hr : ¬ P r) :
    Foreign P str w (World.seed fuel r s w).2
  | document (fuel : Nat) {fields : Dict Ref} (hf : ∀ kf ∈ fields, ¬ P kf.2) :
    Foreign P str w (World.document str fuel fields w).2
  | resetFields (fuel : Nat) {fields : Dict Ref} (hf : ∀ kf ∈ fields, ¬ P kf.2) :
    Foreign P str w (World.resetFields fuel fields w).2
  | seedFields (fuel : Nat) (s : Option Int) {fields : Dict Ref} (hf : ∀ kf ∈ fields, ¬ P kf.2) :
    Foreign P str w (World.seedFields fuel s fields w).2
  | setRngSeed {r : Ref} (s : Option Int) (hr : ¬ P r) :
    Foreign P str w (w.upd r (Attrs.setSeed s))
  | choiceOp {r : Ref} (op : ChoiceOp K) (hr : ¬ P r) :
    Foreign P str w (World.onChoice r op.run w).2
  | setValue {r : Ref} (v : Val) (hr : ¬ P r) :
    Foreign P str w ((World.staticAttr r).run (Static.setValue v) w).2
  | iterOp {r : Ref} (op : IterOp Val) (hr : ¬ P r) :
    Foreign P str w ((World.iterAttr r).run op.runIter w).2
  | seqOp {r : Ref} (op : IterOp Val) (hr : ¬ P r) :
    Foreign P str w ((World.seqAttr r).run op.runSeq w).2
  | setFactory {r : Ref} (f : Factory Val) (hr : ¬ P r) :
    Foreign P str w (World.setFactory r f w).2
  | setWrapper (fuel : Nat) {r : Ref} (cb : Callback R.G) (hr : ¬ P r) :
    Foreign P str w (World.setWrapper str fuel r cb w).2
  | setAction (fuel : Nat) {r : Ref} (cb : Callback R.G) (hr : ¬ P r)
    (hg : ∀ g ∈ (w.obj r).sources, ¬ P g) : Foreign P str w (World.setAction str fuel r cb w).2
  | setChild {r x : Ref} (label : String) (hr : ¬ P r) (hx : ¬ P x) :
    Foreign P str w (World.setChild r label x w).2
  | setName {r : Ref} (name : String) (hr : ¬ P r) : Foreign P str w (World.setName r name w).2
  | setHide {r : Ref} (hide : Bool) (hr : ¬ P r) : Foreign P str w (World.setHide r hide w).2
  | setSeparator {r : Ref} (separator : Option (List Char)) (hr : ¬ P r) :
    Foreign P str w (World.setSeparator r separator w).2
  | setSourceFields {r : Ref} (source : List Ref) (single : Bool) (hr : ¬ P r) :
    Foreign P str w (World.setSourceFields r source single w).2
  | resetSource (fuel : Nat) {r : Ref} (hr : ¬ P r) (hg : ∀ g ∈ (w.obj r).sources, ¬ P g) :
    Foreign P str w (World.resetSource str fuel r w).2
  | seedSource (fuel : Nat) {r : Ref} (s : Option Int) (hr : ¬ P r)
    (hg : ∀ g ∈ (w.obj r).sources, ¬ P g) : Foreign P str w (World.seedSource str fuel r s w).2

/-- From the store `w` to the store `v` by uses of objects in `P`, with their outcomes, and steps that
do not touch `P`, in any order. -/
inductive Woven (P : Ref → Prop) (str : Val → List Char) :
    World R → List Act → List (Except Err Outcome) → World R → Prop
  | nil (w : World R) : Woven P str w [] [] w
  | own {w v : World R} {a : Act} {as : List Act} {os : List (Except Err Outcome)} (ha : a.On P)
    (h : Woven P str (a.run str w).2 as os v) :
    Woven P str w (a :: as) ((a.run str w).1 :: os) v
  | other {w u v : World R} {as : List Act} {os : List (Except Err Outcome)}
    (h : Foreign P str w u) (h' : Woven P str u as os v) : Woven P str w as os v

/-- The uses of two programs in some order: `true` marks those of the first. -/
def runTwo (str : Val → List Char) :
    List (Bool × Act) → World R → List (Bool × Except Err Outcome) × World R
  | [], w => ([], w)
  | a :: as, w =>
    let o := a.2.run str w
    let os := runTwo str as o.2
    ((a.1, o.1) :: os.1, os.2)

/-- What belongs to one of the programs. -/
def sideOf {α : Type} (b : Bool) (l : List (Bool × α)) : List α :=
  (l.filter fun x => x.1 = b).map (·.2)

end Fauxdoc
