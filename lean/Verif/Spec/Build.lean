import Verif.Spec.Contract
import Verif.Model.Assign
/-
Everything a program can do with the library: build objects from other objects, use them and assign
to their attributes.
-/
namespace Fauxdoc
variable {K : Type} [Field K] [LinearOrder K] [FloorRing K] {R : Rng K}

/-- The stores a program can bring about, whatever exceptions it meets on the way, if every object
`r` is only given values in `V r` to emit and callbacks that return such values, emitters of word
lengths and of repeats are only given non-negative numbers, emitters of word counts positive ones, no
emitter is called with a negative number, and no assignment of `replace = False` to a `Choice` fails.

Assigning another child emitter requires that the object fits its children as `Attrs.Typed` says, just
as the constructors require it.

Without `sep_emitter`, `repeat` or `gate` the constructors of `Text` and `Field` first construct a
`Static`. -/
inductive Built (V : Ref → Val → Prop) (str : Val → List Char) : World R → Prop
  | empty (w : World R) (h : ∀ r, (w.obj r).node = none) : Built V str w
  | newStatic {w : World R} (h : Built V str w) (v : Val) (hv : V w.next v) :
    Built V str (World.newStatic v w).2
  | newIterative {w : World R} (h : Built V str w) (f : Factory Val) (rac : Bool)
    (hv : f.src.All (V w.next)) : Built V str (World.newIterative f rac w).2
  | newSequential {w : World R} (h : Built V str w) (kind : ItemsKind) (items : List Val) (rac : Bool)
    (hv : ∀ x ∈ items, V w.next x) : Built V str (World.newSequential kind items rac w).2
  | newChoice {w : World R} (h : Built V str w) (kind : ItemsKind) (items : List Val)
    (weights : Option (List K)) (replace roac : Bool) (s : Option Int) (cum : Option (List K))
    (hv : (∃ r, (World.newChoice kind items weights replace roac s cum w).1 = .ok r) →
      ∀ x ∈ items, V w.next x) :
    Built V str (World.newChoice kind items weights replace roac s cum w).2
  | newWord {w : World R} (h : Built V str w) (fuel : Nat) (length alphabet : Ref) (s : Option Int)
    (hl : ∀ v, V length v → v.AtLeast 0)
    (hv : ∀ x, Spelled (V length) (V alphabet) x → V w.next (.str x)) :
    Built V str (World.newWord fuel length alphabet s w).2
  | newText {w : World R} (h : Built V str w) (fuel : Nat) (numwords word sep : Ref) (s : Option Int)
    (hn : ∀ v, V numwords v → v.AtLeast 1)
    (hv : ∀ x, Rendered (V numwords) (V word) (V sep) x → V w.next (.str x)) :
    Built V str (World.newText fuel numwords word (some sep) s w).2
  | newWrapOne {w : World R} (h : Built V str w) (fuel : Nat) (source : Ref) (cb : Callback R.G)
    (s : Option Int) (hv : ∀ v, V source v → cb.Yields [v] [] (V w.next)) :
    Built V str (World.newWrapOne str fuel source cb s w).2
  | newWrapMany {w : World R} (h : Built V str w) (fuel : Nat) (sources : Dict Ref)
    (cb : Callback R.G) (s : Option Int)
    (hv : ∀ d : Dict Val, List.Forall₂ (fun ks kv => kv.1 = ks.1 ∧ V ks.2 kv.2) sources d →
      cb.Yields [] d (V w.next)) :
    Built V str (World.newWrapMany str fuel sources cb s w).2
  | newCopyFields {w : World R} (h : Built V str w) (source : List Ref) (single : Bool)
    (separator : Option (List Char)) (hv : ∀ v, V w.next v) :
    Built V str (World.newCopyFields source single separator w).2
  | newBasedOnFields {w : World R} (h : Built V str w) (fuel : Nat) (source : List Ref)
    (single : Bool) (cb : Callback R.G) (s : Option Int)
    (hv : ∀ args kwargs, cb.Yields args kwargs (V w.next)) :
    Built V str (World.newBasedOnFields str fuel source single cb s w).2
  | newField {w : World R} (h : Built V str w) (fuel : Nat) (name : String) (emitter rep gate : Ref)
    (hide : Bool) (s : Option Int) (hr : ∀ v, V rep v → v.AtLeast 0) (hv : ∀ v, V w.next v) :
    Built V str (World.newField fuel name emitter (some rep) (some gate) hide s w).2
  | call {w : World R} (h : Built V str w) (fuel : Nat) (r : Ref) (arg : Option Val)
    (ha : ArgOK arg) : Built V str (World.call str fuel r arg w).2
  | reset {w : World R} (h : Built V str w) (fuel : Nat) (r : Ref) :
    Built V str (World.reset fuel r w).2
  | seed {w : World R} (h : Built V str w) (fuel : Nat) (r : Ref) (s : Option Int) :
    Built V str (World.seed fuel r s w).2
  | document {w : World R} (h : Built V str w) (fuel : Nat) (fields : Dict Ref) :
    Built V str (World.document str fuel fields w).2
  | resetFields {w : World R} (h : Built V str w) (fuel : Nat) (fields : Dict Ref) :
    Built V str (World.resetFields fuel fields w).2
  | seedFields {w : World R} (h : Built V str w) (fuel : Nat) (s : Option Int) (fields : Dict Ref) :
    Built V str (World.seedFields fuel s fields w).2
  | setRngSeed {w : World R} (h : Built V str w) (r : Ref) (s : Option Int) :
    Built V str (w.upd r (Attrs.setSeed s))
  | choiceOp {w : World R} (h : Built V str w) (r : Ref) (k : ItemsKind)
    (hk : (w.obj r).node = some (.choice k)) (op : ChoiceOp K)
    (hok : op = .setReplace false → ∃ l, (World.onChoice r op.run w).1 = .ok l) :
    Built V str (World.onChoice r op.run w).2
  | setValue {w : World R} (h : Built V str w) (r : Ref) (v : Val) (hv : V r v) :
    Built V str ((World.staticAttr r).run (Static.setValue v) w).2
  | iterOp {w : World R} (h : Built V str w) (r : Ref) (op : IterOp Val)
    (hn : ∀ n, op ≠ .call n) (hf : ∀ f, op ≠ .setFactory f) :
    Built V str ((World.iterAttr r).run op.runIter w).2
  | seqOp {w : World R} (h : Built V str w) (r : Ref) (op : IterOp Val)
    (hn : ∀ n, op ≠ .call n) (hf : ∀ f, op ≠ .setFactory f) :
    Built V str ((World.seqAttr r).run op.runSeq w).2
  | setFactory {w : World R} (h : Built V str w) (r : Ref) (f : Factory Val)
    (hv : f.src.All (V r)) : Built V str (World.setFactory r f w).2
  | setWrapper {w : World R} (h : Built V str w) (fuel : Nat) (r : Ref) (cb : Callback R.G)
    (h1 : ∀ s, (w.obj r).node = some (.wrapOne s) → ∀ v, V s v → cb.Yields [v] [] (V r))
    (h2 : ∀ ss, (w.obj r).node = some (.wrapMany ss) → ∀ d : Dict Val,
      List.Forall₂ (fun ks kv => kv.1 = ks.1 ∧ V ks.2 kv.2) ss d → cb.Yields [] d (V r)) :
    Built V str (World.setWrapper str fuel r cb w).2
  | setAction {w : World R} (h : Built V str w) (fuel : Nat) (r : Ref) (cb : Callback R.G)
    (hv : ∀ args kwargs, cb.Yields args kwargs (V r)) :
    Built V str (World.setAction str fuel r cb w).2
  | setChild {w : World R} (h : Built V str w) (r : Ref) (label : String) (x : Ref)
    (hv : ((World.setChild r label x w).2.obj r).Typed V r) :
    Built V str (World.setChild r label x w).2
  | setName {w : World R} (h : Built V str w) (r : Ref) (name : String) :
    Built V str (World.setName r name w).2
  | setHide {w : World R} (h : Built V str w) (r : Ref) (hide : Bool) :
    Built V str (World.setHide r hide w).2
  | setSeparator {w : World R} (h : Built V str w) (r : Ref) (separator : Option (List Char)) :
    Built V str (World.setSeparator r separator w).2
  | setSourceFields {w : World R} (h : Built V str w) (r : Ref) (source : List Ref) (single : Bool) :
    Built V str (World.setSourceFields r source single w).2

end Fauxdoc
