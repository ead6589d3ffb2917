import Verif.Spec.Contract
/-
Programs that build objects from other objects and use them, but assign to no attribute; what the
objects they build can emit, and how much of it `num_unique_values` promises.
-/
namespace Fauxdoc
variable {K : Type} [Field K] [LinearOrder K] [FloorRing K] {R : Rng K}

/-- The iterator can yield `x`. -/
def Src.Has {α : Type} (x : α) : Src α → Prop
  | .fin l => x ∈ l
  | .inf f => ∃ k, x = f k

/-- The class computes its values by running other code, so that they can be anything. -/
def Attrs.isOpen (a : Attrs R) : Bool :=
  match a.node with
  | some (.wrapOne _) | some (.wrapMany _) | some (.copyFields ..) | some (.basedOn ..)
  | some (.field ..) => true
  | _ => false

/-- What an object can emit, given what the emitters it draws from can emit: one of its items; a word
of as many characters as some length says (or, if `None` is among the lengths, the members of one
value of the alphabet); a text of as many words as some count says. -/
inductive Emits (w : World R) : Ref → Val → Prop
  | item {r : Ref} {k : ItemsKind} {l : List Val} {x : Val} (hi : (w.obj r).items = some (k, l))
    (hx : x ∈ l) : Emits w r x
  | iter {r : Ref} {x : Val} (hn : (w.obj r).node = some .iterative)
    (hx : (w.obj r).iter.factory.src.Has x) : Emits w r x
  | word {r l c : Ref} {k : Val} {cs : List (List Char)} (hn : (w.obj r).node = some (.word l c))
    (hk : Emits w l k) (hl : k.asInt = some (cs.length : Int)) (hc : ∀ x ∈ cs, Emits w c (.str x)) :
    Emits w r (.str cs.flatten)
  | wordNone {r l c : Ref} {v : Val} {cs : List (List Char)}
    (hn : (w.obj r).node = some (.word l c)) (hk : Emits w l .none) (hv : Emits w c v)
    (he : v.elems = .ok (cs.map Val.str)) : Emits w r (.str cs.flatten)
  | text {r n wd sp : Ref} {k : Val} {ws ss : List (List Char)} {t : List Char}
    (hn : (w.obj r).node = some (.text n wd sp)) (hk : Emits w n k)
    (hl : k.asInt = some (ws.length : Int)) (hw : ∀ x ∈ ws, Emits w wd (.str x))
    (hs : ∀ x ∈ ss, Emits w sp (.str x)) (ht : TextOf ws ss t) : Emits w r (.str t)
  | any {r : Ref} (ho : (w.obj r).isOpen = true) (x : Val) : Emits w r x

/-- One step of a program, whatever its outcome.  Emitters of word lengths and of repeats emit no
negative numbers, emitters of word counts only positive ones, and no emitter is called with a negative
number.

Simplification: without `sep_emitter`, `repeat` or `gate` the constructors of `Text` and `Field` first
construct a `Static`, which is a step of its own here. -/
inductive Step (str : Val → List Char) (w : World R) : World R → Prop
  | newStatic (v : Val) : Step str w (World.newStatic v w).2
  | newIterative (f : Factory Val) (rac : Bool) : Step str w (World.newIterative f rac w).2
  | newSequential (kind : ItemsKind) (items : List Val) (rac : Bool) :
    Step str w (World.newSequential kind items rac w).2
  | newChoice (kind : ItemsKind) (items : List Val) (weights : Option (List K)) (replace roac : Bool)
    (s : Option Int) (cum : Option (List K)) :
    Step str w (World.newChoice kind items weights replace roac s cum w).2
  | newWord (fuel : Nat) {length alphabet : Ref} (s : Option Int) (h1 : length < w.next)
    (h2 : alphabet < w.next) (hl : ∀ v, Emits w length v → v.AtLeast 0) :
    Step str w (World.newWord fuel length alphabet s w).2
  | newText (fuel : Nat) {numwords word sep : Ref} (s : Option Int) (h1 : numwords < w.next)
    (h2 : word < w.next) (h3 : sep < w.next) (hn : ∀ v, Emits w numwords v → v.AtLeast 1) :
    Step str w (World.newText fuel numwords word (some sep) s w).2
  | newWrapOne (fuel : Nat) {source : Ref} (cb : Callback R.G) (s : Option Int)
    (h1 : source < w.next) : Step str w (World.newWrapOne str fuel source cb s w).2
  | newWrapMany (fuel : Nat) {sources : Dict Ref} (cb : Callback R.G) (s : Option Int)
    (h1 : ∀ ks ∈ sources, ks.2 < w.next) : Step str w (World.newWrapMany str fuel sources cb s w).2
  | newCopyFields {source : List Ref} (single : Bool) (separator : Option (List Char))
    (h1 : ∀ g ∈ source, g < w.next) : Step str w (World.newCopyFields source single separator w).2
  | newBasedOnFields (fuel : Nat) {source : List Ref} (single : Bool) (cb : Callback R.G)
    (s : Option Int) (h1 : ∀ g ∈ source, g < w.next) :
    Step str w (World.newBasedOnFields str fuel source single cb s w).2
  | newField (fuel : Nat) (name : String) {emitter rep gate : Ref} (hide : Bool) (s : Option Int)
    (h1 : emitter < w.next) (h2 : rep < w.next) (h3 : gate < w.next)
    (hr : ∀ v, Emits w rep v → v.AtLeast 0) :
    Step str w (World.newField fuel name emitter (some rep) (some gate) hide s w).2
  | call (fuel : Nat) (r : Ref) (arg : Option Val) (ha : ArgOK arg) :
    Step str w (World.call str fuel r arg w).2
  | reset (fuel : Nat) (r : Ref) : Step str w (World.reset fuel r w).2
  | seed (fuel : Nat) (r : Ref) (s : Option Int) : Step str w (World.seed fuel r s w).2
  | document (fuel : Nat) (fields : Dict Ref) : Step str w (World.document str fuel fields w).2
  | resetFields (fuel : Nat) (fields : Dict Ref) : Step str w (World.resetFields fuel fields w).2
  | seedFields (fuel : Nat) (s : Option Int) (fields : Dict Ref) :
    Step str w (World.seedFields fuel s fields w).2

/-- Any number of steps. -/
inductive Steps (str : Val → List Char) (w : World R) : World R → Prop
  | start : Steps str w w
  | step {v u : World R} (h : Steps str w v) (h' : Step str v u) : Steps str w u

/-- There is no object. -/
def World.Blank (w : World R) : Prop := ∀ r, w.obj r = World.blank

end Fauxdoc
