import Verif.Model.World
/-
Notions used to state properties of whole object graphs.
-/
namespace Fauxdoc
variable {K : Type} [Field K] [LinearOrder K] [FloorRing K] {R : Rng K}

/-- `x` is `r` or an emitter below it: reachable by going from parents to their child emitters. -/
inductive Below (w : World R) : Ref → Ref → Prop
  | self (r : Ref) : Below w r r
  | step {r c x : Ref} (hc : c ∈ (w.obj r).children) (h : Below w c x) : Below w r x

/-- The configuration of a `Choice`: everything but the state of its generator and, when it draws
without replacement, its progress through the shuffled items. -/
def ChoiceSt.config {α : Type} (c : ChoiceSt α R) : ChoiceSt α R :=
  if c.replace then { c with rng := R.ofSeed 0 }
  else { c with shuffled := [], shuffledIndex := none, numUniqueItems := 0, rng := R.ofSeed 0 }

/-- The configuration of an object: everything but generator states, iterator positions, progress
through shuffled items, and a field's last value.  (The generators of `Word`, `Text` and `Field`
objects count as configuration: only their children's are used.) -/
def Attrs.config (a : Attrs R) : Attrs R :=
  match a.node with
  | some (.choice _) => { a with choice := a.choice.config }
  | some .iterative => { a with iter := { a.iter with cur := .fin [] } }
  | some (.sequential _) => { a with seq := { a.seq with it := { a.seq.it with cur := .fin [] } } }
  | some (.wrapOne _) | some (.wrapMany _) | some (.basedOn ..) => { a with rng := R.ofSeed 0 }
  | some (.field ..) => { a with cache := .none }
  | _ => a

/-- All objects have the same configuration in both stores. -/
def SameConfig (w v : World R) : Prop := ∀ r, (v.obj r).config = (w.obj r).config

/-- The `Choice` has the seed `s` and is in the state that a generator freshly seeded with `s`
leads to: when drawing without replacement the items have been shuffled with that generator, and
none has been handed out. -/
def ChoiceSt.Fresh {α : Type} (s : Int) (c : ChoiceSt α R) : Prop :=
  c.rngSeed = some s ∧
  if c.replace then c.rng = R.ofSeed s
  else ∃ order : List Nat,
    weightedShuffle R c.items.length
        (match c.weights with
          | none => List.replicate c.items.length 1
          | some ws => if ws.isEmpty then List.replicate c.items.length 1 else ws)
        none (R.ofSeed s) = (.ok order, c.rng) ∧
    c.shuffled = Choice.pick c.items order ∧ c.shuffledIndex = some 0 ∧
    c.numUniqueItems = c.items.length

/-- If the object uses randomness, it has the seed `s`, and unless that is `None` its generator is
freshly seeded with it. -/
def Attrs.Seeded (s : Option Int) (a : Attrs R) : Prop :=
  match a.node with
  | some (.choice _) => a.choice.rngSeed = s ∧ ∀ z, s = some z → a.choice.Fresh z
  | some (.word ..) | some (.text ..) | some (.wrapOne _) | some (.wrapMany _) | some (.basedOn ..)
  | some (.field ..) => a.seed = s ∧ ∀ z, s = some z → a.rng = R.ofSeed z
  | _ => True

/-- When drawing without replacement, all items are shuffled and none has been handed out. -/
def ChoiceSt.Rewound {α : Type} (c : ChoiceSt α R) : Prop :=
  c.replace = false →
    c.shuffledIndex = some 0 ∧ c.shuffled.Perm c.items ∧ c.numUniqueItems = c.items.length

/-- Nothing has been handed out since the last reset: iterators are at their start, items to draw
without replacement are complete, and a field has no last value. -/
def Attrs.Rewound (a : Attrs R) : Prop :=
  match a.node with
  | some (.choice _) => a.choice.Rewound
  | some .iterative => a.iter.cur = .fin []
  | some (.sequential _) => a.seq.it.cur = .fin []
  | some (.field ..) => a.cache = .none
  | _ => True

/-- What resetting and seeding leave alone: everything but seeds, generators, iterator positions,
shuffled items, and last values. -/
def Attrs.shape (a : Attrs R) : Attrs R :=
  match a.node with
  | some (.choice _) => { a with choice := { a.choice.config with rngSeed := none } }
  | some .iterative => { a with iter := { a.iter with cur := .fin [] } }
  | some (.sequential _) => { a with seq := { a.seq with it := { a.seq.it with cur := .fin [] } } }
  | some (.word ..) | some (.text ..) | some (.wrapOne _) | some (.wrapMany _) | some (.basedOn ..) =>
    { a with seed := none, rng := R.ofSeed 0 }
  | some (.field ..) => { a with seed := none, rng := R.ofSeed 0, cache := .none }
  | _ => a

/-- The outcomes of `k` successive calls of a schema. -/
def World.documents (str : Val → List Char) (fuel : Nat) (fields : Dict Ref) :
    Nat → World R → List (Except Err (Dict Val))
  | 0, _ => []
  | k + 1, w => (World.document str fuel fields w).1 ::
      World.documents str fuel fields k (World.document str fuel fields w).2

/-- One use of some object, whatever its outcome. -/
inductive Use (str : Val → List Char) (w : World R) : World R → Prop
  | call (fuel : Nat) (r : Ref) (arg : Option Val) : Use str w (World.call str fuel r arg w).2
  | reset (fuel : Nat) (r : Ref) : Use str w (World.reset fuel r w).2
  | document (fuel : Nat) (fields : Dict Ref) : Use str w (World.document str fuel fields w).2
  | resetFields (fuel : Nat) (fields : Dict Ref) : Use str w (World.resetFields fuel fields w).2

/-- Any number of uses. -/
inductive History (str : Val → List Char) (w : World R) : World R → Prop
  | start : History str w w
  | use {v u : World R} (h : History str w v) (h' : Use str v u) : History str w u

/-- How far an object that goes through its values in order has got. -/
def Attrs.position (a : Attrs R) : Option (Src Val) :=
  match a.node with
  | some .iterative => some a.iter.cur
  | some (.sequential _) => some a.seq.it.cur
  | _ => none

/-- The object is a field. -/
def Attrs.isField (a : Attrs R) : Bool :=
  match a.node with
  | some (.field ..) => true
  | _ => false

/-- Whatever source fields the emitters of a field read come before it in the schema. -/
def SourcesFirst (w : World R) (fields : Dict Ref) : Prop :=
  ∀ pre k f post, fields = pre ++ (k, f) :: post → ∀ x, Below w f x → ∀ g ∈ (w.obj x).sources,
    ∃ kf ∈ pre, kf.2 = g

/-- One use or seeding of some object, whatever its outcome. -/
inductive UseOrSeed (str : Val → List Char) (w : World R) : World R → Prop
  | use {v : World R} (h : Use str w v) : UseOrSeed str w v
  | seed (fuel : Nat) (r : Ref) (s : Option Int) : UseOrSeed str w (World.seed fuel r s w).2
  | seedFields (fuel : Nat) (s : Option Int) (fields : Dict Ref) :
    UseOrSeed str w (World.seedFields fuel s fields w).2

/-- Any number of uses and seedings. -/
inductive LongHistory (str : Val → List Char) (w : World R) : World R → Prop
  | start : LongHistory str w w
  | use {v u : World R} (h : LongHistory str w v) (h' : UseOrSeed str v u) : LongHistory str w u

end Fauxdoc
