import Verif.Spec.World
/-
Fields that are filled by chance.
-/
namespace Fauxdoc
variable {K : Type} [Field K] [LinearOrder K] [FloorRing K] {R : Rng K}

/-- A `Choice` among several items with weights, with replacement. -/
structure Picks (items : List Val) (ws : List K) (a : Attrs R) : Prop where
  node : ∃ k, a.node = some (.choice k)
  among : a.choice.items = items
  weights : a.choice.weights = some ws
  cumWeights : a.choice.cumWeights = some (accumulate ws)
  replace : a.choice.replace = true
  same : ws.length = items.length
  several : items.length ≠ 1
  total : 0 < ws.sum

/-- What `chance(p)` returns: a choice of `True` and `False` with weights `p` and `1 - p`. -/
abbrev Chance (p : K) (a : Attrs R) : Prop := Picks [.bool true, .bool false] [p, 1 - p] a

/-- The visible field `f` called `name` of a schema has the gate `g`, a `chance(p)` that is used for
nothing else in the schema; its emitter is `e` and its repeat emitter `rp`. -/
structure GateOf (w : World R) (fields : Dict Ref) (name : String) (f e rp g : Ref) (p : K) :
    Prop where
  keys : fields.keys.Nodup
  field : (name, f) ∈ fields
  node : ∃ n, (w.obj f).node = some (.field n e rp g false)
  chance : Chance p (w.obj g)
  value : ¬ Below w e g
  rep : ¬ Below w rp g
  others : ∀ kf ∈ fields, kf.1 ≠ name → ¬ Below w kf.2 g

/-- No call of the emitter returns `None`, whatever its generators and positions. -/
def NeverNone (str : Val → List Char) (w : World R) (e : Ref) : Prop :=
  ∀ fuel arg (v : World R), (∀ x, (v.obj x).shape = (w.obj x).shape) →
    (World.call str fuel e arg v).1 ≠ .ok .none

/-- The document has a value for the field. -/
def Filled (d : Dict Val) (name : String) : Prop := ∃ x, d.get? name = some x ∧ x ≠ .none

/-- The generator of the `Choice` object `r` is in the state `g`. -/
def World.withGen (r : Ref) (g : R.G) (w : World R) : World R :=
  w.upd r fun a => { a with choice := { a.choice with rng := g } }

end Fauxdoc
