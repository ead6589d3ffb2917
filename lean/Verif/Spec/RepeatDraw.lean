import Verif.Spec.TextDraw
import Verif.Spec.Copies
/-
Fields with a random number of values chosen at random.
-/
namespace Fauxdoc
variable {K : Type} [Field K] [LinearOrder K] [FloorRing K] {R : Rng K}

/-- `f` is a field that always has values.  Their number comes from `rp`, a `Choice` among `counts` with
weights `wc`, and the values from `e`, another `Choice` among `items` with weights `ws`; both are with
replacement. -/
structure MultiField (w : World R) (f e rp g : Ref) (counts : List Nat) (wc : List K) (items : List Val)
    (ws : List K) : Prop where
  node : ∃ n hd, (w.obj f).node = some (.field n e rp g hd)
  gate : (w.obj g).node = some .static ∧ (w.obj g).static.value.truthy = true
  apart : e ≠ rp
  number : Picks (counts.map fun c : Nat => .int c) wc (w.obj rp)
  values : Picks items ws (w.obj e)
  roac : (w.obj e).choice.roac = false

/-- The calls returned the lists `ls`. -/
def GaveLists (os : List (Except Err Val)) (ls : List (List Val)) : Prop :=
  os = ls.map fun l => .ok (.list l)

/-- What `n` calls of the field `f` give. -/
def World.fieldCalls (str : Val → List Char) (fuel : Nat) (f : Ref) (n : Nat) (w : World R) :
    List (Except Err Val) :=
  World.outcomes str fuel f (List.replicate n none) w

end Fauxdoc
