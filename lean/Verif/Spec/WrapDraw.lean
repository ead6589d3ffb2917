import Verif.Spec.TextDraw
import Verif.Spec.Copies
import Verif.Spec.Wrappers
/-
Wrappers of emitters that choose at random.
-/
namespace Fauxdoc
variable {K : Type} [Field K] [LinearOrder K] [FloorRing K] {R : Rng K}

/-- `r` is a `WrapMany` of two sources `a` and `b`, labelled `ka` and `kb`, each a `Choice` with weights
and with replacement.  Its callback, which does not ask for a generator, makes `f x y` from `x` and
`y`. -/
structure PairWrap (w : World R) (r a b : Ref) (ka kb : String) (items : List Val) (wa : List K)
    (items' : List Val) (wb : List K) (cb : Callback R.G) (f : Val → Val → Val) : Prop where
  node : (w.obj r).node = some (.wrapMany [(ka, a), (kb, b)])
  wrapper : (w.obj r).wrapper = some cb
  apart : a ≠ b
  labels : ka ≠ "self" ∧ kb ≠ "self"
  first : Picks items wa (w.obj a)
  second : Picks items' wb (w.obj b)
  roac : (w.obj a).choice.roac = false ∧ (w.obj b).choice.roac = false
  noRng : ¬ cb.DeclaresRng
  makes : ∀ x ∈ items, ∀ y ∈ items', cb.invoke [] [(ka, x), (kb, y)] = .ok (f x y)

/-- `r` is a `WrapOne` of `a`, a `Choice` with weights and with replacement.  Its callback asks for a
generator, draws one number `u` from it and makes `f x u`. -/
structure DrawWrap (w : World R) (r a : Ref) (items : List Val) (ws : List K) (cb : Callback R.G)
    (f : Val → K → Val) : Prop where
  node : (w.obj r).node = some (.wrapOne a)
  wrapper : (w.obj r).wrapper = some cb
  source : Picks items ws (w.obj a)
  roac : (w.obj a).choice.roac = false
  rng : cb.DeclaresRng
  makes : ∀ x ∈ items, ∀ g, cb.invokeRng [x] [] g = (.ok (f x (R.random g).1), (R.random g).2)

/-- The argument of a call for one value (`none`) or for `n` values. -/
def wantedArg (n : Option Nat) : Option Val := n.map fun n : Nat => .int n

/-- All values that the calls returned, in order. -/
def returned : List (Option Nat) → List (Except Err Val) → List Val
  | none :: ns, .ok v :: os => v :: returned ns os
  | some _ :: ns, .ok (.list l) :: os => l ++ returned ns os
  | _ :: ns, _ :: os => returned ns os
  | _, _ => []

/-- How many values the calls ask for. -/
def askedFor (ns : List (Option Nat)) : Nat := (ns.map fun n => n.getD 1).sum

/-- The function tells all pairs of items apart. -/
def TellsApart (f : Val → Val → Val) (items items' : List Val) : Prop :=
  ∀ x ∈ items, ∀ y ∈ items', ∀ x' ∈ items, ∀ y' ∈ items', f x y = f x' y' → x = x' ∧ y = y'

end Fauxdoc
