import Verif.Spec.Choice
/-
What a user sees who changes the list that a `Choice` was given (`em.items.append(x)`, or the same
on their own reference): `_items` is that very list (mixins.py 87 and 90-92), so only the attribute
`items` of the model changes.
-/
namespace Fauxdoc
variable {K : Type} [Field K] [LinearOrder K] [FloorRing K] {α : Type} {R : Rng K}

/-- The emitter after its list has become `l`. -/
def withList (s : ChoiceSt α R × Nat) (l : List α) : ChoiceSt α R × Nat :=
  ({ s.1 with items := l }, s.2)

/-- Calls, one after the other: `em()` or `em(n)`. -/
def onlyCalls (ns : List (Option Nat)) : List (ChoiceOp K) := ns.map .call

/-- The weights fit a list: none, or one for each item. -/
def WeightsFit (w : Option (List K)) (l : List α) : Prop := ∀ ws, w = some ws → ws.length = l.length

end Fauxdoc
