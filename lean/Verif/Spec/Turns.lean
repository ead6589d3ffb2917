import Verif.Spec.Fixed
/-
Items that are taken in turn.
-/
namespace Fauxdoc
variable {α : Type} [DecidableEq α]

/-- How often each item is among the values: as often as it is among the items, for every time the items
fit in; the items of a last, unfinished round may or may not be there once more. -/
def FairTurns (items vs : List α) : Prop :=
  ∀ x, vs.length / items.length * items.count x ≤ vs.count x ∧
    vs.count x ≤ (vs.length / items.length + 1) * items.count x ∧
    (items.length ∣ vs.length → vs.count x = vs.length / items.length * items.count x)

end Fauxdoc
