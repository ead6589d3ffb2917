import Verif.Spec.DocRun
/-
How many documents have a property, as a number.
-/
namespace Fauxdoc

open Classical in
/-- How many of the documents have the property. -/
noncomputable def howMany (P : Dict Val → Prop) (docs : List (Dict Val)) : Nat :=
  docs.countP fun d => decide (P d)

end Fauxdoc
