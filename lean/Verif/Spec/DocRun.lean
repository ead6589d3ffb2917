import Verif.Spec.FieldDraw
import Mathlib.Data.Real.Basic
/-
How many documents have a property.
-/
namespace Fauxdoc

open Classical in
/-- How many of the documents have the property, as a share of their number. -/
noncomputable def shareWhere (P : Dict Val → Prop) (docs : List (Dict Val)) : ℝ :=
  (docs.countP fun d => decide (P d) : ℝ) / docs.length

end Fauxdoc
