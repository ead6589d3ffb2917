import Verif.Spec.LiveSchema
/-
Several schemas.
-/
namespace Fauxdoc
variable {ι σ : Type}

/-- The action neither addresses the schema `s` nor the map `r`: it does not set, add to or replace the
fields of `s`, does not change the map `r`, and does not make `r` the map of another schema. -/
def SchemaAct.Foreign (s r : Nat) : SchemaAct ι σ → Prop
  | .setFields t _ => t ≠ s
  | .addFields t _ => t ≠ s
  | .assign t m => t ≠ s ∧ m ≠ r
  | .edit m _ => m ≠ r
  | _ => True

/-- The action does not replace the map of the schema `s`. -/
def SchemaAct.Keeps (s : Nat) : SchemaAct ι σ → Prop
  | .setFields t _ => t ≠ s
  | .assign t _ => t ≠ s
  | _ => True

/-- No other schema has the map of `s`. -/
def SchemaHeap.Alone (h : SchemaHeap ι σ) (s : Nat) : Prop := ∀ t, t ≠ s → h.fields t ≠ h.fields s

end Fauxdoc
