import Verif.Spec.Text
import Mathlib.Data.Finset.Defs
/-
Texts that can be taken apart.
-/
namespace Fauxdoc

/-- The words consist of letters and the separators of other characters, and none is empty. -/
structure Readable (letter : Char → Prop) (W S : Finset (List Char)) : Prop where
  words : ∀ w ∈ W, w ≠ [] ∧ ∀ c ∈ w, letter c
  seps : ∀ s ∈ S, s ≠ [] ∧ ∀ c ∈ s, ¬ letter c

end Fauxdoc
