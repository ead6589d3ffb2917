import Verif.Model.PySet
import Mathlib.Data.Finset.Card
/-
What equality and hashes are expected to be.
-/
namespace Fauxdoc

/-- The conventions of the Python language reference for `__eq__` and `__hash__`: equality is an
equivalence, and equal values have equal hashes. -/
class LawfulPyEq (α : Type) [PyEq α] : Prop where
  refl (x : α) : PyEq.same x x = true
  symm {x y : α} : PyEq.same x y = true → PyEq.same y x = true
  trans {x y z : α} : PyEq.same x y = true → PyEq.same y z = true → PyEq.same x z = true
  hash {x y : α} : PyEq.same x y = true → PyEq.hash x = PyEq.hash y

/-- Values up to equality. -/
def pySetoid (α : Type) [PyEq α] [LawfulPyEq α] : Setoid α where
  r x y := PyEq.same x y = true
  iseqv := ⟨LawfulPyEq.refl, LawfulPyEq.symm, LawfulPyEq.trans⟩

open Classical in
/-- The number of different values in a list: of classes of equal values. -/
noncomputable def pyDifferent {α : Type} [PyEq α] [LawfulPyEq α] (l : List α) : Nat :=
  (l.map (Quotient.mk (pySetoid α))).toFinset.card

/-- No two values in the list are equal. -/
def PyDistinct {α : Type} [PyEq α] (l : List α) : Prop :=
  l.Pairwise fun x y => PyEq.same x y = false

end Fauxdoc
