import Verif.Model.Abstract
/-
What it means that a method is abstract in a class.
-/
namespace Fauxdoc
namespace Cls

/-- The first class in the order that defines the method `n` declares it abstract. -/
def StillAbstract (ms : Methods) (mro : List Name) (n : String) : Prop :=
  ∃ a d b, mro = a ++ d :: b ∧ (∀ x ∈ a, (ms x).lookup n = none) ∧ (ms d).lookup n = some true

/-- Classes that declare abstract methods derive from `ABC`. -/
def Declared (env : Classes) (ms : Methods) : Prop :=
  ∀ c l n, env.mro c = some l → (ms c).lookup n = some true → "ABC" ∈ l

/-- `c` comes before `d`. -/
def Before (l : List Name) (c d : Name) : Prop := ∃ a b, l = a ++ d :: b ∧ c ∈ a

end Cls
end Fauxdoc
