import Verif.Model.Assign
import Verif.Spec.World
/-
Notions used to state what assignments to references do.
-/
namespace Fauxdoc
variable {K : Type} [Field K] [LinearOrder K] [FloorRing K] {R : Rng K}

/-- Class and plain attributes of an object, without its references to child emitters. -/
def Node.plain : Node → Node
  | .word _ _ => .word 0 0
  | .text _ _ _ => .text 0 0 0
  | .wrapOne _ => .wrapOne 0
  | .wrapMany _ => .wrapMany []
  | .field n _ _ _ h => .field n 0 0 0 h
  | node => node

/-- The stores differ at most in the class and references of the object `r`: all other attributes of
`r` and everything about other objects is the same. -/
def OnlyNode (r : Ref) (w v : World R) : Prop :=
  v.next = w.next ∧ v.entropy = w.entropy ∧ (∀ x, x ≠ r → v.obj x = w.obj x) ∧
    v.obj r = { w.obj r with node := (v.obj r).node }

/-- No object is below itself. -/
def Acyclic (w : World R) : Prop := ∀ a c, c ∈ (w.obj a).children → ¬ Below w c a

end Fauxdoc
