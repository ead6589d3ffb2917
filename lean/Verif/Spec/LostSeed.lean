import Verif.Spec.World
/-
Stores that differ in what was done to some emitters before.
-/
namespace Fauxdoc
variable {K : Type} [Field K] [LinearOrder K] [FloorRing K] {R : Rng K}

/-- `x` is one of `parts` or an emitter below one. -/
def World.PartOf (w : World R) (parts : List Ref) (x : Ref) : Prop := ∃ c ∈ parts, Below w c x

/-- The stores are the same, but for seeds, generators, positions, shuffled items and last values of
the objects in `A`.  In particular the operating system hands out the same random bits. -/
structure World.Beside (A : Ref → Prop) (w v : World R) : Prop where
  next : w.next = v.next
  entropy : w.entropy = v.entropy
  shape : ∀ x, (w.obj x).shape = (v.obj x).shape
  rest : ∀ x, ¬ A x → w.obj x = v.obj x

/-- The same, with other random bits from the operating system. -/
structure World.BesideBits (A : Ref → Prop) (w v : World R) : Prop where
  next : w.next = v.next
  shape : ∀ x, (w.obj x).shape = (v.obj x).shape
  rest : ∀ x, ¬ A x → w.obj x = v.obj x

/-- Two runs have the same outcome, and if it is a value, leave the same store. -/
def SameRun {β : Type} (x y : Except Err β × World R) : Prop :=
  x.1 = y.1 ∧ ∀ b, x.1 = .ok b → x.2 = y.2

/-- Two runs have the same outcome, and if it is a value, leave the same objects. -/
def SameObjects {β : Type} (x y : Except Err β × World R) : Prop :=
  x.1 = y.1 ∧ ∀ b, x.1 = .ok b → ∀ z, x.2.obj z = y.2.obj z

end Fauxdoc
