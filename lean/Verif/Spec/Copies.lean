import Verif.Spec.World
/-
Copies: different objects that are configured alike.
-/
namespace Fauxdoc
variable {K : Type} [Field K] [LinearOrder K] [FloorRing K] {R : Rng K}

/-- The class of an object, referring to `ρ x` instead of `x`.  Name and `hide` of a field are left
out. -/
def Node.via (ρ : Ref → Ref) : Node → Node
  | .choice k => .choice k
  | .static => .static
  | .iterative => .iterative
  | .sequential k => .sequential k
  | .word l a => .word (ρ l) (ρ a)
  | .text n w s => .text (ρ n) (ρ w) (ρ s)
  | .wrapOne s => .wrapOne (ρ s)
  | .wrapMany ss => .wrapMany (ss.map fun ks => (ks.1, ρ ks.2))
  | .copyFields src i sep => .copyFields (src.map ρ) i sep
  | .basedOn src i => .basedOn (src.map ρ) i
  | .field _ e rp g _ => .field "" (ρ e) (ρ rp) (ρ g) false

/-- The attributes of an object, referring to `ρ x` instead of `x`.  Name, `hide` and last value of a
field are left out. -/
def Attrs.via (ρ : Ref → Ref) (a : Attrs R) : Attrs R :=
  { a with node := a.node.map (Node.via ρ), cache := .none }

/-- The object `r'` of `v` is a copy of `r` of `w`: `ρ` takes every emitter at or below `r` to an
emitter of its own with the same settings, and the children to the children.  Seeds, generators,
shuffled items and iterator positions may differ.  None of them uses source fields. -/
structure CopyOf (ρ : Ref → Ref) (w : World R) (r : Ref) (v : World R) (r' : Ref) : Prop where
  root : ρ r = r'
  apart : ∀ x y, Below w r x → Below w r y → ρ x = ρ y → x = y
  settings : ∀ x, Below w r x → (w.obj x).shape.via ρ = (v.obj (ρ x)).shape.via id
  sources : ∀ x, Below w r x → (w.obj x).sources = []

/-- The emitters at or below `r` that go through values in order have got as far as their copies. -/
def CopiesAt (ρ : Ref → Ref) (w : World R) (r : Ref) (v : World R) : Prop :=
  ∀ x, Below w r x → (w.obj x).position = (v.obj (ρ x)).position

/-- What successive calls of an object give. -/
def World.outcomes (str : Val → List Char) (fuel : Nat) (r : Ref) :
    List (Option Val) → World R → List (Except Err Val)
  | [], _ => []
  | arg :: args, w => (World.call str fuel r arg w).1 ::
      World.outcomes str fuel r args (World.call str fuel r arg w).2

/-- The field `f` shares no emitter with another field of the schema. -/
def OnlyIn (w : World R) (fields : Dict Ref) (f : Ref) : Prop :=
  ∀ kg ∈ fields, kg.2 ≠ f → ∀ x, Below w f x → ¬ Below w kg.2 x

end Fauxdoc
