import Verif.Model.World
import Verif.Spec.Derived
/-
Schemas whose fields are all computed by `BasedOnFields` from the last values of fields of the same
schema (fromfields.py 160-306), possibly of later ones or of the field itself: `f.emitter =
BasedOnFields(f, action)`.
-/
namespace Fauxdoc
variable {K : Type} [Field K] [LinearOrder K] [FloorRing K] {R : Rng K}

/-- One field of the schema: the key of the schema under which it is, the field, the fields that it is
based on, with their names, and the function that computes it. -/
structure Equation (G : Type) where
  key : String
  field : Ref
  sources : List (String × Ref)
  action : Callback G

/-- What the function is called with, if `value g` is the value of the field `g`: the only value
itself, or all values by name (fromfields.py 287-292). -/
def Equation.arguments {G : Type} (q : Equation G) (value : Ref → Val) : List Val × Dict Val :=
  match q.sources with
  | [(_, g)] => ([value g], [])
  | sources => ([], sources.map fun (name, g) => (name, value g))

/-- The values `x'` follow the values `x` by the equations: an equation sees the new values of the
fields before its own, and the old values of its own field and of those after it. -/
structure Follows {G : Type} (eqs : List (Equation G)) (x x' : Ref → Val) : Prop where
  solves : ∀ pre q post, eqs = pre ++ q :: post →
    q.action.invoke (q.arguments fun g => if g ∈ pre.map (·.field) then x' g else x g).1
      (q.arguments fun g => if g ∈ pre.map (·.field) then x' g else x g).2 = .ok (x' q.field)
  others : ∀ r, r ∉ eqs.map (·.field) → x' r = x r

/-- The field of the equation is `Field(name, BasedOnFields(sources, action))`; the function has no
parameter `rng`, and the names of the sources are different. -/
structure Equation.In (q : Equation R.G) (w : World R) : Prop where
  built : ∃ nm e rp gt hd single, (w.obj q.field).node = some (.field nm e rp gt hd) ∧
    (w.obj e).node = some (.basedOn (q.sources.map (·.2)) single) ∧
    (w.obj e).wrapper = some q.action ∧
    (w.obj rp).node = some .static ∧ (w.obj rp).static.value = .none ∧
    (w.obj gt).node = some .static ∧ (w.obj gt).static.value = .bool true
  names : ∀ s ∈ q.sources, (w.obj s.2).name = s.1
  plain : ¬ q.action.DeclaresRng
  nodup : (q.sources.map (·.1)).Nodup
  noSelf : "self" ∉ q.sources.map (·.1)

/-- The equations of the schema with the fields `fields`. -/
structure Equations (fields : Dict Ref) (eqs : List (Equation R.G)) (w : World R) : Prop where
  fields : fields = eqs.map fun q => (q.key, q.field)
  keys : (eqs.map (·.key)).Nodup
  refs : (eqs.map (·.field)).Nodup
  each : ∀ q ∈ eqs, q.In w

/-- The last values of the fields (profile.py 141-144). -/
def World.lastValues (w : World R) (r : Ref) : Val := (w.obj r).cache

/-- Nothing but the last values is different. -/
def World.withValues (w : World R) (x : Ref → Val) : World R :=
  { w with obj := fun r => { w.obj r with cache := x r } }

/-- A document with the values `x`: those of the fields that are not hidden. -/
def solution {G : Type} (eqs : List (Equation G)) (hide : Ref → Bool) (x : Ref → Val) : Dict Val :=
  (eqs.filter fun q => !hide q.field).map fun q => (q.key, x q.field)

end Fauxdoc
