import Verif.Spec.DocSet
import Verif.Spec.TextDraw
/-
Several fields with values chosen at random.
-/
namespace Fauxdoc
variable {K : Type} [Field K] [LinearOrder K] [FloorRing K] {R : Rng K}

/-- The visible field `f` called `name` has its values from `e`, a `Choice` among `items` with weights
`ws`, with replacement, which is used for nothing else in the schema.  The items are neither `None` nor
lists.  The gate and the repeat are whatever they are. -/
structure DrawnField (w : World R) (fields : Dict Ref) (name : String) (f e : Ref) (items : List Val)
    (ws : List K) : Prop where
  keys : fields.keys.Nodup
  user : OnlyUser w fields name f e
  visible : (w.obj f).hide = false
  picks : Picks items ws (w.obj e)
  roac : (w.obj e).choice.roac = false
  plain : ∀ x ∈ items, x.Plain

/-- All single values that a field has in the documents, in order. -/
def valuesOf (name : String) (docs : List (Dict Val)) : List Val :=
  docs.flatMap fun d => ((d.get? name).getD .none).parts

/-- The field has one value in each of the documents, neither `None` nor a list. -/
def OneEach (name : String) (docs : List (Dict Val)) : Prop :=
  ∀ d ∈ docs, ∃ x, d.get? name = some x ∧ x.Plain

end Fauxdoc
