import Verif.Py.Val
import Verif.Py.Dict
/-
Specifications for fields and schemas.
-/
namespace Fauxdoc

/-- What an observer sees of one operation on a field. -/
inductive FieldEvent where
  | returned (v : Val)
  | raised
  | wasReset
  | other

/-- The value `previous` should have after a sequence of events: the last returned value, or `None`
if the field was reset since. -/
def previousAfter : Val → List FieldEvent → Val
  | v, [] => v
  | _, .returned w :: es => previousAfter w es
  | v, .raised :: es => previousAfter v es
  | _, .wasReset :: es => previousAfter .none es
  | v, .other :: es => previousAfter v es

/-- The distinct members of a list, in order of first occurrence. -/
def firstOcc : List String → List String
  | [] => []
  | a :: l => a :: (firstOcc l).filter (fun b => b ≠ a)

/-- The last member called `k`. -/
def lastNamed {ι : Type} (name : ι → String) (k : String) (l : List ι) : Option ι :=
  l.reverse.find? fun f => name f = k

/-- The document for fields with the given values: the non-hidden ones, in order. -/
def visible {ι : Type} (hide : ι → Bool) (fields : Dict ι) (vals : List Val) : Dict Val :=
  ((fields.zip vals).filter fun x => !hide x.1.2).map fun x => (x.1.1, x.2)

end Fauxdoc
