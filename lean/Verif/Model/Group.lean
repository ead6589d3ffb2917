import Verif.Py.Rel
/-
Model of `/repo/src/fauxdoc/group.py`, over arbitrary members (`none` is a Python `None` member)
that live in an arbitrary shared state `σ`.
-/
namespace Fauxdoc
namespace Group
variable {σ ι : Type}

/-- `setattr(name, value)`, group.py 25-37.  `has i` is `hasattr(member, name)`, `set i` is
`setattr(member, name, value)` (which may raise). -/
def setattr (members : List (Option ι)) (has : ι → σ → Bool) (set : ι → PyM σ Unit) :
    PyM σ Unit :=
  PyM.forEach members fun m =>
    match m with
    | none => pure ()
    | some i => do if has i (← PyM.get) then set i else pure ()

/-- `do_method(name, *args)`, group.py 39-56.  `run i` is `getattr(member, name)(*args)`; a missing
method is an `AttributeError`, and every `AttributeError` is ignored. -/
def doMethod (members : List (Option ι)) (run : ι → PyM σ Unit) : PyM σ Unit :=
  PyM.forEach members fun m =>
    match m with
    | none => pure ()
    | some i => PyM.ignoring .attributeError (run i)

/-- `ObjectGroup(*objects)`, group.py 71-84: a list, in the given order. -/
def ofObjects (objects : List (Option ι)) : List (Option ι) := objects

/-- `ObjectMap(mapping).objects_iterable`, group.py 99-111: the values in insertion order. -/
def ofMap (mapping : List (String × Option ι)) : List (Option ι) := mapping.map (·.2)

end Group
end Fauxdoc
