import Verif.Model.Warn
/-
Model of the names of the modules `fauxdoc.emitters`, `fauxdoc.emitters.wrappers` and
`fauxdoc.typing`, which define `__getattr__` and `__dir__` (emitters/__init__.py 38-54,
emitters/wrappers.py 416-429, typing.py 117-132; the two functions are the same in all three).
The state is the list of warnings issued, as in `Model/Warn`.
-/
namespace Fauxdoc

/-- A module: its `__name__`, whether it is a package, its global variables, its table
`DEPRECATED`, and its `__all__`. -/
structure PyModule (β : Type) where
  name : String
  package : Bool
  globals : List (String × β)
  deprecated : List (String × (Option String × β))
  all : List String

namespace PyModule
variable {β : Type}

/-- `module.name`: Python looks among the globals, then calls `__getattr__(name)` (emitters/__init__.py
42-50, emitters/wrappers.py 424-425, typing.py 127-128). -/
def getattr (m : PyModule β) (n : String) : PyM (List String) β :=
  match m.globals.lookup n with
  | some v => return v
  | none => getDeprecatedAttr n m.name m.deprecated

/-- `hasattr(module, name)`. -/
def hasattr (m : PyModule β) (n : String) : PyM (List String) PUnit :=
  PyM.ignoring .attributeError do
    let _ ← m.getattr n
    return ⟨⟩

/-- `__dir__`, emitters/__init__.py 53-54, emitters/wrappers.py 428-429, typing.py 131-132. -/
def dir (m : PyModule β) : List String :=
  (m.globals.map Prod.fst ++ m.deprecated.map Prod.fst).mergeSort fun a b => decide (a ≤ b)

/-- `hasattr` for every name in turn (`importlib._bootstrap._handle_fromlist`). -/
def hasattrs (m : PyModule β) : List String → PyM (List String) PUnit
  | [] => return ⟨⟩
  | n :: ns => do
    m.hasattr n
    m.hasattrs ns

/-- `module.name` for every name in turn. -/
def getattrs (m : PyModule β) : List String → PyM (List String) (List β)
  | [] => return []
  | n :: ns => do
    let v ← m.getattr n
    let vs ← m.getattrs ns
    return v :: vs

/-- `from module import name, ...`.  Before the names are got, those of a package are looked for
with `hasattr` (see the comment in emitters/__init__.py 43-49).  (A missing name makes Python try to
import a submodule; there is none.  `from` imports turn the `AttributeError` into `ImportError`.) -/
def importFrom (m : PyModule β) (ns : List String) : PyM (List String) (List β) := do
  if m.package then m.hasattrs ns else pure ⟨⟩
  m.getattrs ns

/-- `from module import *` for a module with `__all__` (emitters/__init__.py 28-35). -/
def importStar (m : PyModule β) : PyM (List String) (List β) := m.importFrom m.all

end PyModule
end Fauxdoc
