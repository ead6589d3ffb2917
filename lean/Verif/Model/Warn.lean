import Verif.Py.Core
/-
Model of `/repo/src/fauxdoc/warn.py`.  The state is the list of `DeprecationWarning`s issued so far
(their messages).  Warning filters are not modelled.
-/
namespace Fauxdoc

/-- `f' Please use {new_name} instead.' if new_name else ''`, warn.py 49. -/
def replaceStr : Option String → String
  | some n => if n = "" then "" else " Please use " ++ n ++ " instead."
  | none => ""

/-- `get_deprecated_attr`, warn.py 6-59. -/
def getDeprecatedAttr {β : Type} (attrName fromObj : String)
    (deprecated : List (String × (Option String × β))) : PyM (List String) β :=
  match deprecated.lookup attrName with
  | some (newName, value) => do
    PyM.modify fun ws => ws ++ [fromObj ++ "." ++ attrName ++
      " is deprecated and will be removed in the next major version release." ++
      replaceStr newName]
    return value
  | none => PyM.raise .attributeError

end Fauxdoc
