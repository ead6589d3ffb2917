import Verif.Model.Group
import Verif.Py.Slice
/-
Model of the list side of `ObjectGroup`, `/repo/src/fauxdoc/group.py` 59-84: the operations it
inherits from `collections.UserList` (CPython 3.11, `Lib/collections/__init__.py`).  The class only
redefines `__init__`, which takes the members as separate arguments (group.py 71-79); the inherited
operations that build a new group call `self.__class__(one_list)`.
-/
namespace Fauxdoc
namespace GroupList
variable {σ ι : Type}

/-- What a group can contain: `None`, an object, a plain list, or another group.  (A list or group
is only ever put in by the inherited operations below.) -/
inductive Member (ι : Type) where
  | none
  | obj (i : ι)
  | list (ms : List (Member ι))
  | group (ms : List (Member ι))

/-- `ObjectGroup(*objects)`, group.py 71-79: `.data` is the list of the arguments. -/
def init (objects : List (Member ι)) : List (Member ι) := objects

/-- `group[i]` for an int: `self.data[i]` (UserList `__getitem__`, inherited by group.py 59). -/
def getItem (g : List (Member ι)) (i : Int) : Py (Member ι) := pyListGet g i

/-- `group[a:b:c]`: `self.__class__(self.data[i])` (UserList `__getitem__`, inherited by
group.py 59; the constructor is group.py 71-79). -/
def getSlice (g : List (Member ι)) (s : PySlice) : Py (List (Member ι)) := do
  .ok (init [.list (← pyListSlice g s)])

/-- `group + other`, where `other` is a group or list with members `h`:
`self.__class__(self.data + other.data)` (UserList `__add__`, inherited by group.py 59). -/
def add (g h : List (Member ι)) : List (Member ι) := init [.list (g ++ h)]

/-- `group * n`: `self.__class__(self.data * n)` (UserList `__mul__`, inherited by group.py 59).
A negative `n` counts as 0. -/
def mul (g : List (Member ι)) (n : Int) : List (Member ι) :=
  init [.list (List.replicate n.toNat g).flatten]

/-- `group.copy()`: `self.__class__(self)` (UserList `copy`, inherited by group.py 59). -/
def copy (g : List (Member ι)) : List (Member ι) := init [.group g]

/-- `copy.copy(group)`: UserList `__copy__`, which bypasses `__init__`. -/
def copyCopy (g : List (Member ι)) : List (Member ι) := g

/-- `group += other` and `group.extend(other)`: `self.data += other.data` (UserList `__iadd__`,
`extend`, inherited by group.py 59). -/
def iadd (g h : List (Member ι)) : List (Member ι) := g ++ h

/-- `group *= n`: `self.data *= n` (UserList `__imul__`, inherited by group.py 59). -/
def imul (g : List (Member ι)) (n : Int) : List (Member ι) := (List.replicate n.toNat g).flatten

/-- `group.append(m)` (UserList `append`, inherited by group.py 59). -/
def append (g : List (Member ι)) (m : Member ι) : List (Member ι) := g ++ [m]

/-- `list.insert(i, m)`'s position: negative counts from the end, then clipped. -/
def insertPos (len : Nat) (i : Int) : Nat :=
  let j := if i < 0 then i + len else i
  if j < 0 then 0 else if j > len then len else j.toNat

/-- `group.insert(i, m)` (UserList `insert`, inherited by group.py 59). -/
def insert (g : List (Member ι)) (i : Int) (m : Member ι) : List (Member ι) :=
  g.take (insertPos g.length i) ++ m :: g.drop (insertPos g.length i)

/-- `group.reverse()` (UserList `reverse`, inherited by group.py 59). -/
def reverse (g : List (Member ι)) : List (Member ι) := g.reverse

/-- `group.do_method(name, ...)`, group.py 39-56, on such members.  `run i` is the call on an
object; `other m` is the call on a member that is itself a list or a group. -/
def doMethod (g : List (Member ι)) (run : ι → PyM σ Unit)
    (other : List (Member ι) → PyM σ Unit) : PyM σ Unit :=
  PyM.forEach g fun m =>
    match m with
    | .none => pure ()
    | .obj i => PyM.ignoring .attributeError (run i)
    | .list ms => PyM.ignoring .attributeError (other ms)
    | .group ms => PyM.ignoring .attributeError (other ms)

/-- The call on a list or group that has no method of that name (`reset`, `seed`, ...):
`getattr` raises `AttributeError`, group.py 54. -/
def noSuchMethod (_ : List (Member ι)) : PyM σ Unit := PyM.raise .attributeError

end GroupList
end Fauxdoc
