import Verif.Model.Group
import Verif.Py.Dict
/-
Model of the dict side of `ObjectMap`, `/repo/src/fauxdoc/group.py` 87-111: the operations it inherits
from `collections.OrderedDict` (CPython 3.11, `Objects/odictobject.c`).  The class redefines
`__init__`, which has one required argument (group.py 99-106); the inherited operations that make a
copy call the class without arguments.
-/
namespace Fauxdoc
namespace GroupMap
variable {σ ι : Type}

/-- `ObjectMap(...)`, group.py 99-106: `none` stands for a call without arguments. -/
def init : Option (List (String × ι)) → Py (Dict ι)
  | none => .error .typeError
  | some objects => .ok (Dict.ofItems objects)

/-- The entries without the one for `k`. -/
def erase : Dict ι → String → Dict ι
  | [], _ => []
  | (k', v) :: m, k => if k' = k then m else (k', v) :: erase m k

/-- `m[k]` (inherited by group.py 87). -/
def getItem (k : String) : PyM (Dict ι) ι := fun m =>
  match m.get? k with
  | some v => (.ok v, m)
  | none => (.error .keyError, m)

/-- `m[k] = v` (inherited by group.py 87). -/
def setItem (k : String) (v : ι) : PyM (Dict ι) Unit := fun m => (.ok (), m.set k v)

/-- `del m[k]` (inherited by group.py 87). -/
def delItem (k : String) : PyM (Dict ι) Unit := fun m =>
  match m.get? k with
  | some _ => (.ok (), erase m k)
  | none => (.error .keyError, m)

/-- `m.pop(k)` and `m.pop(k, default)` (inherited by group.py 87). -/
def pop (k : String) (default : Option ι) : PyM (Dict ι) ι := fun m =>
  match m.get? k, default with
  | some v, _ => (.ok v, erase m k)
  | none, some v => (.ok v, m)
  | none, none => (.error .keyError, m)

/-- `m.popitem(last)` (inherited by group.py 87). -/
def popItem (last : Bool) : PyM (Dict ι) (String × ι) := fun m =>
  match if last then m.getLast? else m.head? with
  | some kv => (.ok kv, erase m kv.1)
  | none => (.error .keyError, m)

/-- `m.setdefault(k, v)` (inherited by group.py 87). -/
def setDefault (k : String) (v : ι) : PyM (Dict ι) ι := fun m =>
  match m.get? k with
  | some v' => (.ok v', m)
  | none => (.ok v, m.set k v)

/-- `m.update(other)` and `m |= other` (inherited by group.py 87). -/
def update (other : List (String × ι)) : PyM (Dict ι) Unit := fun m => (.ok (), m.update other)

/-- `m.move_to_end(k, last)` (inherited by group.py 87). -/
def moveToEnd (k : String) (last : Bool) : PyM (Dict ι) Unit := fun m =>
  match m.get? k with
  | some v => (.ok (), if last then erase m k ++ [(k, v)] else (k, v) :: erase m k)
  | none => (.error .keyError, m)

/-- `m.clear()` (inherited by group.py 87). -/
def clear : PyM (Dict ι) Unit := fun _ => (.ok (), [])

/-- `m | other`: `type(m)(m)`, then an update (`odict_or`, inherited by group.py 87). -/
def or_ (m : Dict ι) (other : List (String × ι)) : Py (Dict ι) := do
  let new ← init (some m)
  return new.update other

/-- `other | m` for a dict: `type(m)(other)`, then an update (`odict_or`, inherited by group.py 87). -/
def ror (other : List (String × ι)) (m : Dict ι) : Py (Dict ι) := do
  let new ← init (some other)
  return new.update m

/-- `m.copy()`: for a subclass, `type(m)()`, filled afterwards (`odict_copy`, inherited by
group.py 87). -/
def copy (m : Dict ι) : Py (Dict ι) := do
  let new ← init none
  return new.update m

/-- `copy.copy(m)`, `copy.deepcopy(m)` and unpickling, the latter two with copies of the entries
(`odict_reduce`: the class is called without arguments and filled afterwards). -/
def reduce (entry : ι → Py ι) (m : Dict ι) : Py (Dict ι) := do
  let new ← init none
  let items ← m.mapM fun kv => do return (kv.1, ← entry kv.2)
  return new.update items

/-- `ObjectMap.fromkeys(keys, v)`: `cls()`, filled afterwards (`OrderedDict_fromkeys_impl`, inherited
by group.py 87). -/
def fromKeys (keys : List String) (v : ι) : Py (Dict ι) := do
  let new ← init none
  return new.update (keys.map fun k => (k, v))

/-- `m == other` for another dict: as many entries, and the entries of `m` are found in `other`. -/
def eqDict [DecidableEq ι] (m other : Dict ι) : Bool :=
  m.length = other.length && m.all fun kv => other.get? kv.1 = some kv.2

/-- `m == other` for another ordered dict, with the keys in the same order (`odict_richcompare`,
inherited by group.py 87). -/
def eqOrdered [DecidableEq ι] (m other : Dict ι) : Bool := eqDict m other && m.keys = other.keys

/-- `m.do_method(name, ...)`, group.py 39-56, for a map that can be found in the state: the loop goes
over `list(m.values())` (group.py 108-111), which is made when the loop starts. -/
def doMethod (find : σ → Dict (Option ι)) (run : ι → PyM σ Unit) : PyM σ Unit := fun s =>
  Group.doMethod (Group.ofMap (find s)) run s

/-- `m.setattr(name, value)`, group.py 25-37, in the same way. -/
def setattr (find : σ → Dict (Option ι)) (has : ι → σ → Bool) (set : ι → PyM σ Unit) : PyM σ Unit :=
  fun s => Group.setattr (Group.ofMap (find s)) has set s

end GroupMap

namespace LiveGroup
variable {σ ι : Type}

/-- `group.do_method(name, ...)`, group.py 39-56, for a group that can be found in the state.  The loop
goes over the group itself (group.py 81-84): iteration of a `UserList` asks for `group[0]`, `group[1]`,
... until there is an IndexError.  `i` is the next index; `none`: not finished after `fuel` steps. -/
def doMethod (find : σ → List (Option ι)) (run : ι → PyM σ Unit) :
    Nat → Nat → σ → Option (Except Err Unit × σ)
  | 0, _, _ => none
  | fuel + 1, i, s =>
    match (find s)[i]? with
    | none => some (.ok (), s)
    | some none => doMethod find run fuel (i + 1) s
    | some (some m) =>
      match (PyM.ignoring .attributeError (run m) : PyM σ Unit) s with
      | (.ok _, s1) => doMethod find run fuel (i + 1) s1
      | (.error e, s1) => some (.error e, s1)

end LiveGroup
end Fauxdoc
