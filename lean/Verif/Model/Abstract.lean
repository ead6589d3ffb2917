import Verif.Model.Classes
/-
Abstract methods: which classes built from `fauxdoc.emitter.Emitter` (emitter.py 8, 111-117) can be
instantiated.  `ABCMeta.__new__` collects the abstract methods of a class when the class is defined
(`_abc__abc_init` in CPython's `_abc.c`), and `object.__new__` refuses to make an instance while there are
any.

Not modelled: metaclasses other than `ABCMeta`, `__abstractmethods__` being assigned, methods assigned to
a class after the class statement, methods of `Generic`, `ABC` and `object` (none is called `emit` or is
abstract).
-/
namespace Fauxdoc
namespace Cls

/-- The methods that the class statements define themselves, and whether they are decorated with
`@abstractmethod`. -/
abbrev Methods := Name → List (String × Bool)

/-- The methods of the library that are, or override, abstract methods: emitter.py 111-117; choice.py 342,
348; fixed.py 45, 49, 168, 175, 303, 310; text.py 132, 136, 276, 280; wrappers.py 291, 295, 398, 403;
fromfields.py 136, 151, 287, 294.  `_deprecated_Wrap` (wrappers.py 157-204) has neither. -/
def libraryMethods : Methods := fun c =>
  if c = "Emitter" then [("emit", true), ("emit_many", true)]
  else if c ∈ ["Choice", "Static", "Iterative", "Sequential", "Word", "Text", "WrapOne", "WrapMany",
    "CopyFields", "BasedOnFields"] then [("emit", false), ("emit_many", false)]
  else []

/-- The methods of all classes, given those of the user's. -/
def allMethods (user : Methods) : Methods := fun c =>
  if c = "object" ∨ c ∈ library.map Prod.fst then libraryMethods c else user c

/-- `getattr(cls, n, None)`: nothing, or whether what is found is abstract. -/
def getMethod (ms : Methods) (mro : List Name) (n : String) : Option Bool :=
  mro.findSome? fun c => (ms c).lookup n

/-- The `__abstractmethods__` of the classes defined so far, the latest first. -/
abbrev Abstracts := List (Name × List String)

def Abstracts.of (t : Abstracts) (c : Name) : List String := ((t.find? (·.1 = c)).map Prod.snd).getD []

/-- `_abc__abc_init`: the abstract methods among those defined in the class, and those of the bases that
are still abstract.  Only for classes whose metaclass is `ABCMeta`. -/
def collect (ms : Methods) (t : Abstracts) (name : Name) (bases mro : List Name) : List String :=
  if "ABC" ∈ mro then
    ((ms name).map Prod.fst).filter (fun n => (ms name).lookup n = some true) ++
      (bases.flatMap t.of).filter fun n => getMethod ms mro n = some true
  else []

/-- The same for several class statements; `env` has the orders of all these classes. -/
def collectAll (ms : Methods) (env : Classes) : Abstracts → List (Name × List Name) → Abstracts
  | t, [] => t
  | t, (name, bases) :: rest =>
    collectAll ms env ((name, collect ms t name bases ((env.mro name).getD [])) :: t) rest

section
variable {seed ρ ι κ υ : Type}

/-- `cls(**kw)`: `object.__new__` raises a TypeError if there are abstract methods; otherwise `__init__`
follows. -/
def make (p : Parts seed ρ κ) (userInit : Name → UserInit seed ι κ υ) (userReset : Name → User Unit υ)
    (t : Abstracts) (c : Name) (mro : List Name) (kw : Kw seed ι κ) (u : υ) : Py (Inst seed ρ ι κ υ) :=
  if t.of c = [] then
    match construct p userInit userReset mro kw u with
    | (.ok _, i) => .ok i
    | (.error e, _) => .error e
  else .error .typeError

end

end Cls
end Fauxdoc
