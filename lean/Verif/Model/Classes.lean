import Verif.Py.Core
/-
Classes built from `fauxdoc.emitter.Emitter` and `fauxdoc.mixins`: Python's method resolution order, and
the methods `__init__`, `reset` and `seed`, which the mixins pass on with `super()`.

Not modelled: instances other than by their attributes `rng_seed`, `rng`, `_items`, `_emitters` and a part
`υ` that belongs to the classes of the user; metaclasses. Abstract methods are in `Model/Abstract`.
-/
namespace Fauxdoc
namespace Cls

/-- A class. Names of classes are distinct. -/
abbrev Name := String

/-! ### Method resolution order -/

/-- The first head that is in no tail (`pmerge` in CPython's `typeobject.c`). -/
def candidate (ls : List (List Name)) : Option Name :=
  (ls.filterMap List.head?).find? fun x => ls.all fun l => !l.tail.contains x

/-- Take a class from the lists that begin with it. -/
def removeHead (x : Name) (ls : List (List Name)) : List (List Name) :=
  ls.map fun l => if l.head? = some x then l.tail else l

/-- C3 merge. `none`: there is no consistent order.  The first argument bounds the number of steps. -/
def merge : Nat → List (List Name) → Option (List Name)
  | 0, ls => if ls.all List.isEmpty then some [] else none
  | n + 1, ls =>
    if ls.all List.isEmpty then some []
    else
      match candidate ls with
      | none => none
      | some x => (merge n (removeHead x ls)).map (x :: ·)

/-- The classes defined so far, each with its `__mro__`, the latest first. -/
abbrev Classes := List (Name × List Name)

def Classes.mro (env : Classes) (c : Name) : Option (List Name) := (env.find? (·.1 = c)).map Prod.snd

/-- `class name(*bases): ...` (after `__mro_entries__`, which turns `Emitter[T]` into `Emitter`).  TypeError
for a base listed twice and if there is no consistent order. A missing base is a NameError, for which
`user 0` stands, and so is a name in use, which we do not model. -/
def define (env : Classes) (name : Name) (bases : List Name) : Py Classes :=
  match bases.mapM env.mro with
  | none => .error (.user 0)
  | some mros =>
    if (env.mro name).isSome then .error (.user 0)
    else if ¬ bases.Nodup then .error .typeError
    else
      match merge ((mros ++ [bases]).map List.length).sum (mros ++ [bases]) with
      | none => .error .typeError
      | some l => .ok ((name, name :: l) :: env)

/-- Several class statements. -/
def defineAll (env : Classes) : List (Name × List Name) → Py Classes
  | [] => .ok env
  | (name, bases) :: rest => do defineAll (← define env name bases) rest

/-- The classes of the library and their bases: emitter.py 8; mixins.py 9, 63, 98, 140; choice.py 11;
fixed.py 11, 58, 201; text.py 41, 153; wrappers.py 157, 207, 304; fromfields.py 67, 160; profile.py 10. -/
def library : List (Name × List Name) :=
  [("Generic", ["object"]), ("ABC", ["object"]), ("Emitter", ["Generic", "ABC"]),
   ("RandomMixin", ["object"]), ("ItemsMixin", ["Generic"]), ("ChildrenMixin", ["object"]),
   ("RandomWithChildrenMixin", ["RandomMixin", "ChildrenMixin"]),
   ("Choice", ["RandomMixin", "ItemsMixin", "Emitter"]), ("Static", ["ItemsMixin", "Emitter"]),
   ("Iterative", ["Emitter"]), ("Sequential", ["ItemsMixin", "Emitter"]),
   ("Word", ["RandomWithChildrenMixin", "Emitter"]), ("Text", ["RandomWithChildrenMixin", "Emitter"]),
   ("_deprecated_Wrap", ["RandomWithChildrenMixin", "Emitter"]),
   ("WrapOne", ["RandomWithChildrenMixin", "Emitter"]), ("WrapMany", ["RandomWithChildrenMixin", "Emitter"]),
   ("CopyFields", ["Emitter"]), ("BasedOnFields", ["RandomMixin", "Emitter"]),
   ("Field", ["RandomWithChildrenMixin", "Generic"])]

/-- Before any class statement. -/
def builtins : Classes := [("object", ["object"])]

/-! ### Methods that call `super()` -/

section
variable {σ α : Type}

/-- What a class says about a method: given whether a class further on has the method
(`hasattr(super(), name)`), what `super().name(a)` does, and the argument. -/
abbrev Body (σ α : Type) := Bool → (α → PyM σ Unit) → α → PyM σ Unit

/-- Does one of the classes have the method? -/
def has (impl : Name → Option (Body σ α)) (mro : List Name) : Bool := mro.any fun c => (impl c).isSome

/-- Call of a method along (the rest of) the method resolution order. -/
def call (impl : Name → Option (Body σ α)) : List Name → α → PyM σ Unit
  | [], _ => PyM.raise .attributeError
  | c :: rest, a =>
    match impl c with
    | none => call impl rest a
    | some body => body (has impl rest) (call impl rest) a

end

/-- What a class of the user says about a method. -/
inductive User (α υ : Type) where
  /-- not defined -/
  | inherited
  /-- `before; super().name(a); after` -/
  | passesOn (before after : α → υ → υ)
  /-- the same with `if hasattr(super(), name)` -/
  | passesOnIfAny (before after : α → υ → υ)
  /-- does not call `super()` -/
  | stops (act : α → υ → υ)

/-- Keyword arguments of `__init__` that the mixins look at; `other` are further arguments. -/
structure Kw (seed ι κ : Type) where
  rngSeed : Option seed := none
  items : Option (List ι) := none
  children : Option (List κ) := none
  other : List String := []

/-- An instance; `none` is an attribute that does not exist (yet). A seed of `None` is a value of `seed`. -/
structure Inst (seed ρ ι κ υ : Type) where
  rngSeed : Option seed := none
  rng : Option ρ := none
  items : Option (List ι) := none
  children : Option (List κ) := none
  user : υ

/-- Generators and children: `random.Random(seed)`, `rng.seed(seed)`, the default seed `None`;
`setattr('rng_seed', …)`, `reset` and `seed` of one child, doing nothing if the child lacks it (group.py
25-56, C58). -/
structure Parts (seed ρ κ : Type) where
  noSeed : seed
  random : seed → ρ
  reseed : seed → ρ → ρ
  setSeed : seed → κ → κ
  reset : κ → κ
  seed : seed → κ → κ

section
variable {seed ρ ι κ υ : Type}

/-- The body of a method of a user's class. -/
def User.body {α : Type} : User α υ → Option (Body (Inst seed ρ ι κ υ) α)
  | .inherited => none
  | .passesOn before after => some fun _ supr a => do
    PyM.modify fun i => { i with user := before a i.user }
    supr a
    PyM.modify fun i => { i with user := after a i.user }
  | .passesOnIfAny before after => some fun more supr a => do
    PyM.modify fun i => { i with user := before a i.user }
    (if more then supr a else pure ())
    PyM.modify fun i => { i with user := after a i.user }
  | .stops act => some fun _ _ a => PyM.modify fun i => { i with user := act a i.user }

/-- An attribute of the instance; AttributeError if there is none. -/
def attr {β : Type} (f : Inst seed ρ ι κ υ → Option β) : PyM (Inst seed ρ ι κ υ) β := fun i =>
  match f i with
  | none => (.error .attributeError, i)
  | some b => (.ok b, i)

/-- `reset` of each class: `RandomMixin` mixins.py 43-48, `ChildrenMixin` 132-137,
`RandomWithChildrenMixin` 149-152, `Emitter` emitter.py 20-27 (does nothing and does not call `super()`). -/
def resetBody (p : Parts seed ρ κ) (user : Name → User Unit υ) (c : Name) :
    Option (Body (Inst seed ρ ι κ υ) Unit) :=
  if c = "RandomMixin" then some fun more supr a => do
    let s ← attr Inst.rngSeed
    PyM.modify fun i => { i with rng := some (p.random s) }
    if more then supr a else pure ()
  else if c = "ChildrenMixin" then some fun more supr a => do
    let ks ← attr Inst.children
    PyM.modify fun i => { i with children := some (ks.map p.reset) }
    if more then supr a else pure ()
  else if c = "RandomWithChildrenMixin" then some fun _ supr a => do
    let ks ← attr Inst.children
    let s ← attr Inst.rngSeed
    PyM.modify fun i => { i with children := some (ks.map (p.setSeed s)) }
    supr a
  else if c = "Emitter" then some fun _ _ _ => pure ()
  else if c = "object" ∨ c = "Generic" ∨ c = "ABC" ∨ c = "ItemsMixin" then none
  else (user c).body

/-- `obj.reset()` for an instance of a class with this method resolution order. -/
def reset (p : Parts seed ρ κ) (user : Name → User Unit υ) (mro : List Name) :
    PyM (Inst seed ρ ι κ υ) Unit := call (resetBody p user) mro ()

/-- `seed` of each class: `RandomMixin` mixins.py 50-60, `RandomWithChildrenMixin` 154-160. -/
def seedBody (p : Parts seed ρ κ) (user : Name → User seed υ) (c : Name) :
    Option (Body (Inst seed ρ ι κ υ) seed) :=
  if c = "RandomMixin" then some fun more supr s => do
    PyM.modify fun i => { i with rngSeed := some s }
    let g ← attr Inst.rng
    PyM.modify fun i => { i with rng := some (p.reseed s g) }
    if more then supr s else pure ()
  else if c = "RandomWithChildrenMixin" then some fun _ supr s => do
    let ks ← attr Inst.children
    PyM.modify fun i => { i with children := some (ks.map (p.seed s)) }
    PyM.ignoring .attributeError (supr s)
  else if c = "object" ∨ c = "Generic" ∨ c = "ABC" ∨ c = "ItemsMixin" ∨ c = "ChildrenMixin" ∨
    c = "Emitter" then none
  else (user c).body

/-- `obj.seed(s)`. -/
def seedAll (p : Parts seed ρ κ) (user : Name → User seed υ) (mro : List Name) (s : seed) :
    PyM (Inst seed ρ ι κ υ) Unit := call (seedBody p user) mro s

/-- What a class of the user says about `__init__`: nothing, or `before; super().__init__(**kw'); after`
with arguments `kw'` of its choice. -/
inductive UserInit (seed ι κ υ : Type) where
  | inherited
  | passesOn (before : υ → υ) (args : Kw seed ι κ → Kw seed ι κ) (after : υ → υ)

/-- `__init__` of each class: `RandomMixin` mixins.py 29-41, `ItemsMixin` 74-85, `ChildrenMixin` 113-125;
`object.__init__` refuses arguments.  `again` is `self.reset()`. -/
def initBody (p : Parts seed ρ κ) (user : Name → UserInit seed ι κ υ)
    (again : PyM (Inst seed ρ ι κ υ) Unit) (c : Name) : Option (Body (Inst seed ρ ι κ υ) (Kw seed ι κ)) :=
  if c = "RandomMixin" then some fun _ supr kw => do
    PyM.modify fun i => { i with rngSeed := some (kw.rngSeed.getD p.noSeed) }
    supr { kw with rngSeed := none }
    again
  else if c = "ItemsMixin" then some fun _ supr kw => do
    PyM.modify fun i => { i with items := some (kw.items.getD []) }
    supr { kw with items := none }
  else if c = "ChildrenMixin" then some fun _ supr kw => do
    PyM.modify fun i => { i with children := some (kw.children.getD []) }
    supr { kw with children := none }
  else if c = "object" then some fun _ _ kw =>
    if kw.rngSeed.isNone ∧ kw.items.isNone ∧ kw.children.isNone ∧ kw.other = [] then pure ()
    else PyM.raise .typeError
  else if c = "Generic" ∨ c = "ABC" ∨ c = "Emitter" ∨ c = "RandomWithChildrenMixin" then none
  else
    match user c with
    | .inherited => none
    | .passesOn before args after => some fun _ supr kw => do
      PyM.modify fun i => { i with user := before i.user }
      supr (args kw)
      PyM.modify fun i => { i with user := after i.user }

/-- `cls(**kw)`. -/
def construct (p : Parts seed ρ κ) (userInit : Name → UserInit seed ι κ υ) (userReset : Name → User Unit υ)
    (mro : List Name) (kw : Kw seed ι κ) (u : υ) : Except Err Unit × Inst seed ρ ι κ υ :=
  call (initBody p userInit (reset p userReset mro)) mro kw { user := u }

end

end Cls
end Fauxdoc
