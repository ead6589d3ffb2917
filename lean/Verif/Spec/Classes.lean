import Verif.Model.Classes
/-
What the mixins promise to a class built from them.
-/
namespace Fauxdoc
namespace Cls
variable {α seed ρ ι κ υ : Type}

/-- The classes up to the first one whose method does not call `super()`. -/
def reached (stops : Name → Bool) : List Name → List Name
  | [] => []
  | c :: rest => if stops c then [c] else c :: reached stops rest

/-- The classes whose methods are given by Python or by emitter.py and mixins.py. -/
def given : List Name :=
  ["object", "Generic", "ABC", "Emitter", "RandomMixin", "ItemsMixin", "ChildrenMixin",
   "RandomWithChildrenMixin"]

/-- What the classes of the user say about a method; they have other names. -/
def theirs (user : Name → User α υ) (c : Name) : User α υ := if c ∈ given then .inherited else user c

def User.defines : User α υ → Bool
  | .inherited => false
  | _ => true

def User.stopsHere : User α υ → Bool
  | .stops _ => true
  | _ => false

def User.early (a : α) : User α υ → υ → υ
  | .inherited => id
  | .passesOn before _ => before a
  | .passesOnIfAny before _ => before a
  | .stops act => act a

def User.late (a : α) : User α υ → υ → υ
  | .passesOn _ after => after a
  | .passesOnIfAny _ after => after a
  | _ => id

/-- What is left of the attributes of the user after the method has gone through these classes: first
what each does before its `super()`, then in opposite order what each does after it. -/
def through (user : Name → User α υ) (a : α) (classes : List Name) (u : υ) : υ :=
  classes.foldr (fun c u => (theirs user c).late a u)
    (classes.foldl (fun u c => (theirs user c).early a u) u)

/-- `reset` comes to an end at `Emitter`. -/
def stopsReset (user : Name → User Unit υ) (c : Name) : Bool := c == "Emitter" || (theirs user c).stopsHere

def stopsSeed (user : Name → User seed υ) (c : Name) : Bool := (theirs user c).stopsHere

def definesReset (user : Name → User Unit υ) (c : Name) : Bool :=
  ["RandomMixin", "ChildrenMixin", "RandomWithChildrenMixin", "Emitter"].contains c || (theirs user c).defines

def definesSeed (user : Name → User seed υ) (c : Name) : Bool :=
  ["RandomMixin", "RandomWithChildrenMixin"].contains c || (theirs user c).defines

/-- Each class that calls `super()` without asking inherits the method, so that the call is all right for
the instances of that class. -/
def Sound (env : Classes) (user : Name → User α υ) (defines : Name → Bool) : Prop :=
  ∀ d before after, theirs user d = .passesOn before after →
    ∀ l, env.mro d = some (d :: l) → l.any defines = true

/-- The instance after `reset`, given the classes that are reached: a new generator, and the children
reset, after they have been given the seed. -/
def afterReset (p : Parts seed ρ κ) (r : List Name) (u : υ) (i : Inst seed ρ ι κ υ) : Inst seed ρ ι κ υ where
  rngSeed := i.rngSeed
  rng := if "RandomMixin" ∈ r then i.rngSeed.map p.random else i.rng
  items := i.items
  children :=
    let seeded := if "RandomWithChildrenMixin" ∈ r then
      i.children.bind fun ks => i.rngSeed.map fun s => ks.map (p.setSeed s) else i.children
    if "ChildrenMixin" ∈ r then seeded.map fun ks => ks.map p.reset else seeded
  user := u

/-- The instance after `seed`. -/
def afterSeed (p : Parts seed ρ κ) (r : List Name) (s : seed) (u : υ) (i : Inst seed ρ ι κ υ) :
    Inst seed ρ ι κ υ where
  rngSeed := if "RandomMixin" ∈ r then some s else i.rngSeed
  rng := if "RandomMixin" ∈ r then i.rng.map (p.reseed s) else i.rng
  items := i.items
  children := if "RandomWithChildrenMixin" ∈ r then i.children.map fun ks => ks.map (p.seed s) else i.children
  user := u

/-- The attributes that the mixins take from the keyword arguments. -/
def fresh (p : Parts seed ρ κ) (mro : List Name) (kw : Kw seed ι κ) (u : υ) : Inst seed ρ ι κ υ where
  rngSeed := if "RandomMixin" ∈ mro then some (kw.rngSeed.getD p.noSeed) else none
  rng := none
  items := if "ItemsMixin" ∈ mro then some (kw.items.getD []) else none
  children := if "ChildrenMixin" ∈ mro then some (kw.children.getD []) else none
  user := u

/-- Arguments for which there is a mixin. -/
def Kw.Fits (kw : Kw seed ι κ) (mro : List Name) : Prop :=
  (kw.rngSeed.isSome → "RandomMixin" ∈ mro) ∧ (kw.items.isSome → "ItemsMixin" ∈ mro) ∧
    (kw.children.isSome → "ChildrenMixin" ∈ mro) ∧ kw.other = []

/-- The arguments that a class of the user passes on. -/
def UserInit.args : UserInit seed ι κ υ → Kw seed ι κ → Kw seed ι κ
  | .inherited => id
  | .passesOn _ args _ => args

def theirArgs (user : Name → UserInit seed ι κ υ) (c : Name) : Kw seed ι κ → Kw seed ι κ :=
  if c ∈ given then id else (user c).args

end Cls
end Fauxdoc
