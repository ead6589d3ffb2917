import Verif.Model.Group
/-
Seeding with values that `random.seed` does not accept (`mixins.py`, `emitters/choice.py`,
`emitters/text.py`, `profile.py`).

The classes are reduced to what they do with seeds; everything else an object has is arbitrary.
Objects may share their parts.
-/
namespace Fauxdoc.Refused

/-- Objects, by number. -/
abbrev Ref := Nat

/-- A value for `rng_seed`: one that `random.seed` accepts (`None` or a number), or another
(`random.seed` answers with a `TypeError`). -/
inductive Seed where
  | valid (s : Option Int)
  | refused
  deriving DecidableEq, Repr

/-- The classes, by their `seed` and `reset`. -/
inductive Cls where
  /-- No generator: `Static`, `Iterative`, `Sequential`, `CopyFields`. -/
  | plain
  /-- `RandomMixin` alone: `Choice`, `BasedOnFields`. -/
  | own
  /-- `RandomWithChildrenMixin`: `WrapOne`, `WrapMany`, `Field`. -/
  | parent (kids : List Ref)
  /-- The same, with methods that reset and seed the children once more: `Word`, `Text`. -/
  | twice (kids : List Ref)
  deriving DecidableEq, Repr

/-- An object: its class, `rng_seed`, `rng`, everything else (`data`), and what `reset` and `seed` do
last (`Choice._global_shuffle`, choice.py 240-248 and 258-259; `Field._cache`, profile.py 181;
`Iterative.reset`, fixed.py 164-166). -/
structure Obj (G E : Type) where
  cls : Cls
  seed : Seed
  rng : G
  data : E
  lastReset : PyM (G × E) Unit
  lastSeed : PyM (G × E) Unit

/-- All objects, and how often the system was asked for randomness. -/
structure Store (G E : Type) where
  obj : Ref → Obj G E
  entropy : Nat

variable {G E : Type}

/-- `hasattr(obj, 'rng_seed')`. -/
def Cls.random : Cls → Bool
  | .plain => false
  | _ => true

/-- The objects in `_emitters`. -/
def Cls.kids : Cls → List Ref
  | .parent ks => ks
  | .twice ks => ks
  | _ => []

/-- A change of one object. -/
def Store.upd (w : Store G E) (r : Ref) (f : Obj G E → Obj G E) : Store G E :=
  { w with obj := fun x => if x = r then f (w.obj r) else w.obj x }

/-- Assignment to `rng_seed`. -/
def setSeed (r : Ref) (s : Seed) : PyM (Store G E) Unit :=
  PyM.modify fun w => w.upd r fun a => { a with seed := s }

/-- `random.Random(seed)` and `rng.seed(seed)`; a seed that is refused leaves the generator. -/
def newRng (ofSeed : Int → G) (ofEntropy : Nat → G) (r : Ref) : Seed → PyM (Store G E) Unit
  | .refused => PyM.raise .typeError
  | .valid (some n) => PyM.modify fun w => w.upd r fun a => { a with rng := ofSeed n }
  | .valid none => PyM.modify fun w =>
      { w.upd r fun a => { a with rng := ofEntropy w.entropy } with entropy := w.entropy + 1 }

/-- What an object does last, with its own attributes. -/
def last (r : Ref) (m : PyM (G × E) Unit) : PyM (Store G E) Unit := fun w =>
  match m ((w.obj r).rng, (w.obj r).data) with
  | (res, g, e) => (res, w.upd r fun a => { a with rng := g, data := e })

/-- `self._emitters.setattr('rng_seed', s)`, group.py 25-37. -/
def seedKids (kids : List Ref) (s : Seed) : PyM (Store G E) Unit :=
  Group.setattr (kids.map some) (fun c (w : Store G E) => (w.obj c).cls.random) fun c => setSeed c s

variable (ofSeed : Int → G) (ofEntropy : Nat → G)

/-- `RandomMixin.seed`, mixins.py 50-60. -/
def mixinSeed (r : Ref) (s : Seed) : PyM (Store G E) Unit := do
  setSeed r s
  newRng ofSeed ofEntropy r s

/-- `obj.seed(s)`: mixins.py 50-60 and 154-160, choice.py 250-259, text.py 122-125 and 237-240. -/
def seed : Nat → Ref → Seed → PyM (Store G E) Unit
  | 0, _, _ => PyM.raise .recursion
  | fuel + 1, r, s => do
    let a := (← PyM.get).obj r
    match a.cls with
    | .plain => PyM.raise .attributeError
    | .own => do
      mixinSeed ofSeed ofEntropy r s
      last r a.lastSeed
    | .parent kids => do
      Group.doMethod (kids.map some) (seed fuel · s)
      PyM.ignoring .attributeError (mixinSeed ofSeed ofEntropy r s)
    | .twice kids => do
      Group.doMethod (kids.map some) (seed fuel · s)
      PyM.ignoring .attributeError (mixinSeed ofSeed ofEntropy r s)
      let b := (← PyM.get).obj r
      Group.doMethod (kids.map some) (seed fuel · b.seed)

/-- `RandomWithChildrenMixin.reset`, mixins.py 149-152, with 43-48 and 132-137. -/
def mixinReset (reset : Ref → PyM (Store G E) Unit) (r : Ref) (kids : List Ref) (s : Seed) :
    PyM (Store G E) Unit := do
  seedKids kids s
  newRng ofSeed ofEntropy r s
  Group.doMethod (kids.map some) reset

/-- `obj.reset()`: emitter.py 20-27, mixins.py 43-48 and 149-152, choice.py 233-248, fixed.py 164-166,
text.py 116-120 and 231-235, profile.py 178-181. -/
def reset : Nat → Ref → PyM (Store G E) Unit
  | 0, _ => PyM.raise .recursion
  | fuel + 1, r => do
    let a := (← PyM.get).obj r
    match a.cls with
    | .plain => last r a.lastReset
    | .own => do
      newRng ofSeed ofEntropy r a.seed
      last r a.lastReset
    | .parent kids => do
      mixinReset ofSeed ofEntropy (reset fuel) r kids a.seed
      last r a.lastReset
    | .twice kids => do
      mixinReset ofSeed ofEntropy (reset fuel) r kids a.seed
      let b := (← PyM.get).obj r
      seedKids kids b.seed
      Group.doMethod (kids.map some) (reset fuel)

end Fauxdoc.Refused
