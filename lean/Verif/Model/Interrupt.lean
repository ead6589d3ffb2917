import Verif.Model.World
/-
Generation, resetting and seeding that the user may interrupt (`KeyboardInterrupt`) at any moment.

The functions mirror those of `Model/World`, on a store together with a clock.  Every method of every
object looks at the clock before and after its work, and so does every assignment that `reset` and
`seed` make; when the time has come the interrupt is raised there.  No `except` clause of the library
catches a `KeyboardInterrupt` (group.py 55, mixins.py 159 and the others name exceptions that are not its
superclasses), so it ends the call.

An interrupt within a method that the model treats as one step (a draw, a shuffle, a step of an
iterator, a wrapper function) may leave the object struck half-way; a `Tear` says how.  A generator
that an exception passes through is finished: `next` raises `StopIteration` from then on.  The store
of `Model/World` has no finished generators, so `dead` records the `Iterative` and `Sequential`
objects whose `_iterator` is one.
-/
namespace Fauxdoc
variable {K : Type} [Field K] [LinearOrder K] [FloorRing K]

/-- The interrupt as an exception. -/
def interrupt : Err := .user 0

/-- The store, how often the clock will still be looked at before the interrupt (`none`: no interrupt
will come), whether it has come, and the iterating emitters whose generator is finished. -/
structure Alarm (R : Rng K) where
  world : World R
  left : Option Nat
  rang : Bool
  dead : Ref → Bool

/-- What an interrupt leaves of the object it strikes and of the OS entropy, and whether it finishes
the object's generator. -/
structure Tear (R : Rng K) where
  attrs : Attrs R → Attrs R
  entropy : Nat → Nat
  kills : Bool

variable {R : Rng K}

namespace Alarm

/-- The interrupt strikes the object `r`. -/
def strike (T : Tear R) (r : Ref) (s : Alarm R) : Alarm R where
  world := { s.world.upd r T.attrs with entropy := T.entropy s.world.entropy }
  left := none
  rang := true
  dead x := if x = r then s.dead r || T.kills else s.dead x

/-- Look at the clock during a method of `r`. -/
def tick (T : Tear R) (r : Ref) : PyM (Alarm R) Unit := fun s =>
  match s.left with
  | none => (.ok (), s)
  | some 0 => (.error interrupt, s.strike T r)
  | some (n + 1) => (.ok (), { s with left := some n })

/-- A computation on the store. -/
def lift {α : Type} (m : PyM (World R) α) : PyM (Alarm R) α := fun s =>
  match m s.world with
  | (res, w) => (res, { s with world := w })

/-- A method of `r`, with a look at the clock before and after. -/
def guarded {α : Type} (T : Tear R) (r : Ref) (m : PyM (Alarm R) α) : PyM (Alarm R) α := do
  tick T r
  let a ← m
  tick T r
  return a

/-- An attribute of an object in the store. -/
def attr {β : Type} (L : Attr (World R) β) : Attr (Alarm R) β where
  get s := L.get s.world
  set b s := { s with world := L.set b s.world }
  get_set b s := L.get_set b s.world
  set_get s := by simp [L.set_get]
  set_set b b' s := by simp [L.set_set]

/-- A new generator for `r`. -/
def revive (r : Ref) : PyM (Alarm R) Unit :=
  PyM.modify fun s => { s with dead := fun x => if x = r then false else s.dead x }

/-! ### reset and seed -/

/-- `self._emitters.setattr('rng_seed', value)`, group.py 25-37. -/
def setChildSeeds (T : Tear R) (children : List Ref) (s : Option Int) : PyM (Alarm R) Unit :=
  Group.setattr (children.map some) (fun c (a : Alarm R) => (a.world.obj c).random)
    (fun c => guarded T c (lift (PyM.modify (World.upd c (Attrs.setSeed s)))))

/-- `RandomWithChildrenMixin.reset`, mixins.py 149-152, with 43-48 and 132-137. -/
def mixinReset (T : Tear R) (reset : Ref → PyM (Alarm R) Unit) (r : Ref) : PyM (Alarm R) Unit := do
  let a := (← PyM.get).world.obj r
  setChildSeeds T a.children a.seed
  guarded T r (lift (World.newRng r a.seed))
  Group.doMethod (a.children.map some) reset

/-- `obj.reset()`, sources as for `World.reset`.  `Iterative` and `Sequential` get a new generator
(fixed.py 164-166, 264-266). -/
def reset (T : Tear R) : Nat → Ref → PyM (Alarm R) Unit
  | 0, _ => PyM.raise .recursion
  | fuel + 1, r => do
    let a := (← PyM.get).world.obj r
    match a.node with
    | none => PyM.raise .attributeError
    | some (.choice _) => guarded T r (lift (World.onChoice r Choice.reset))
    | some .static => pure ()
    | some .iterative => guarded T r do
      lift ((World.iterAttr r).run Iterative.reset)
      revive r
    | some (.sequential _) => guarded T r do
      lift ((World.seqAttr r).run (Sequential.onIt Iterative.reset))
      revive r
    | some (.word ..) | some (.text ..) => do
      mixinReset T (reset T fuel) r
      let a := (← PyM.get).world.obj r
      setChildSeeds T a.children a.seed
      Group.doMethod (a.children.map some) (reset T fuel)
    | some (.wrapOne _) | some (.wrapMany _) => mixinReset T (reset T fuel) r
    | some (.copyFields ..) => pure ()
    | some (.basedOn ..) => guarded T r (lift (World.newRng r a.seed))
    | some (.field ..) =>
      guarded T r (Field.reset (attr (World.cacheAttr r)) (mixinReset T (reset T fuel) r))

/-- `RandomMixin.seed`, mixins.py 50-60. -/
def mixinSeed (T : Tear R) (r : Ref) (s : Option Int) : PyM (Alarm R) Unit := do
  guarded T r (lift (PyM.modify (World.upd r fun a => { a with seed := s })))
  guarded T r (lift (World.newRng r s))

/-- `RandomWithChildrenMixin.seed`, mixins.py 154-160. -/
def mixinChildSeed (T : Tear R) (seed : Ref → Option Int → PyM (Alarm R) Unit) (r : Ref)
    (s : Option Int) : PyM (Alarm R) Unit := do
  let a := (← PyM.get).world.obj r
  Group.doMethod (a.children.map some) (seed · s)
  PyM.ignoring .attributeError (mixinSeed T r s)

/-- `obj.seed(s)`, sources as for `World.seed`. -/
def seed (T : Tear R) : Nat → Ref → Option Int → PyM (Alarm R) Unit
  | 0, _, _ => PyM.raise .recursion
  | fuel + 1, r, s => do
    let a := (← PyM.get).world.obj r
    match a.node with
    | none => PyM.raise .attributeError
    | some (.choice _) => guarded T r (lift (World.onChoice r (Choice.seed s)))
    | some .static | some .iterative | some (.sequential _) | some (.copyFields ..) =>
      PyM.raise .attributeError
    | some (.word ..) | some (.text ..) => do
      mixinChildSeed T (seed T fuel) r s
      let a := (← PyM.get).world.obj r
      Group.doMethod (a.children.map some) (seed T fuel · a.seed)
    | some (.wrapOne _) | some (.wrapMany _) | some (.field ..) =>
      mixinChildSeed T (seed T fuel) r s
    | some (.basedOn ..) => mixinSeed T r s

/-! ### Calling -/

/-- `em()` and `em(value)` of an `Iterative` or `Sequential` whose generator is finished
(fixed.py 168-184, 303-319): `next` raises `StopIteration`, and `islice` gives nothing, after which
the emitter is reset if `reset_after_call` is set. -/
def spent (r : Ref) (resetAfterCall : Bool) (reset : PyM (World R) Unit) : Child (Alarm R) :=
  emitterCallOr (fun _ => PyM.raise .valueError) (PyM.raise .stopIteration) fun n =>
    if n < 0 then PyM.raise .valueError
    else if resetAfterCall then do
      lift reset
      revive r
      return []
    else return []

/-- The source fields of an emitter of `fromfields.py`. -/
def sourceGroup (call : Ref → PyM (Alarm R) Val) (reset : Ref → PyM (Alarm R) Unit)
    (seed : Ref → Option Int → PyM (Alarm R) Unit) (w : World R) (src : List Ref) (single : Bool) :
    SourceGroup (Alarm R) where
  fields := src.map fun g =>
    { name := (w.obj g).name
      previous := fun s => (s.world.obj g).cache
      multiValued := fun s => World.multiValued g s.world
      call := call g
      reset := reset g
      seed := seed g }
  initSingle := single

/-- `obj()` and `obj(value)`, sources as for `World.call`. -/
def call (T : Tear R) (str : Val → List Char) : Nat → Ref → Child (Alarm R)
  | 0, _, _ => PyM.raise .recursion
  | fuel + 1, r, arg => guarded T r do
    let s ← PyM.get
    let a := s.world.obj r
    let group := sourceGroup (fun g => call T str fuel g none) (reset T fuel) (seed T fuel) s.world
    match a.node with
    | none => PyM.raise .typeError
    | some (.choice _) => lift (World.onChoice r (Choice.child arg))
    | some .static => lift (World.staticChild r arg)
    | some .iterative =>
      if s.dead r then
        spent r a.iter.resetAfterCall ((World.iterAttr r).run Iterative.reset) arg
      else lift (World.iterChild r arg)
    | some (.sequential _) =>
      if s.dead r then
        spent r a.seq.it.resetAfterCall ((World.seqAttr r).run (Sequential.onIt Iterative.reset)) arg
      else lift (World.seqChild r arg)
    | some (.word l c) => Word.call (call T str fuel l) (call T str fuel c) arg
    | some (.text n wd sp) =>
      Text.call (call T str fuel n) ⟨call T str fuel wd, reset T fuel wd, lift (World.roacInfo wd)⟩
        (call T str fuel sp) arg
    | some (.wrapOne x) =>
      match a.wrapper with
      | none => PyM.raise .attributeError
      | some cb => WrapOne.call (attr (World.rngAttr r)) (call T str fuel x) cb arg
    | some (.wrapMany xs) =>
      match a.wrapper with
      | none => PyM.raise .attributeError
      | some cb =>
        WrapMany.call (attr (World.rngAttr r)) (xs.map fun kx => (kx.1, call T str fuel kx.2)) cb arg
    | some (.copyFields src single sep) => CopyFields.call str (group src single) sep arg
    | some (.basedOn src single) =>
      match a.wrapper with
      | none => PyM.raise .attributeError
      | some cb => BasedOnFields.call (attr (World.rngAttr r)) (group src single) cb arg
    | some (.field _ e rp g _) =>
      match arg with
      | none =>
        Field.call (attr (World.cacheAttr r)) (call T str fuel e) (call T str fuel rp)
          (call T str fuel g)
      | some _ => PyM.raise .typeError

/-! ### Schemas -/

/-- `schema()`, profile.py 302-318. -/
def document (T : Tear R) (str : Val → List Char) (fuel : Nat) (fields : Dict Ref) :
    PyM (Alarm R) (Dict Val) := do
  let s ← PyM.get
  Schema.call (fun r => (s.world.obj r).hide) (fun r => call T str fuel r none) fields

/-- `schema.reset_fields()`, profile.py 288-290. -/
def resetFields (T : Tear R) (fuel : Nat) (fields : Dict Ref) : PyM (Alarm R) Unit :=
  Schema.resetFields (reset T fuel) fields

/-- `schema.seed_fields(s)`, profile.py 292-300. -/
def seedFields (T : Tear R) (fuel : Nat) (z : Option Int) (fields : Dict Ref) : PyM (Alarm R) Unit :=
  Schema.seedFields (seed T fuel) z fields

end Alarm
end Fauxdoc
