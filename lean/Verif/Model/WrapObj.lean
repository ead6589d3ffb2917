import Verif.Model.Wrappers
/-
Model of `BoundWrapper` as an object with attributes that can be assigned,
`/repo/src/fauxdoc/emitters/wrappers.py` 26-154: the setter of `function` (88-107) stores the function
first and looks at its signature afterwards, and `__call__` (119-122) goes by what was stored.
-/
namespace Fauxdoc

/-- A Python object given as a function. -/
inductive FnObj (G : Type) where
  /-- A callable without an attribute `function`. -/
  | plain (cb : Callback G)
  /-- A callable object (other than a `BoundWrapper`) with an attribute `function`. -/
  | having (cb : Callback G) (function : FnObj G)
  /-- Something that cannot be called. -/
  | junk
  /-- A `BoundWrapper`. -/
  | wrapper (r : Nat)

/-- The attributes of a `BoundWrapper`: `_function`, `_signature`, `_wants_rng`, and the number of the
emitter it is bound to. -/
structure WrapAttrs (G : Type) where
  fn : FnObj G
  sig : Option (List Param)
  wants : Bool
  owner : Nat

/-- All `BoundWrapper` objects, and the generators of all emitters. -/
structure WrapStore (G : Type) where
  wr : Nat → WrapAttrs G
  gen : Nat → G

namespace WrapStore
variable {G : Type}

/-- Assign the attributes of an object. -/
def put (r : Nat) (a : WrapAttrs G) (s : WrapStore G) : WrapStore G :=
  { s with wr := fun x => if x = r then a else s.wr x }

/-- The attribute `rng` of an emitter. -/
def genOf (i : Nat) : Attr (WrapStore G) G where
  get s := s.gen i
  set g s := { s with gen := fun x => if x = i then g else s.gen x }
  get_set g s := by simp
  set_get s := by
    have : (fun x => if x = i then s.gen i else s.gen x) = s.gen := by
      funext x
      split
      · rename_i h; rw [h]
      · rfl
    rw [this]
  set_set g g' s := by
    congr 1
    funext x
    simp only
    split <;> rfl

/-- The signature of `BoundWrapper.__call__`, wrappers.py 119: `(*args, **kwargs)`. -/
def callSig : List Param := [⟨"args", .varPos, false⟩, ⟨"kwargs", .varKw, false⟩]

/-- `inspect.signature(f)`: `ValueError` for some builtins, `TypeError` for what is not callable. -/
def signatureOf : FnObj G → Py (List Param)
  | .plain cb | .having cb _ =>
    match cb.sig with
    | some ps => .ok ps
    | none => .error .valueError
  | .junk => .error .typeError
  | .wrapper _ => .ok callSig

/-- `getattr(f, 'function')`, `none` if there is no such attribute. -/
def functionOf (s : WrapStore G) : FnObj G → Option (FnObj G)
  | .plain _ | .junk => none
  | .having _ f => some f
  | .wrapper r => some (s.wr r).fn

/-- The setter of `function`, wrappers.py 88-107. -/
def setFunction (r : Nat) (f : FnObj G) : PyM (WrapStore G) Unit := do
  PyM.modify fun s => s.put r { s.wr r with fn := f }
  match signatureOf f with
  | .ok ps => PyM.modify fun s => s.put r { s.wr r with
      sig := some ps, wants := ps.any fun p => p.name = "rng" }
  | .error .valueError => PyM.modify fun s => s.put r { s.wr r with sig := none, wants := false }
  | .error e => PyM.raise e

/-- `BoundWrapper(f, bound_to)`, wrappers.py 64-81, as the object `r`. -/
def init (r : Nat) (f : FnObj G) (owner : Nat) : PyM (WrapStore G) Unit := do
  let s ← PyM.get
  setFunction r ((s.functionOf f).getD f)
  PyM.modify fun s => s.put r { s.wr r with owner := owner }

/-- `BoundWrapper.__call__`, wrappers.py 119-122.  `fuel` bounds the number of wrappers within
wrappers.  A stored `wants` can only be true of a function with a signature, or of something that
cannot be called (`C111_describes_partial`); so `rng` is never passed to a wrapper. -/
def call : Nat → Nat → List Val → Dict Val → PyM (WrapStore G) Val
  | 0, _, _, _ => PyM.raise .recursion
  | fuel + 1, r, args, kwargs =>
    if "self" ∈ kwargs.keys then PyM.raise .typeError
    else do
      let s ← PyM.get
      let a := s.wr r
      if a.wants then
        match a.fn with
        | .plain cb | .having cb _ => (genOf a.owner).run (cb.invokeRng args kwargs)
        | .junk | .wrapper _ => PyM.raise .typeError
      else
        match a.fn with
        | .plain cb | .having cb _ => PyM.lift (cb.invoke args kwargs)
        | .junk => PyM.raise .typeError
        | .wrapper r' => call fuel r' args kwargs

end WrapStore
end Fauxdoc
