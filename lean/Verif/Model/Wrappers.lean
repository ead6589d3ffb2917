import Verif.Model.Text
import Verif.Py.Dict
/-
Model of `/repo/src/fauxdoc/emitters/wrappers.py`, over an arbitrary state `σ` and arbitrary child
emitters (see `Model/Text`).
-/
namespace Fauxdoc

/-! ### Python call signatures -/

/-- `inspect.Parameter.kind`. -/
inductive ParamKind where
  | posOnly
  | posOrKw
  | varPos
  | kwOnly
  | varKw
  deriving DecidableEq, Repr

/-- A parameter of a Python function. -/
structure Param where
  name : String
  kind : ParamKind
  hasDefault : Bool
  deriving DecidableEq, Repr

namespace Sig

/-- First phase of `inspect.Signature._bind` (CPython 3.11): consume `n` positional arguments.  The
result is the list of parameters left for the keyword phase; `none` is a `TypeError`. -/
def bindPos (kw : List String) : List Param → Nat → Option (List Param)
  | [], 0 => some []
  | p :: ps, 0 =>
    if p.kind = .varPos then some ps
    else if p.name ∈ kw then
      if p.kind = .posOnly then none else some (p :: ps)
    else if p.kind = .varKw ∨ p.hasDefault then some (p :: ps)
    else none
  | [], _ + 1 => none
  | p :: ps, n + 1 =>
    if p.kind = .varKw ∨ p.kind = .kwOnly then none
    else if p.kind = .varPos then some ps
    else if p.name ∈ kw ∧ p.kind ≠ .posOnly then none
    else bindPos kw ps n

/-- Second phase of `_bind`: keyword arguments; `false` is a `TypeError`. -/
def bindKw : List Param → List String → Bool → Bool
  | [], kw, hasVarKw => kw.isEmpty || hasVarKw
  | p :: ps, kw, hasVarKw =>
    if p.kind = .varKw then bindKw ps kw true
    else if p.kind = .varPos then bindKw ps kw hasVarKw
    else if p.name ∈ kw then
      if p.kind = .posOnly then false else bindKw ps (kw.erase p.name) hasVarKw
    else if p.hasDefault then bindKw ps kw hasVarKw
    else false

/-- `Signature.bind` with `n` positional arguments and keyword arguments `kw` succeeds. -/
def bindOk (ps : List Param) (n : Nat) (kw : List String) : Bool :=
  match bindPos kw ps n with
  | none => false
  | some rest => bindKw rest kw false

/-- The parameters that positional arguments fill, in order. -/
def positional (ps : List Param) : List Param :=
  ps.filter fun p => p.kind = .posOnly ∨ p.kind = .posOrKw

/-- A call of a Python function with `n` positional arguments and (distinct) keyword arguments `kw`
does not fail with a `TypeError` for wrong arguments (rules of the language reference, "Calls"). -/
def callOk (ps : List Param) (n : Nat) (kw : List String) : Bool :=
  decide (n ≤ (positional ps).length ∨ ∃ p ∈ ps, p.kind = .varPos) &&
  decide (∀ k ∈ kw, (∃ p ∈ ps, p.kind = .varKw) ∨
    ∃ p ∈ ps, p.name = k ∧ (p.kind = .posOrKw ∨ p.kind = .kwOnly)) &&
  decide (∀ p ∈ (positional ps).take n, p.kind = .posOrKw → p.name ∉ kw) &&
  decide (∀ p ∈ (positional ps).drop n, p.hasDefault ∨ p.kind = .posOrKw ∧ p.name ∈ kw) &&
  decide (∀ p ∈ ps, p.kind = .kwOnly → p.hasDefault ∨ p.name ∈ kw)

end Sig

/-! ### User callbacks -/

/-- A user-supplied callable.  `sig` is its `inspect.signature`, `none` if that raises `ValueError`
(builtins).  `run args kwargs` is what the body does; `runRng` is what it does when it is also given
a random generator under the keyword `rng`.
Simplification: callbacks have no other state. -/
structure Callback (G : Type) where
  sig : Option (List Param)
  run : List Val → Dict Val → Py Val
  runRng : List Val → Dict Val → PyM G Val

/-- An attribute of an object (such as the generator of the emitter a wrapper is bound to) within the
state. -/
structure Attr (σ G : Type) where
  get : σ → G
  set : G → σ → σ
  get_set : ∀ g s, get (set g s) = g
  set_get : ∀ s, set (get s) s = s
  set_set : ∀ g g' s, set g' (set g s) = set g' s

/-- Run a computation on the attribute. -/
def Attr.run {σ G α : Type} (L : Attr σ G) (m : PyM G α) : PyM σ α := fun s =>
  match m (L.get s) with
  | (r, g) => (r, L.set g s)

namespace Callback
variable {σ G : Type}

/-- `wants_rng`, wrappers.py 97-107: a parameter is named `rng`. -/
def wantsRng (cb : Callback G) : Bool :=
  match cb.sig with
  | none => false
  | some ps => ps.any fun p => p.name = "rng"

/-- Python accepts the arguments (a builtin checks them itself, in `run`). -/
def accepts (cb : Callback G) (n : Nat) (kw : List String) : Bool :=
  match cb.sig with
  | none => true
  | some ps => Sig.callOk ps n kw

/-- `function(*args, **kwargs)`. -/
def invoke (cb : Callback G) (args : List Val) (kwargs : Dict Val) : Py Val :=
  if cb.accepts args.length kwargs.keys then cb.run args kwargs else .error .typeError

/-- `function(*args, rng=rng, **kwargs)`: a second value for `rng` is a `TypeError`. -/
def invokeRng (cb : Callback G) (args : List Val) (kwargs : Dict Val) : PyM G Val :=
  if "rng" ∈ kwargs.keys then PyM.raise .typeError
  else if cb.accepts args.length (kwargs.keys ++ ["rng"]) then cb.runRng args kwargs
  else PyM.raise .typeError

/-- `BoundWrapper.__call__`, wrappers.py 119-122; a keyword `self` clashes with the method's own
parameter. -/
def call (L : Attr σ G) (cb : Callback G) (args : List Val) (kwargs : Dict Val) : PyM σ Val :=
  if "self" ∈ kwargs.keys then PyM.raise .typeError
  else if cb.wantsRng then L.run (cb.invokeRng args kwargs)
  else PyM.lift (cb.invoke args kwargs)

/-- `BoundWrapper.try_mock_call`, wrappers.py 124-154.  `kwargs['rng'] = ...` replaces an argument
of that name. -/
def tryMockCall (cb : Callback G) (args : List Val) (kwargs : Dict Val) : Py Unit :=
  if "self" ∈ kwargs.keys then .error .typeError
  else
    let kw := if cb.wantsRng ∧ "rng" ∉ kwargs.keys then kwargs.keys ++ ["rng"] else kwargs.keys
    match cb.sig with
    | none => do
      let _ ← cb.run args kwargs
      return ()
    | some ps => if Sig.bindOk ps args.length kw then .ok () else .error .typeError

end Callback

/-- Run `f` over a list, left to right. -/
def mapPyM {σ α β : Type} (f : α → PyM σ β) : List α → PyM σ (List β)
  | [] => pure []
  | a :: as => do
    let b ← f a
    let bs ← mapPyM f as
    return b :: bs

/-! ### WrapOne -/

namespace WrapOne
variable {σ G : Type}

/-- `emit`, wrappers.py 291-293. -/
def emit (L : Attr σ G) (source : Child σ) (cb : Callback G) : PyM σ Val := do
  let v ← source none
  cb.call L [v] []

/-- `emit_many`, wrappers.py 295-301. -/
def emitMany (L : Attr σ G) (source : Child σ) (cb : Callback G) (number : Int) :
    PyM σ (List Val) := do
  let vs ← source (some (.int number))
  let l ← PyM.lift vs.elems
  mapPyM (fun v => cb.call L [v] []) l

/-- `wrap_one()` and `wrap_one(n)`.  A number that is not an integer goes to the source first
(wrappers.py 301), which does not answer (as in `Word`). -/
def call (L : Attr σ G) (source : Child σ) (cb : Callback G) : Child σ :=
  emitterCallOr (Word.emitBad source) (emit L source cb) (emitMany L source cb)

/-- The `wrapper` setter, wrappers.py 276-289.  `store` assigns `self._wrapper`, `reset` is
`self.reset()`. -/
def setWrapper (source : Child σ) (cb : Callback G) (store reset : PyM σ Unit) : PyM σ Unit :=
  PyM.finally_ (do
    let v ← source none
    PyM.lift (cb.tryMockCall [v] []))
   (do
    store
    reset)

end WrapOne

/-! ### WrapMany -/

/-- `v[i]`. -/
def Val.getItem (v : Val) (i : Int) : Py Val :=
  match v with
  | .list l => pyListGet l i
  | .tuple l => pyListGet l i
  | .str s => do return .str [← pyListGet s i]
  | _ => .error .typeError

namespace WrapMany
variable {σ G : Type}

/-- `{k: em(...) for k, em in self._emitters.items()}` and the list of pairs of wrappers.py 409: call
every source, in order. -/
def draw (sources : Dict (Child σ)) (arg : Option Val) : PyM σ (Dict Val) :=
  mapPyM (fun ke => do return (ke.1, ← ke.2 arg)) sources

/-- `{k: v[i] for k, v in emdata}`. -/
def row (emdata : Dict Val) (i : Int) : Py (Dict Val) :=
  mapPy (fun kv => do return (kv.1, ← kv.2.getItem i)) emdata

/-- `emit`, wrappers.py 398-401. -/
def emit (L : Attr σ G) (sources : Dict (Child σ)) (cb : Callback G) : PyM σ Val := do
  let kwargs ← draw sources none
  cb.call L [] kwargs

/-- `emit_many`, wrappers.py 403-413. -/
def emitMany (L : Attr σ G) (sources : Dict (Child σ)) (cb : Callback G) (number : Int) :
    PyM σ (List Val) := do
  let emdata ← draw sources (some (.int number))
  mapPyM (fun (i : Nat) => do
    let kwargs ← PyM.lift (row emdata (i : Int))
    cb.call L [] kwargs) (List.range number.toNat)

/-- `emit_many` with a number that is not an integer: every source gets it (wrappers.py 409), then
`range` refuses it. -/
def emitBad (sources : Dict (Child σ)) (v : Val) : PyM σ Val := do
  let _ ← draw sources (some v)
  PyM.raise .typeError

/-- `wrap_many()` and `wrap_many(n)`. -/
def call (L : Attr σ G) (sources : Dict (Child σ)) (cb : Callback G) : Child σ :=
  emitterCallOr (emitBad sources) (emit L sources cb) (emitMany L sources cb)

/-- The `wrapper` setter, wrappers.py 382-396: here the sources are called before the `try`. -/
def setWrapper (sources : Dict (Child σ)) (cb : Callback G) (store reset : PyM σ Unit) :
    PyM σ Unit := do
  let kwargs ← draw sources none
  PyM.finally_ (PyM.lift (cb.tryMockCall [] kwargs)) (do
    store
    reset)

end WrapMany
end Fauxdoc
