import Verif.Model.ChoiceVal
import Verif.Model.Fixed
import Verif.Model.Profile
/-
All objects of the library together: a store of objects that refer to each other.

The classes modelled one by one in the other `Model` files over an arbitrary state are instantiated
here with the state "the whole store", so that emitters can be nested to any depth, shared, and even
form cycles.  Calls between objects go through a recursion budget (`fuel`); running out of it is
Python's `RecursionError`.  Theorems hold for every budget.

Simplifications: an object is a record of all attributes any class has, its class (`Node`) says which
of them are meaningful; a wrapper function is bound to the emitter it was given to (wrappers.py 248,
354, fromfields.py 237 always do this); child emitters are instances of the library classes; the
deprecated `Wrap` base class (abstract, without `emit`) is left out.
-/
namespace Fauxdoc

/-- A reference to an object. -/
abbrev Ref := Nat

/-- The class of an object with its references to other objects and fixed attributes.  For
sequences given by the user the kind of sequence is recorded (`Field.multi_valued` depends on it). -/
inductive Node where
  | choice (kind : ItemsKind)
  | static
  | iterative
  | sequential (kind : ItemsKind)
  | word (length alphabet : Ref)
  | text (numwords word sep : Ref)
  | wrapOne (source : Ref)
  | wrapMany (sources : Dict Ref)
  | copyFields (source : List Ref) (initSingle : Bool) (separator : Option (List Char))
  | basedOn (source : List Ref) (initSingle : Bool)
  | field (name : String) (emitter rep gate : Ref) (hide : Bool)
  deriving DecidableEq

variable {K : Type} [Field K] [LinearOrder K] [FloorRing K]

/-- The attributes of an object.  `seed` and `rng` are `rng_seed` and `rng` of the classes that use
`RandomMixin`, except that those of a `Choice` are inside `choice`; `wrapper` is `_wrapper` or
`_action`; `numUnique` is `_num_unique_values`; `cache` is `_cache` of a `Field`. -/
structure Attrs (R : Rng K) where
  node : Option Node
  choice : ChoiceSt Val R
  static : StaticSt Val
  iter : IterSt Val
  seq : SeqSt Val
  seed : Option Int
  rng : R.G
  wrapper : Option (Callback R.G)
  numUnique : Option ℚ
  cache : Val

/-- The store: every object, the next unused reference, and the OS entropy counter. -/
structure World (R : Rng K) where
  obj : Ref → Attrs R
  next : Ref
  entropy : Nat

variable {R : Rng K}

namespace World

/-- Change the attributes of one object. -/
def upd (r : Ref) (f : Attrs R → Attrs R) (w : World R) : World R :=
  { w with obj := fun x => if x = r then f (w.obj r) else w.obj x }

/-- An attribute of the object `r`. -/
def attr {β : Type} (r : Ref) (get : Attrs R → β) (set : β → Attrs R → Attrs R)
    (h1 : ∀ b a, get (set b a) = b) (h2 : ∀ a, set (get a) a = a)
    (h3 : ∀ b b' a, set b' (set b a) = set b' a) : Attr (World R) β where
  get w := get (w.obj r)
  set b w := w.upd r (set b)
  get_set b w := by simp [upd, h1]
  set_get w := by
    unfold upd
    congr 1
    funext x
    by_cases hx : x = r
    · simp [hx, h2]
    · simp [hx]
  set_set b b' w := by
    unfold upd
    congr 1
    funext x
    by_cases hx : x = r
    · simp [hx, h3]
    · simp [hx]

/-- The attributes of the `Static` object `r`. -/
def staticAttr (r : Ref) : Attr (World R) (StaticSt Val) :=
  attr r (·.static) (fun b a => { a with static := b }) (fun _ _ => rfl) (fun _ => rfl)
    (fun _ _ _ => rfl)

/-- The attributes of the `Iterative` object `r`. -/
def iterAttr (r : Ref) : Attr (World R) (IterSt Val) :=
  attr r (·.iter) (fun b a => { a with iter := b }) (fun _ _ => rfl) (fun _ => rfl)
    (fun _ _ _ => rfl)

/-- The attributes of the `Sequential` object `r`. -/
def seqAttr (r : Ref) : Attr (World R) (SeqSt Val) :=
  attr r (·.seq) (fun b a => { a with seq := b }) (fun _ _ => rfl) (fun _ => rfl)
    (fun _ _ _ => rfl)

/-- The attribute `rng` of `r` (for a class other than `Choice`). -/
def rngAttr (r : Ref) : Attr (World R) R.G :=
  attr r (·.rng) (fun b a => { a with rng := b }) (fun _ _ => rfl) (fun _ => rfl)
    (fun _ _ _ => rfl)

/-- The attribute `_cache` of the field `r`. -/
def cacheAttr (r : Ref) : Attr (World R) Val :=
  attr r (·.cache) (fun b a => { a with cache := b }) (fun _ _ => rfl) (fun _ => rfl)
    (fun _ _ _ => rfl)

/-- Run a method of the `Choice` object `r`. -/
def onChoice {β : Type} (r : Ref) (m : ChoiceM Val R β) : PyM (World R) β := fun w =>
  match m ((w.obj r).choice, w.entropy) with
  | (res, (c, e)) => (res, { w.upd r (fun a => { a with choice := c }) with entropy := e })

/-- `r.rng = random.Random(seed)` or `r.rng.seed(seed)` (for a class other than `Choice`). -/
def newRng (r : Ref) (seed : Option Int) : PyM (World R) Unit := fun w =>
  match R.new seed w.entropy with
  | (.ok g, e) => (.ok (), { w.upd r (fun a => { a with rng := g }) with entropy := e })
  | (.error x, e) => (.error x, { w with entropy := e })

end World

/-! ### Reading attributes -/

/-- The `items` attribute (mixins.py 87-90), if the class has one. -/
def Attrs.items (a : Attrs R) : Option (ItemsKind × List Val) :=
  match a.node with
  | some (.choice k) => some (k, a.choice.items)
  | some .static => some (.list, a.static.items)
  | some (.sequential k) => some (k, a.seq.items)
  | _ => none

/-- The class has an attribute `rng_seed` and a method `seed` (i.e. uses `RandomMixin`). -/
def Attrs.random (a : Attrs R) : Bool :=
  match a.node with
  | some (.choice _) | some (.word ..) | some (.text ..) | some (.wrapOne _) | some (.wrapMany _)
  | some (.basedOn ..) | some (.field ..) => true
  | _ => false

/-- The attribute `rng_seed`. -/
def Attrs.rngSeed (a : Attrs R) : Option Int :=
  match a.node with
  | some (.choice _) => a.choice.rngSeed
  | _ => a.seed

/-- The attribute `rng`. -/
def Attrs.generator (a : Attrs R) : R.G :=
  match a.node with
  | some (.choice _) => a.choice.rng
  | _ => a.rng

/-- The child emitters (`emitters`, mixins.py 127-130) of an object of the given class, in the order
of the `children` dict (text.py 93-96, 188-192, wrappers.py 250, 363, profile.py 128-132). -/
def Node.childRefs : Option Node → List Ref
  | some (.word l c) => [l, c]
  | some (.text n w s) => [n, w, s]
  | some (.wrapOne s) => [s]
  | some (.wrapMany ss) => ss.map (·.2)
  | some (.field _ e rp g _) => [e, rp, g]
  | _ => []

/-- The child emitters of an object. -/
def Attrs.children (a : Attrs R) : List Ref := Node.childRefs a.node

/-- The source fields of a `CopyFields` or `BasedOnFields` emitter. -/
def Node.sourceRefs : Option Node → List Ref
  | some (.copyFields src _ _) => src
  | some (.basedOn src _) => src
  | _ => []

/-- The source fields of an object. -/
def Attrs.sources (a : Attrs R) : List Ref := Node.sourceRefs a.node

/-- The class has a wrapper or action function. -/
def Node.hasWrapper : Option Node → Bool
  | some (.wrapOne _) | some (.wrapMany _) | some (.basedOn ..) => true
  | _ => false

/-- Assign `rng_seed`. -/
def Attrs.setSeed (s : Option Int) (a : Attrs R) : Attrs R :=
  match a.node with
  | some (.choice _) => { a with choice := { a.choice with rngSeed := s } }
  | _ => { a with seed := s }

/-- The attribute `name` of a field. -/
def Attrs.name (a : Attrs R) : String :=
  match a.node with
  | some (.field n _ _ _ _) => n
  | _ => ""

/-- The attribute `hide` of a field. -/
def Attrs.hide (a : Attrs R) : Bool :=
  match a.node with
  | some (.field _ _ _ _ h) => h
  | _ => false

namespace World

/-- `multi_valued` of the field `r`, profile.py 134-139. -/
def multiValued (r : Ref) (w : World R) : Bool :=
  match (w.obj r).node with
  | some (.field _ _ rp _ _) => Field.multiValued (w.obj rp).items
  | _ => true

/-- The source fields of an emitter of `fromfields.py`; `call`, `reset` and `seed` say what the
methods of an object do. -/
def sourceGroup (call : Ref → PyM (World R) Val) (reset : Ref → PyM (World R) Unit)
    (seed : Ref → Option Int → PyM (World R) Unit) (w : World R) (src : List Ref) (single : Bool) :
    SourceGroup (World R) where
  fields := src.map fun g =>
    { name := (w.obj g).name
      previous := fun v => (v.obj g).cache
      multiValued := multiValued g
      call := call g
      reset := reset g
      seed := seed g }
  initSingle := single

/-! ### reset and seed -/

/-- `self._emitters.setattr('rng_seed', value)` (group.py 25-37). -/
def setChildSeeds (children : List Ref) (s : Option Int) : PyM (World R) Unit :=
  Group.setattr (children.map some) (fun c (w : World R) => (w.obj c).random)
    (fun c => PyM.modify (upd c (Attrs.setSeed s)))

/-- `RandomWithChildrenMixin.reset`, mixins.py 149-152, with 43-48 and 132-137; `reset` is what
resetting an object does. -/
def mixinReset (reset : Ref → PyM (World R) Unit) (r : Ref) : PyM (World R) Unit := do
  let a := (← PyM.get).obj r
  setChildSeeds a.children a.seed
  newRng r a.seed
  Group.doMethod (a.children.map some) reset

/-- `obj.reset()` for every class: emitter.py 20-27, choice.py 233-248, fixed.py 164-166, 264-266,
text.py 116-120, 226-230, mixins.py 43-48 and 149-152, profile.py 178-181. -/
def reset : Nat → Ref → PyM (World R) Unit
  | 0, _ => PyM.raise .recursion
  | fuel + 1, r => do
    let a := (← PyM.get).obj r
    match a.node with
    | none => PyM.raise .attributeError
    | some (.choice _) => onChoice r Choice.reset
    | some .static => pure ()
    | some .iterative => (iterAttr r).run Iterative.reset
    | some (.sequential _) => (seqAttr r).run (Sequential.onIt Iterative.reset)
    | some (.word ..) | some (.text ..) => do
      mixinReset (reset fuel) r
      let a := (← PyM.get).obj r
      setChildSeeds a.children a.seed
      Group.doMethod (a.children.map some) (reset fuel)
    | some (.wrapOne _) | some (.wrapMany _) => mixinReset (reset fuel) r
    | some (.copyFields ..) => pure ()
    | some (.basedOn ..) => newRng r a.seed
    | some (.field ..) => Field.reset (cacheAttr r) (mixinReset (reset fuel) r)

/-- `RandomMixin.seed`, mixins.py 50-60. -/
def mixinSeed (r : Ref) (s : Option Int) : PyM (World R) Unit := do
  PyM.modify (upd r fun a => { a with seed := s })
  newRng r s

/-- `RandomWithChildrenMixin.seed`, mixins.py 154-160. -/
def mixinChildSeed (seed : Ref → Option Int → PyM (World R) Unit) (r : Ref) (s : Option Int) :
    PyM (World R) Unit := do
  let a := (← PyM.get).obj r
  Group.doMethod (a.children.map some) (seed · s)
  PyM.ignoring .attributeError (mixinSeed r s)

/-- `obj.seed(s)` for every class: choice.py 250-259, text.py 122-125, 232-235, mixins.py 50-60 and
154-160; the other classes have no such method. -/
def seed : Nat → Ref → Option Int → PyM (World R) Unit
  | 0, _, _ => PyM.raise .recursion
  | fuel + 1, r, s => do
    let a := (← PyM.get).obj r
    match a.node with
    | none => PyM.raise .attributeError
    | some (.choice _) => onChoice r (Choice.seed s)
    | some .static | some .iterative | some (.sequential _) | some (.copyFields ..) =>
      PyM.raise .attributeError
    | some (.word ..) | some (.text ..) => do
      mixinChildSeed (seed fuel) r s
      let a := (← PyM.get).obj r
      Group.doMethod (a.children.map some) (seed fuel · a.seed)
    | some (.wrapOne _) | some (.wrapMany _) | some (.field ..) => mixinChildSeed (seed fuel) r s
    | some (.basedOn ..) => mixinSeed r s

/-! ### Calling -/

/-- `static(...)`. -/
def staticChild (r : Ref) : Child (World R) :=
  emitterCall ((staticAttr r).run Static.emit) fun n => (staticAttr r).run (Static.emitMany n)

/-- `iterative(...)`.  `itertools.islice` answers a number that is not an integer with a
`ValueError` (fixed.py 181). -/
def iterChild (r : Ref) : Child (World R) :=
  emitterCallOr (fun _ => PyM.raise .valueError) ((iterAttr r).run Iterative.emit) fun n => (iterAttr r).run (Iterative.emitMany n)

/-- `sequential(...)`, as `iterative(...)` (fixed.py 316). -/
def seqChild (r : Ref) : Child (World R) :=
  emitterCallOr (fun _ => PyM.raise .valueError) ((seqAttr r).run (Sequential.onIt Iterative.emit))
    fun n => (seqAttr r).run (Sequential.onIt (Iterative.emitMany n))

/-- `num_unique_values or 0` if `replace_only_after_call` is set (text.py 262-263); only `Choice`
has that attribute. -/
def roacInfo (r : Ref) : PyM (World R) (Option Int) := do
  match ((← PyM.get).obj r).node with
  | some (.choice _) => onChoice r Choice.roacInfo
  | _ => return none

/-- `obj()` and `obj(value)` for every class (emitter.py 74-102, profile.py 183-198).  `str` is
Python's `str()`.  A field takes no argument. -/
def call (str : Val → List Char) : Nat → Ref → Child (World R)
  | 0, _, _ => PyM.raise .recursion
  | fuel + 1, r, arg => do
    let w ← PyM.get
    let a := w.obj r
    let group := sourceGroup (fun g => call str fuel g none) (reset fuel) (seed fuel) w
    match a.node with
    | none => PyM.raise .typeError
    | some (.choice _) => onChoice r (Choice.child arg)
    | some .static => staticChild r arg
    | some .iterative => iterChild r arg
    | some (.sequential _) => seqChild r arg
    | some (.word l c) => Word.call (call str fuel l) (call str fuel c) arg
    | some (.text n wd s) =>
      Text.call (call str fuel n) ⟨call str fuel wd, reset fuel wd, roacInfo wd⟩ (call str fuel s) arg
    | some (.wrapOne s) =>
      match a.wrapper with
      | none => PyM.raise .attributeError
      | some cb => WrapOne.call (rngAttr r) (call str fuel s) cb arg
    | some (.wrapMany ss) =>
      match a.wrapper with
      | none => PyM.raise .attributeError
      | some cb => WrapMany.call (rngAttr r) (ss.map fun ks => (ks.1, call str fuel ks.2)) cb arg
    | some (.copyFields src single sep) => CopyFields.call str (group src single) sep arg
    | some (.basedOn src single) =>
      match a.wrapper with
      | none => PyM.raise .attributeError
      | some cb => BasedOnFields.call (rngAttr r) (group src single) cb arg
    | some (.field _ e rp g _) =>
      match arg with
      | none => Field.call (cacheAttr r) (call str fuel e) (call str fuel rp) (call str fuel g)
      | some _ => PyM.raise .typeError

/-! ### Constructors and setters -/

/-- A record with no meaningful attribute (the generator is never used). -/
def blank : Attrs R where
  node := none
  choice := ⟨[], none, none, true, false, [], none, 0, none, R.ofSeed 0⟩
  static := ⟨.none, []⟩
  iter := ⟨⟨.fin [], false⟩, false, .fin []⟩
  seq := ⟨[], ⟨⟨.fin [], false⟩, false, .fin []⟩⟩
  seed := none
  rng := R.ofSeed 0
  wrapper := none
  numUnique := none
  cache := .none

/-- Create an object with the given attributes. -/
def alloc (a : Attrs R) : PyM (World R) Ref := fun w =>
  (.ok w.next, { w with obj := fun x => if x = w.next then a else w.obj x, next := w.next + 1 })

/-- `Static(value)`, fixed.py 25-32. -/
def newStatic (v : Val) : PyM (World R) Ref :=
  alloc { blank with node := some .static, static := Static.init v }

/-- `Iterative(factory, reset_after_call)`, fixed.py 111-121. -/
def newIterative (f : Factory Val) (resetAfterCall : Bool) : PyM (World R) Ref := do
  let st ← PyM.lift (Iterative.init f resetAfterCall)
  alloc { blank with node := some .iterative, iter := st }

/-- `Sequential(items, reset_after_call)`, fixed.py 233-251. -/
def newSequential (kind : ItemsKind) (items : List Val) (resetAfterCall : Bool) :
    PyM (World R) Ref := do
  let st ← PyM.lift (Sequential.init items resetAfterCall)
  alloc { blank with node := some (.sequential kind), seq := st }

/-- `Choice(...)`, choice.py 87-127. -/
def newChoice (kind : ItemsKind) (items : List Val) (weights : Option (List K))
    (replace roac : Bool) (rngSeed : Option Int) (cumWeights : Option (List K)) :
    PyM (World R) Ref := fun w =>
  match (Choice.init items weights replace roac rngSeed cumWeights : PyM Nat (ChoiceSt Val R))
      w.entropy with
  | (.ok st, e) => alloc { blank with node := some (.choice kind), choice := st }
      { w with entropy := e }
  | (.error x, e) => (.error x, { w with entropy := e })

/-- `num_unique_values` of an object: emitter.py 39-50, mixins.py 92-95, choice.py 282-294,
text.py 127-130, 225-228. -/
def numUniqueValues (r : Ref) : PyM (World R) (Option ℚ) := do
  let a := (← PyM.get).obj r
  match a.node with
  | some (.choice _) => do
    let n ← onChoice r Choice.numUniqueValues
    return some (n : ℚ)
  | some .static => do
    let n ← PyM.lift (Static.numUniqueValues a.static)
    return some (n : ℚ)
  | some (.sequential _) => do
    let n ← PyM.lift (Sequential.numUniqueValues a.seq)
    return some (n : ℚ)
  | some (.word ..) | some (.text ..) => return a.numUnique
  | some (.field ..) | none => PyM.raise .attributeError
  | _ => return none

/-- `Word._update_num_unique_vals`, text.py 108-114. -/
def updateWordNumUnique (r length alphabet : Ref) : PyM (World R) Unit := do
  let nchars ← numUniqueValues alphabet
  let w ← PyM.get
  let n ← PyM.lift (wordNumUnique nchars ((w.obj length).items.map (·.2)))
  PyM.modify (upd r fun a => { a with numUnique := n })

/-- `Word(length_emitter, alphabet_emitter, rng_seed)`, text.py 79-97. -/
def newWord (fuel : Nat) (length alphabet : Ref) (s : Option Int) : PyM (World R) Ref := do
  let r ← alloc { blank with node := some (.word length alphabet), seed := s }
  reset fuel r
  updateWordNumUnique r length alphabet
  return r

/-- `Text._update_num_unique_vals`, text.py 212-224. -/
def updateTextNumUnique (r numwords word sep : Ref) : PyM (World R) Unit := do
  let nwords ← numUniqueValues word
  let nseps ← numUniqueValues sep
  let w ← PyM.get
  let n ← PyM.lift (textNumUnique nwords nseps ((w.obj numwords).items.map (·.2)))
  PyM.modify (upd r fun a => { a with numUnique := n })

/-- `Text(numwords_emitter, word_emitter, sep_emitter, rng_seed)`, text.py 173-195; without
`sep_emitter` a `Static(' ')` is made. -/
def newText (fuel : Nat) (numwords word : Ref) (sep : Option Ref) (s : Option Int) :
    PyM (World R) Ref := do
  let sp ← match sep with
    | some sp => pure sp
    | none => newStatic (.str [' '])
  let r ← alloc { blank with node := some (.text numwords word sp), seed := s }
  reset fuel r
  updateTextNumUnique r numwords word sp
  return r

/-- The `wrapper` setter of `WrapOne` (wrappers.py 276-289) and of `WrapMany` (382-396), given a
`BoundWrapper(function, self)`. -/
def setWrapper (str : Val → List Char) (fuel : Nat) (r : Ref) (cb : Callback R.G) :
    PyM (World R) Unit := do
  let a := (← PyM.get).obj r
  let store : PyM (World R) Unit := PyM.modify (upd r fun a => { a with wrapper := some cb })
  match a.node with
  | some (.wrapOne s) => WrapOne.setWrapper (call str fuel s) cb store (reset fuel r)
  | some (.wrapMany ss) =>
    WrapMany.setWrapper (ss.map fun ks => (ks.1, call str fuel ks.2)) cb store (reset fuel r)
  | _ => PyM.raise .attributeError

/-- `WrapOne(source, wrapper, rng_seed)`, wrappers.py 238-251. -/
def newWrapOne (str : Val → List Char) (fuel : Nat) (source : Ref) (cb : Callback R.G)
    (s : Option Int) : PyM (World R) Ref := do
  let r ← alloc { blank with node := some (.wrapOne source), seed := s }
  reset fuel r
  setWrapper str fuel r cb
  return r

/-- `WrapMany(sources, wrapper, rng_seed)`, wrappers.py 342-364. -/
def newWrapMany (str : Val → List Char) (fuel : Nat) (sources : Dict Ref) (cb : Callback R.G)
    (s : Option Int) : PyM (World R) Ref := do
  let r ← alloc { blank with node := some (.wrapMany sources), seed := s }
  reset fuel r
  setWrapper str fuel r cb
  return r

/-- `CopyFields(source, separator)`, fromfields.py 97-109. -/
def newCopyFields (source : List Ref) (initSingle : Bool) (separator : Option (List Char)) :
    PyM (World R) Ref :=
  alloc { blank with node := some (.copyFields source initSingle separator) }

/-- The `action` setter of `BasedOnFields`, fromfields.py 245-265. -/
def setAction (str : Val → List Char) (fuel : Nat) (r : Ref) (cb : Callback R.G) :
    PyM (World R) Unit := do
  let w ← PyM.get
  match (w.obj r).node with
  | some (.basedOn src single) =>
    BasedOnFields.setAction
      (sourceGroup (fun g => call str fuel g none) (reset fuel) (seed fuel) w src single) cb
      (PyM.modify (upd r fun a => { a with wrapper := some cb })) (reset fuel r)
  | _ => PyM.raise .attributeError

/-- `BasedOnFields(source, action, rng_seed)`, fromfields.py 201-214. -/
def newBasedOnFields (str : Val → List Char) (fuel : Nat) (source : List Ref) (initSingle : Bool)
    (cb : Callback R.G) (s : Option Int) : PyM (World R) Ref := do
  let r ← alloc { blank with node := some (.basedOn source initSingle), seed := s }
  newRng r s
  setAction str fuel r cb
  return r

/-- `Field(name, emitter, repeat, gate, hide, rng_seed)`, profile.py 99-132. -/
def newField (fuel : Nat) (name : String) (emitter : Ref) (rep gate : Option Ref) (hide : Bool)
    (s : Option Int) : PyM (World R) Ref := do
  let rp ← match rep with
    | some rp => pure rp
    | none => newStatic .none
  let g ← match gate with
    | some g => pure g
    | none => newStatic (.bool true)
  let r ← alloc { blank with node := some (.field name emitter rp g hide), seed := s }
  reset fuel r
  return r

/-! ### Schemas -/

/-- `schema()`, profile.py 302-318, for the fields mapping `fields`. -/
def document (str : Val → List Char) (fuel : Nat) (fields : Dict Ref) : PyM (World R) (Dict Val) := do
  let w ← PyM.get
  Schema.call (fun r => (w.obj r).hide) (fun r => call str fuel r none) fields

/-- `schema.reset_fields()`, profile.py 288-290. -/
def resetFields (fuel : Nat) (fields : Dict Ref) : PyM (World R) Unit :=
  Schema.resetFields (reset fuel) fields

/-- `schema.seed_fields(s)`, profile.py 292-300. -/
def seedFields (fuel : Nat) (s : Option Int) (fields : Dict Ref) : PyM (World R) Unit :=
  Schema.seedFields (seed fuel) s fields

end World
end Fauxdoc
