import Verif.Model.FromFields
/-
Model of `/repo/src/fauxdoc/profile.py`, over an arbitrary state `σ` and arbitrary child emitters.
-/
namespace Fauxdoc

/-! ### Field -/

/-- How an `items` attribute is stored: `Static.items` and `Sequential.items` given a list are
lists; a tuple or another sequence compares unequal to every list. -/
inductive ItemsKind where
  | list
  | other
  deriving DecidableEq, Repr

namespace Field
variable {σ : Type}

/-- `multi_valued`, profile.py 134-139, from the `items` attribute of the repeat emitter (`none`: no
such attribute). -/
def multiValued (items : Option (ItemsKind × List Val)) : Bool :=
  match items with
  | none => true
  | some (.other, _) => true
  | some (.list, l) => l ≠ [.none]

/-- `__call__`, profile.py 183-198; `cache` is `_cache`. -/
def call (cache : Attr σ Val) (emitter rep gate : Child σ) : PyM σ Val := do
  let g ← gate none
  if g.truthy then do
    let r ← rep none
    let v ← emitter (some r)
    PyM.modify (cache.set v)
    return v
  else do
    PyM.modify (cache.set .none)
    return .none

/-- `reset`, profile.py 178-181, `super` being `RandomWithChildrenMixin.reset`. -/
def reset (cache : Attr σ Val) (super : PyM σ Unit) : PyM σ Unit := do
  super
  PyM.modify (cache.set .none)

end Field

/-! ### Schema -/

namespace Schema
variable {σ ι : Type}

/-- `add_fields`, profile.py 247-254: `update` with a dict comprehension. -/
def addFields (name : ι → String) (d : Dict ι) (fields : List ι) : Dict ι :=
  d.update (Dict.ofItems (fields.map fun f => (name f, f)))

/-- `set_fields`, profile.py 232-245 (and the constructor, 220-230). -/
def setFields (name : ι → String) (fields : List ι) : Dict ι := addFields name [] fields

/-- `hidden_fields`, profile.py 256-270. -/
def hiddenFields (hide : ι → Bool) (d : Dict ι) : Dict ι :=
  Dict.ofItems (d.filter fun kv => hide kv.2)

/-- `public_fields`, profile.py 272-286. -/
def publicFields (hide : ι → Bool) (d : Dict ι) : Dict ι :=
  Dict.ofItems (d.filter fun kv => !hide kv.2)

/-- The loop of `__call__`, profile.py 309-318, from document `doc`. -/
def loop (hide : ι → Bool) (call : ι → PyM σ Val) : Dict Val → Dict ι → PyM σ (Dict Val)
  | doc, [] => return doc
  | doc, (k, f) :: fs => do
    let v ← call f
    if hide f then loop hide call doc fs
    else loop hide call (doc.set k v) fs

/-- `__call__`, profile.py 302-318. -/
def call (hide : ι → Bool) (call : ι → PyM σ Val) (fields : Dict ι) : PyM σ (Dict Val) :=
  loop hide call [] fields

/-- `reset_fields`, profile.py 288-290. -/
def resetFields (reset : ι → PyM σ Unit) (fields : Dict ι) : PyM σ Unit :=
  Group.doMethod (Group.ofMap (fields.map fun kf => (kf.1, some kf.2))) reset

/-- `seed_fields`, profile.py 292-300. -/
def seedFields (seed : ι → Option Int → PyM σ Unit) (rngSeed : Option Int) (fields : Dict ι) :
    PyM σ Unit :=
  Group.doMethod (Group.ofMap (fields.map fun kf => (kf.1, some kf.2))) (seed · rngSeed)

end Schema
end Fauxdoc
