import Verif.Model.MathTools
import Verif.Model.Fixed
/-
Model of `/repo/src/fauxdoc/emitters/choice.py` (class `Choice`) with the parts of
`emitter.py` and `mixins.py` it inherits, over an arbitrary item type.

Simplifications: `noun` only affects error texts and is dropped; weights are exact
(with rounding: `Model/ChoiceFloat`).
-/
namespace Fauxdoc

variable {K : Type} [Field K] [LinearOrder K] [FloorRing K]

/-- The attributes of a `Choice` instance.  `shuffledIndex = none` means that the attribute
`_shuffled_index` does not exist (it is first set by `_global_shuffle`). -/
structure ChoiceSt (α : Type) (R : Rng K) where
  items : List α
  weights : Option (List K)
  cumWeights : Option (List K)
  replace : Bool
  roac : Bool
  shuffled : List α
  shuffledIndex : Option Int
  numUniqueItems : Int
  rngSeed : Option Int
  rng : R.G

/-- State of a computation on one `Choice`: its attributes and the OS entropy counter. -/
abbrev ChoiceM (α : Type) (R : Rng K) := PyM (ChoiceSt α R × Nat)

variable {α : Type} {R : Rng K}

namespace Choice

/-- Read the instance. -/
def self : ChoiceM α R (ChoiceSt α R) := fun s => (.ok s.1, s)

/-- Assign instance attributes. -/
def upd (f : ChoiceSt α R → ChoiceSt α R) : ChoiceM α R PUnit := fun s => (.ok ⟨⟩, (f s.1, s.2))

/-- Run a computation on `self.rng`. -/
def onRng {β : Type} (m : PyM R.G β) : ChoiceM α R β := fun s =>
  match m s.1.rng with
  | (r, g) => (r, ({ s.1 with rng := g }, s.2))

/-- `self.rng = random.Random(seed)` or `self.rng.seed(seed)`. -/
def newRng (seed : Option Int) : ChoiceM α R PUnit := fun s =>
  match R.new seed s.2 with
  | (.ok g, e) => (.ok ⟨⟩, ({ s.1 with rng := g }, e))
  | (.error x, e) => (.error x, (s.1, e))

/-- `items[i]` for a list of positions; all positions are in range in reachable states. -/
def pick (items : List α) (ps : List Nat) : List α := ps.filterMap fun i => items[i]?

/-- Differences of consecutive entries (the loop at choice.py 146-153). -/
def deCumulateFrom (prev : K) : List K → List K
  | [] => []
  | c :: cs => (c - prev) :: deCumulateFrom c cs

/-- `_set_all_weights`, choice.py 129-158: the pair `(_weights, _cum_weights)` to store. -/
def allWeights (items : List α) (toSet : Option (List K)) (cumulative : Bool) :
    Py (Option (List K) × Option (List K)) :=
  match toSet with
  | none => .ok (none, none)
  | some ws =>
    if items.length ≠ ws.length then .error .valueError
    else if cumulative then .ok (some (deCumulateFrom 0 ws), some ws)
    else .ok (some ws, some (accumulate ws))

/-- `_global_shuffle`, choice.py 261-266.  (`self.weights or [1] * n`: stored weights are never
empty because `items` is not.) -/
def globalShuffle : ChoiceM α R PUnit := do
  let c ← self
  let n := c.items.length
  let ws := match c.weights with
    | none => List.replicate n 1
    | some ws => if ws.isEmpty then List.replicate n 1 else ws
  let ps ← onRng (weightedShuffle R n ws none)
  upd fun c => { c with shuffled := pick c.items ps, shuffledIndex := some 0, numUniqueItems := n }

/-- `reset`, choice.py 233-248 and mixins.py 45-50. -/
def reset : ChoiceM α R PUnit := do
  let c ← self
  newRng c.rngSeed
  if ¬ c.replace then globalShuffle else pure ⟨⟩

/-- `seed`, choice.py 250-259 and mixins.py 52-62. -/
def seed (s : Option Int) : ChoiceM α R PUnit := do
  upd fun c => { c with rngSeed := s }
  newRng s
  let c ← self
  if ¬ c.replace then globalShuffle else pure ⟨⟩

/-- Setter of `weights`, choice.py 165-175. -/
def setWeights (ws : Option (List K)) : ChoiceM α R PUnit := do
  let c ← self
  let (w, cw) ← PyM.lift (allWeights c.items ws false)
  upd fun c => { c with weights := w, cumWeights := cw }
  if ¬ c.replace then globalShuffle else pure ⟨⟩

/-- Setter of `cum_weights`, choice.py 182-192. -/
def setCumWeights (ws : Option (List K)) : ChoiceM α R PUnit := do
  let c ← self
  let (w, cw) ← PyM.lift (allWeights c.items ws true)
  upd fun c => { c with weights := w, cumWeights := cw }
  if ¬ c.replace then globalShuffle else pure ⟨⟩

/-- Setter of `replace`, choice.py 199-216. -/
def setReplace (b : Bool) : ChoiceM α R PUnit := do
  let c ← self
  if b ≠ c.replace then do
    upd fun c => { c with replace := b }
    if b then upd fun c => { c with numUniqueItems := c.items.length }
    else do
      upd fun c => { c with roac := false }
      globalShuffle
  else pure ⟨⟩

/-- Setter of `replace_only_after_call`, choice.py 223-231. -/
def setRoac (b : Bool) : ChoiceM α R PUnit := do
  upd fun c => { c with roac := b }
  if b then setReplace true else pure ⟨⟩

/-- Assignment to the plain attribute `rng_seed` (mixins.py 41). -/
def setRngSeed (s : Option Int) : ChoiceM α R PUnit := upd fun c => { c with rngSeed := s }

/-- Python truthiness of an optional sequence. -/
def truthy {β : Type} : Option (List β) → Bool
  | some (_ :: _) => true
  | _ => false

/-- `Choice(...)`, choice.py 87-127, mixins.py 30-43 and 76-90.  The state is the entropy counter;
on an exception no object exists.  (The RNG placeholder is overwritten by `reset` before use.) -/
def init (items : List α) (weights : Option (List K)) (replace roac : Bool)
    (rngSeed : Option Int) (cumWeights : Option (List K)) : PyM Nat (ChoiceSt α R) := fun ent =>
  if items.isEmpty then (.error .valueError, ent)
  else if truthy weights && truthy cumWeights then (.error .typeError, ent)
  else
    let toSet := if truthy weights then weights else cumWeights
    match allWeights items toSet (truthy cumWeights) with
    | .error e => (.error e, ent)
    | .ok (w, cw) =>
      let st : ChoiceSt α R :=
        { items, weights := w, cumWeights := cw, replace := replace || roac, roac,
          shuffled := [], shuffledIndex := none, numUniqueItems := items.length,
          rngSeed, rng := R.ofSeed 0 }
      match reset (st, ent) with
      | (.ok _, (st', ent')) => (.ok st', ent')
      | (.error e, (_, ent')) => (.error e, ent')

/-- `num_unique_items`, choice.py 296-307. -/
def numUniqueItems : ChoiceM α R Int := do return (← self).numUniqueItems

/-- `self._shuffled_index`; missing attribute is `AttributeError`. -/
def shuffledIndex : ChoiceM α R Int := do
  match (← self).shuffledIndex with
  | some i => return i
  | none => PyM.raise .attributeError

/-- `num_unique_values`, choice.py 282-294 and mixins.py 92-95 (`len(set(...))`). -/
def numUniqueValues [DecidableEq α] [PyHash α] : ChoiceM α R Nat := do
  let c ← self
  if ¬ c.replace then do
    let i ← shuffledIndex
    PyM.lift (pyLenSet (pyListSlice1 c.shuffled i c.shuffled.length))
  else PyM.lift (pyLenSet c.items)

/-- `emits_unique_values`, choice.py 268-280. -/
def emitsUniqueValues [DecidableEq α] [PyHash α] : ChoiceM α R Bool := do
  let c ← self
  if ¬ c.replace then do
    let n ← numUniqueItems
    let m ← numUniqueValues
    return decide (n = m)
  else return false

variable [PyHash α]

/-- The exception that ends `raise_uniqueness_violation`, emitter.py 52-64: the message contains
`num_unique_values`, which is `len(set(l))`; if that raises `TypeError`, there is no `ValueError`. -/
def overAsked (l : List α) : Err := if allHashable l then .valueError else .typeError

/-- `raise_uniqueness_violation`, emitter.py 52-64: evaluates `num_unique_values` (choice.py 282-294)
for its message, then raises `ValueError`.  (In a broken instance reading it raises
`AttributeError`.) -/
def raiseUniquenessViolation {β : Type} : ChoiceM α R β := do
  let c ← self
  if ¬ c.replace then do
    let i ← shuffledIndex
    PyM.raise (overAsked (pyListSlice1 c.shuffled i c.shuffled.length))
  else PyM.raise (overAsked c.items)

/-- `_choice_without_replacement`, choice.py 309-328. -/
def withoutReplacement (number : Int) : ChoiceM α R (List α) := do
  let c ← self
  if number > c.numUniqueItems then raiseUniquenessViolation
  else if ¬ c.replace then do
    let i ← shuffledIndex
    let items ←
      if number = 1 then do
        let x ← PyM.lift (pyListGet c.shuffled i)
        pure [x]
      else pure (pyListSlice1 c.shuffled i (i + number))
    upd fun c => { c with shuffledIndex := some (i + number),
                          numUniqueItems := c.numUniqueItems - number }
    return items
  else
    match c.weights with
    | none => do
      let ps ← onRng (R.samplePos c.items.length number)
      return pick c.items ps
    | some ws => do
      let ps ← onRng (weightedShuffle R c.items.length ws (some number))
      return pick c.items ps

/-- `_choice_with_replacement`, choice.py 330-340. -/
def withReplacement (number : Int) : ChoiceM α R (List α) := do
  let c ← self
  if c.items.length = 1 then
    return (List.replicate number.toNat c.items).flatten
  else if c.weights.isNone ∧ number = 1 then do
    let p ← onRng (R.choice c.items.length)
    return pick c.items [p]
  else
    match c.cumWeights with
    | none => do
      let ps ← onRng (R.choicesUniform c.items.length number)
      return pick c.items ps
    | some cum => do
      let ps ← onRng (R.choicesCum c.items.length cum number)
      return pick c.items ps

/-- `[...][0]`. -/
def first (l : List α) : ChoiceM α R α := PyM.lift (pyListGet l 0)

/-- `emit`, choice.py 342-346. -/
def emit : ChoiceM α R α := do
  let c ← self
  if ¬ c.replace then first (← withoutReplacement 1)
  else first (← withReplacement 1)

/-- `emit_many`, choice.py 348-356. -/
def emitMany (number : Int) : ChoiceM α R (List α) := do
  let c ← self
  if ¬ c.replace ∨ (c.roac ∧ number > 1) then withoutReplacement number
  else withReplacement number

/-- `em()` (one value, reported as a singleton) and `em(n)`: `Emitter.__call__`,
emitter.py 74-102. -/
def call : Option Int → ChoiceM α R (List α)
  | none => do return [← emit]
  | some n => if n = 1 then do return [← emit] else emitMany n

end Choice

/-- Everything a user can do to an existing `Choice`. -/
inductive ChoiceOp (K : Type) where
  | call (n : Option Nat)
  | setWeights (ws : Option (List K))
  | setCumWeights (ws : Option (List K))
  | setReplace (b : Bool)
  | setRoac (b : Bool)
  | reset
  | seed (s : Option Int)
  | setRngSeed (s : Option Int)

/-- One user operation; attribute operations return no values. -/
def ChoiceOp.run [PyHash α] : ChoiceOp K → ChoiceM α R (List α)
  | .call n => Choice.call (n.map Int.ofNat)
  | .setWeights ws => do Choice.setWeights ws; return []
  | .setCumWeights ws => do Choice.setCumWeights ws; return []
  | .setReplace b => do Choice.setReplace b; return []
  | .setRoac b => do Choice.setRoac b; return []
  | .reset => do Choice.reset; return []
  | .seed s => do Choice.seed s; return []
  | .setRngSeed s => do Choice.setRngSeed s; return []

/-- `chance`, choice.py 428-437. -/
def chance (p : K) (rngSeed : Option Int) : PyM Nat (ChoiceSt Bool R) :=
  Choice.init [true, false] (some [p, 1 - p]) true false rngSeed none

end Fauxdoc
