import Verif.Model.GroupMap
import Verif.Model.Profile
/-
Model of `Schema`, `/repo/src/fauxdoc/profile.py` 201-318, as an object: its `fields` is an `ObjectMap`
that other schemas or the user can hold too, and that can be changed at any time, even by a field (through
the function of a wrapper or of `BasedOnFields`) while a document is made.

Not modelled: fields without `name` or `hide`, and subclasses of these classes.
-/
namespace Fauxdoc
variable {ι σ : Type}

/-- An `ObjectMap` of fields (group.py 87-111).  `state` is the counter `od_state` of
`Objects/odictobject.c` (CPython 3.11), by which iterators notice changes. -/
structure LiveMap (ι : Type) where
  entries : Dict ι
  state : Nat

/-- `list(m)`. -/
abbrev LiveMap.keys (m : LiveMap ι) : List String := m.entries.keys

/-- The ways to change a map (inherited by group.py 87 from `OrderedDict`); `pop`, `popitem`, `setdefault`
and `update` are made of these. -/
inductive MapEdit (ι : Type) where
  | set (k : String) (f : ι)
  | del (k : String)
  | clear
  | moveToEnd (k : String) (last : Bool)

/-- What a change does.  The counter goes up for each new key, each deleted key and each key that moves;
`clear` leaves it.  A `KeyError` leaves the map as it is. -/
def LiveMap.edit (m : LiveMap ι) : MapEdit ι → LiveMap ι
  | .set k f => ⟨m.entries.set k f, if k ∈ m.keys then m.state else m.state + 1⟩
  | .del k => if k ∈ m.keys then ⟨GroupMap.erase m.entries k, m.state + 1⟩ else m
  | .clear => ⟨[], m.state⟩
  | .moveToEnd k last =>
    if k ∉ m.keys ∨ (if last then m.keys.getLast? else m.keys.head?) = some k then m
    else ⟨(GroupMap.moveToEnd k last m.entries).2, m.state + 1⟩

/-- `m.update(items)`. -/
def LiveMap.setAll (m : LiveMap ι) (items : List (String × ι)) : LiveMap ι :=
  items.foldl (fun m kf => m.edit (.set kf.1 kf.2)) m

/-- All maps, the attribute `fields` of all schemas (as a number of a map), the attributes `name` and
`hide` of all fields, and whatever else there is.  The maps made so far are those below `next`. -/
structure SchemaHeap (ι σ : Type) where
  map : Nat → LiveMap ι
  next : Nat
  fields : Nat → Nat
  name : ι → String
  hide : ι → Bool
  rest : σ

/-- What can happen to schemas, maps and fields. -/
inductive SchemaAct (ι σ : Type) where
  /-- `schema.set_fields(*fs)`, or the constructor. -/
  | setFields (s : Nat) (fs : List ι)
  /-- `schema.add_fields(*fs)`. -/
  | addFields (s : Nat) (fs : List ι)
  /-- `schema.fields = m`. -/
  | assign (s : Nat) (m : Nat)
  /-- `schema.hidden_fields` or `schema.public_fields`. -/
  | view (s : Nat) (hidden : Bool)
  /-- A change of a map. -/
  | edit (m : Nat) (e : MapEdit ι)
  /-- `field.name = n`. -/
  | rename (f : ι) (n : String)
  /-- `field.hide = b`. -/
  | setHide (f : ι) (b : Bool)
  /-- Anything else. -/
  | other (g : σ → σ)

namespace SchemaHeap
variable [DecidableEq ι]

/-- The heap with another map `m`. -/
def put (h : SchemaHeap ι σ) (r : Nat) (m : LiveMap ι) : SchemaHeap ι σ :=
  { h with map := fun x => if x = r then m else h.map x }

/-- The heap with a new map. -/
def alloc (h : SchemaHeap ι σ) (m : LiveMap ι) : SchemaHeap ι σ :=
  { h.put h.next m with next := h.next + 1 }

/-- The map of a schema. -/
def of (h : SchemaHeap ι σ) (s : Nat) : LiveMap ι := h.map (h.fields s)

/-- `add_fields`, profile.py 247-254. -/
def addFields (h : SchemaHeap ι σ) (s : Nat) (fs : List ι) : SchemaHeap ι σ :=
  h.put (h.fields s) ((h.of s).setAll (Dict.ofItems (fs.map fun f => (h.name f, f))))

/-- One thing that happens. `set_fields`: profile.py 232-245; the constructor: 220-230; `hidden_fields`
and `public_fields`: 256-286. -/
def act (h : SchemaHeap ι σ) : SchemaAct ι σ → SchemaHeap ι σ
  | .setFields s fs =>
    { h.alloc ⟨[], 0⟩ with fields := fun x => if x = s then h.next else h.fields x }.addFields s fs
  | .addFields s fs => h.addFields s fs
  | .assign s m => if m < h.next then { h with fields := fun x => if x = s then m else h.fields x } else h
  | .view s hidden =>
    h.alloc ((⟨[], 0⟩ : LiveMap ι).setAll
      (if hidden then Schema.hiddenFields h.hide (h.of s).entries
        else Schema.publicFields h.hide (h.of s).entries))
  | .edit m e => h.put m ((h.map m).edit e)
  | .rename f n => { h with name := fun x => if x = f then n else h.name x }
  | .setHide f b => { h with hide := fun x => if x = f then b else h.hide x }
  | .other g => { h with rest := g h.rest }

/-- Several things happen. -/
def acts (h : SchemaHeap ι σ) (as : List (SchemaAct ι σ)) : SchemaHeap ι σ := as.foldl act h

end SchemaHeap

/-- An iterator over `m.items()`: `di_current`, `di_state` and `di_size` of `Objects/odictobject.c`. -/
structure MapIter where
  cur : Option String
  state : Nat
  size : Nat

/-- The key after `k`. -/
def keyAfter : List String → String → Option String
  | [], _ => none
  | k' :: ks, k => if k' = k then ks.head? else keyAfter ks k

/-- `iter(m.items())`. -/
def LiveMap.iter (m : LiveMap ι) : MapIter := ⟨m.keys.head?, m.state, m.entries.length⟩

/-- `next(it)` (`odictiter_nextkey` and `odictiter_iternext`): the end is noticed before changes are. -/
def MapIter.next (it : MapIter) (m : LiveMap ι) : Py (Option ((String × ι) × MapIter)) :=
  match it.cur with
  | none => .ok none
  | some k =>
    if m.state ≠ it.state ∨ m.entries.length ≠ it.size then .error .runtime
    else match m.entries.get? k with
      | none => .error .keyError
      | some f => .ok (some ((k, f), { it with cur := keyAfter m.keys k }))

namespace SchemaHeap
variable [DecidableEq ι]

/-- How fields behave when called: what a call returns and what happens meanwhile, from any state. -/
abbrev Behaviour (ι σ : Type) := ι → SchemaHeap ι σ → Except Err Val × List (SchemaAct ι σ)

/-- The loop of `__call__`, profile.py 309-318, over the map `r`; `hide` is looked up after the call of
the field.  `fuel` bounds the number of rounds. -/
def loop (run : Behaviour ι σ) (r : Nat) : Nat → MapIter → Dict Val → PyM (SchemaHeap ι σ) (Dict Val)
  | 0, _, _ => PyM.raise .diverges
  | fuel + 1, it, doc => fun h =>
    match it.next (h.map r) with
    | .error e => (.error e, h)
    | .ok none => (.ok doc, h)
    | .ok (some ((k, f), it')) =>
      match run f h with
      | (.error e, as) => (.error e, h.acts as)
      | (.ok v, as) =>
        loop run r fuel it' (if (h.acts as).hide f then doc else doc.set k v) (h.acts as)

/-- `schema()`, profile.py 302-318. -/
def call (run : Behaviour ι σ) (s : Nat) : PyM (SchemaHeap ι σ) (Dict Val) := fun h =>
  loop run (h.fields s) ((h.of s).entries.length + 1) (h.of s).iter [] h

end SchemaHeap
end Fauxdoc
