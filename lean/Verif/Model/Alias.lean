import Verif.Py.Val
import Verif.Model.World
/-
Lists as objects: which lists in a document are one and the same object.

In the other models a list is a value.  Here lists live in a memory, values refer to them, and the
user may change any list they hold.  Everything that is no list (numbers, strings, `None`, ...) cannot
be changed; tuples and other containers are left out.  `G` is the state of everything that emitters
keep besides (generators, positions, counters), and what that state does is arbitrary.
-/
namespace Fauxdoc.Alias

/-- Values that cannot be changed. -/
inductive Atom where
  | none
  | bool (b : Bool)
  | int (i : Int)
  | str (s : List Char)
  | other (n : Nat)
  deriving DecidableEq, Inhabited

/-- The atom as a value. -/
def Atom.toVal : Atom → Val
  | .none => .none
  | .bool b => .bool b
  | .int i => .int i
  | .str s => .str s
  | .other n => .other n

/-- A Python value: an atom or (a reference to) a list object. -/
inductive PVal where
  | atom (a : Atom)
  | list (addr : Nat)
  deriving DecidableEq, Inhabited

/-- The list objects; `next` and above are not in use. -/
structure Mem where
  lists : Nat → List PVal
  next : Nat

/-- What a value looks like, to the given depth of nesting. -/
def read (m : Mem) : Nat → PVal → Val
  | 0, _ => .none
  | _ + 1, .atom a => a.toVal
  | d + 1, .list x => .list ((m.lists x).map (read m d))

/-- Everything there is to see of a value. -/
abbrev View := Nat → Val

/-- The state: list objects, `_cache` of each field, and the rest. -/
structure State (G : Type) where
  mem : Mem
  cache : Ref → PVal
  gen : G

variable {G : Type}

/-- A new list object. -/
def new (l : List PVal) : PyM (State G) PVal := fun s =>
  (.ok (.list s.mem.next),
    { s with mem := ⟨fun a => if a = s.mem.next then l else s.mem.lists a, s.mem.next + 1⟩ })

/-- Run something on the rest of the state. -/
def onGen {α : Type} (m : PyM G α) : PyM (State G) α := fun s =>
  match m s.gen with
  | (r, g) => (r, { s with gen := g })

/-- Something of which a callback makes its result: an argument or an atom. -/
inductive Piece where
  | arg (i : Nat)
  | atom (a : Atom)

/-- What a callback returns: an argument or an atom, or a new list of such. -/
inductive Out where
  | one (p : Piece)
  | list (ps : List Piece)

/-- A callback sees its arguments (not where they are), may use a generator or anything else in `G`,
keeps no reference to its arguments and changes none of them. -/
abbrev Callback (G : Type) := List View → PyM G Out

/-- The value a piece stands for. -/
def Piece.val (args : List PVal) : Piece → PVal
  | .arg i => args.getD i (.atom .none)
  | .atom a => .atom a

/-- Call a callback (wrappers.py `BoundWrapper.__call__`). -/
def apply (cb : Callback G) (args : List PVal) : PyM (State G) PVal := do
  let s ← PyM.get
  match ← onGen (cb (args.map fun v d => read s.mem d v)) with
  | .one p => return p.val args
  | .list ps => new (ps.map (Piece.val args))

/-- An emitter: its methods `emit` and `emit_many`. -/
structure Emitter (G : Type) where
  emit : PyM (State G) PVal
  emitMany : Int → PyM (State G) PVal

/-- `emitter(number)`, emitter.py 74-102.  Other numbers than `None` and integers are refused (C77). -/
def Emitter.call (e : Emitter G) : PVal → PyM (State G) PVal
  | .atom a =>
    match a with
    | .none => e.emit
    | a =>
      match a.toVal.asInt with
      | none => PyM.raise .typeError
      | some n => if n = 1 then e.emit >>= fun v => new [v] else e.emitMany n
  | .list _ => PyM.raise .typeError

/-- `Static`, `Iterative`, `Sequential`, `Choice`, `Word` and `Text`: `emit` returns a value as it is,
`emit_many` puts values into a new list (fixed.py 45-55, 168-184, 303-319; choice.py 342-355;
text.py 132-145, 276-315).  Which values these are depends on the rest of the state only. -/
def leaf (one : PyM G PVal) (many : Int → PyM G (List PVal)) : Emitter G where
  emit := onGen one
  emitMany n := onGen (many n) >>= new

/-- `[self._wrapper(v) for v in ...]`. -/
def applyAll (cb : Callback G) : List (List PVal) → PyM (State G) (List PVal)
  | [] => return []
  | v :: vs => do
    let x ← apply cb v
    let xs ← applyAll cb vs
    return x :: xs

/-- The members of a list object. -/
def members (v : PVal) : PyM (State G) (List PVal) := fun s =>
  match v with
  | .list a => (.ok (s.mem.lists a), s)
  | .atom _ => (.error .typeError, s)

/-- `WrapOne(source, wrapper)`, wrappers.py 291-301. -/
def wrapOne (source : Emitter G) (cb : Callback G) : Emitter G where
  emit := do
    let v ← source.emit
    apply cb [v]
  emitMany n := do
    let l ← source.call (.atom (.int n))
    let vs ← members l
    let xs ← applyAll cb (vs.map fun v => [v])
    new xs

/-- `[em(arg) for em in ...]`. -/
def callAll (arg : PVal) : List (Emitter G) → PyM (State G) (List PVal)
  | [] => return []
  | e :: es => do
    let v ← e.call arg
    let vs ← callAll arg es
    return v :: vs

/-- The members of several list objects. -/
def membersAll : List PVal → PyM (State G) (List (List PVal))
  | [] => return []
  | v :: vs => do
    let l ← members v
    let ls ← membersAll vs
    return l :: ls

/-- `v[i]` for every list; `IndexError` if one is too short. -/
def column (i : Nat) : List (List PVal) → PyM (State G) (List PVal)
  | [] => return []
  | l :: ls =>
    match l[i]? with
    | none => PyM.raise .indexError
    | some v => do
      let vs ← column i ls
      return v :: vs

/-- `[self._wrapper(**{k: v[i] for k, v in emdata}) for i in range(number)]`, in which `i` counts up
from `i` for `k` rounds. -/
def rows (cb : Callback G) (ls : List (List PVal)) : Nat → Nat → PyM (State G) (List PVal)
  | _, 0 => return []
  | i, k + 1 => do
    let args ← column i ls
    let x ← apply cb args
    let xs ← rows cb ls (i + 1) k
    return x :: xs

/-- `WrapMany(sources, wrapper)`, wrappers.py 398-413; the arguments are in the order of the sources. -/
def wrapMany (sources : List (Emitter G)) (cb : Callback G) : Emitter G where
  emit := do
    let vs ← callAll (.atom .none) sources
    apply cb vs
  emitMany n := do
    let vs ← callAll (.atom (.int n)) sources
    let ls ← membersAll vs
    let xs ← rows cb ls 0 n.toNat
    new xs

/-- What `CopyFields` collects from the value of one field, fromfields.py 140-146. -/
def pieces (m : Mem) : PVal → List PVal
  | .atom .none => []
  | .atom a => [.atom a]
  | .list x => m.lists x

/-- `CopyFields.emit`, fromfields.py 136-149.  `single` is `source.single_valued`, `str` is `str()`. -/
def copyEmit (str : View → List Char) (source : List Ref) (single : Bool) (sep : Option (List Char)) :
    PyM (State G) PVal := do
  let s ← PyM.get
  if single then
    match source with
    | [] => PyM.raise .indexError
    | f :: _ => return s.cache f
  else
    let vals := source.flatMap fun f => pieces s.mem (s.cache f)
    match sep with
    | none => if vals.isEmpty then return .atom .none else new vals
    | some sep => return .atom (.str (sep.intercalate (vals.map fun v => str fun d => read s.mem d v)))

/-- `[self.emit()] * number`. -/
def repeated (emit : PyM (State G) PVal) (n : Int) : PyM (State G) PVal := do
  let v ← emit
  new (List.replicate n.toNat v)

/-- `CopyFields`, fromfields.py 136-157. -/
def copyFields (str : View → List Char) (source : List Ref) (single : Bool)
    (sep : Option (List Char)) : Emitter G where
  emit := copyEmit str source single sep
  emitMany := repeated (copyEmit str source single sep)

/-- `BasedOnFields.emit`, fromfields.py 287-292; the arguments are in the order of the fields. -/
def basedOnEmit (source : List Ref) (cb : Callback G) : PyM (State G) PVal := do
  let s ← PyM.get
  apply cb (source.map s.cache)

/-- `BasedOnFields`, fromfields.py 287-300. -/
def basedOnFields (source : List Ref) (cb : Callback G) : Emitter G where
  emit := basedOnEmit source cb
  emitMany := repeated (basedOnEmit source cb)

/-- A field (profile.py 112-135). -/
structure FieldObj (G : Type) where
  name : String
  ref : Ref
  emitter : Emitter G
  rep : Emitter G
  gate : Emitter G
  hide : Bool

/-- Truth of a value. -/
def truthy (m : Mem) : PVal → Bool
  | .atom a => a.toVal.truthy
  | .list x => !(m.lists x).isEmpty

/-- Assignment to `_cache`. -/
def setCache (f : Ref) (v : PVal) : PyM (State G) Unit :=
  PyM.modify fun s => { s with cache := fun x => if x = f then v else s.cache x }

/-- `Field.__call__`, profile.py 183-198: the value returned is the object in `_cache`. -/
def FieldObj.call (f : FieldObj G) : PyM (State G) PVal := do
  let g ← f.gate.emit
  let s ← PyM.get
  if truthy s.mem g then
    let n ← f.rep.emit
    let v ← f.emitter.call n
    setCache f.ref v
    return v
  else
    setCache f.ref (.atom .none)
    return .atom .none

/-- `Schema.__call__`, profile.py 302-319. -/
def document : List (FieldObj G) → PyM (State G) (Dict PVal)
  | [] => return []
  | f :: fs => do
    let v ← f.call
    let d ← document fs
    return if f.hide then d else (f.name, v) :: d

end Fauxdoc.Alias
