import Verif.Model.GroupMap
/-
Ordered dicts: what is stored under each key, and the order of the keys.
-/
namespace Fauxdoc
namespace GroupMap
variable {ι : Type}

/-- An ordered dict. -/
structure Ordered (ι : Type) where
  val : String → Option ι
  order : List String

/-- Operations. -/
inductive MapOp (ι : Type) where
  | getItem (k : String)
  | setItem (k : String) (v : ι)
  | delItem (k : String)
  | pop (k : String) (default : Option ι)
  | popItem (last : Bool)
  | setDefault (k : String) (v : ι)
  | update (other : List (String × ι))
  | moveToEnd (k : String) (last : Bool)
  | clear

/-- What an operation returns. -/
inductive MapOut (ι : Type) where
  | none
  | val (v : ι)
  | item (k : String) (v : ι)

/-- The operation on an `ObjectMap`. -/
def MapOp.run : MapOp ι → PyM (Dict ι) (MapOut ι)
  | .getItem k => do return .val (← GroupMap.getItem k)
  | .setItem k v => do GroupMap.setItem k v; return .none
  | .delItem k => do GroupMap.delItem k; return .none
  | .pop k default => do return .val (← GroupMap.pop k default)
  | .popItem last => do let kv ← GroupMap.popItem last; return .item kv.1 kv.2
  | .setDefault k v => do return .val (← GroupMap.setDefault k v)
  | .update other => do GroupMap.update other; return .none
  | .moveToEnd k last => do GroupMap.moveToEnd k last; return .none
  | .clear => do GroupMap.clear; return .none

namespace Ordered

/-- New keys come last, others keep their place. -/
def set (o : Ordered ι) (k : String) (v : ι) : Ordered ι :=
  ⟨fun x => if x = k then some v else o.val x, if k ∈ o.order then o.order else o.order ++ [k]⟩

def del (o : Ordered ι) (k : String) : Ordered ι :=
  ⟨fun x => if x = k then none else o.val x, o.order.filter (· ≠ k)⟩

def setAll (o : Ordered ι) (l : List (String × ι)) : Ordered ι := l.foldl (fun o kv => o.set kv.1 kv.2) o

end Ordered

/-- What the documentation of `OrderedDict` says about the operation: result and dict afterwards. -/
def MapOp.means (o : Ordered ι) : MapOp ι → Except Err (MapOut ι) × Ordered ι
  | .getItem k => ((o.val k).elim (.error .keyError) fun v => .ok (.val v), o)
  | .setItem k v => (.ok .none, o.set k v)
  | .delItem k => if o.val k = none then (.error .keyError, o) else (.ok .none, o.del k)
  | .pop k default =>
    match o.val k with
    | some v => (.ok (.val v), o.del k)
    | none => (default.elim (.error .keyError) fun v => .ok (.val v), o)
  | .popItem last =>
    match if last then o.order.getLast? else o.order.head? with
    | some k => ((o.val k).elim (.error .keyError) fun v => .ok (.item k v), o.del k)
    | none => (.error .keyError, o)
  | .setDefault k v =>
    match o.val k with
    | some v' => (.ok (.val v'), o)
    | none => (.ok (.val v), o.set k v)
  | .update other => (.ok .none, o.setAll other)
  | .moveToEnd k last =>
    if o.val k = none then (.error .keyError, o)
    else (.ok .none, ⟨o.val, if last then o.order.filter (· ≠ k) ++ [k] else k :: o.order.filter (· ≠ k)⟩)
  | .clear => (.ok .none, ⟨fun _ => none, []⟩)

/-- Several operations in a row. -/
def means : List (MapOp ι) → Ordered ι → List (Except Err (MapOut ι)) × Ordered ι
  | [], o => ([], o)
  | op :: ops, o => ((op.means o).1 :: (means ops (op.means o).2).1, (means ops (op.means o).2).2)

/-- The same on an `ObjectMap`. -/
def runs : List (MapOp ι) → Dict ι → List (Except Err (MapOut ι)) × Dict ι
  | [], m => ([], m)
  | op :: ops, m => ((op.run m).1 :: (runs ops (op.run m).2).1, (runs ops (op.run m).2).2)

/-- The entries, in order, are those of the ordered dict. -/
def Shows (m : Dict ι) (o : Ordered ι) : Prop :=
  m.map Prod.fst = o.order ∧ o.order.Nodup ∧ ∀ k v, (k, v) ∈ m ↔ o.val k = some v

end GroupMap
end Fauxdoc
