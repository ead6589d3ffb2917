import Verif.Py.Slice
import Mathlib.Data.List.Forall2
/-
Dynamic Python values that flow between emitters.

Simplifications: `other n` stands for any value of another type (floats, user objects), compared by
its tag; Python's cross-type equality (`True == 1`) is not modelled; strings are lists of
characters.
-/
namespace Fauxdoc

/-- A Python value. -/
inductive Val where
  | none
  | bool (b : Bool)
  | int (i : Int)
  | str (s : List Char)
  | list (l : List Val)
  | tuple (l : List Val)
  | other (n : Nat)
  deriving Inhabited

mutual
/-- Equality of values is decidable. -/
def Val.decEq : (a b : Val) → Decidable (a = b)
  | .none, b => by cases b <;> first | exact isTrue rfl | exact isFalse (by simp)
  | .bool x, b => by
    cases b with
    | bool y => exact decidable_of_iff (x = y) (by simp)
    | _ => exact isFalse (by simp)
  | .int x, b => by
    cases b with
    | int y => exact decidable_of_iff (x = y) (by simp)
    | _ => exact isFalse (by simp)
  | .str x, b => by
    cases b with
    | str y => exact decidable_of_iff (x = y) (by simp)
    | _ => exact isFalse (by simp)
  | .other x, b => by
    cases b with
    | other y => exact decidable_of_iff (x = y) (by simp)
    | _ => exact isFalse (by simp)
  | .list x, .list y =>
    match Val.decEqList x y with
    | isTrue h => isTrue (by rw [h])
    | isFalse h => isFalse (by simpa using h)
  | .list _, .none => isFalse (by simp)
  | .list _, .bool _ => isFalse (by simp)
  | .list _, .int _ => isFalse (by simp)
  | .list _, .str _ => isFalse (by simp)
  | .list _, .tuple _ => isFalse (by simp)
  | .list _, .other _ => isFalse (by simp)
  | .tuple x, .tuple y =>
    match Val.decEqList x y with
    | isTrue h => isTrue (by rw [h])
    | isFalse h => isFalse (by simpa using h)
  | .tuple _, .none => isFalse (by simp)
  | .tuple _, .bool _ => isFalse (by simp)
  | .tuple _, .int _ => isFalse (by simp)
  | .tuple _, .str _ => isFalse (by simp)
  | .tuple _, .list _ => isFalse (by simp)
  | .tuple _, .other _ => isFalse (by simp)

/-- Equality of lists of values is decidable. -/
def Val.decEqList : (a b : List Val) → Decidable (a = b)
  | [], [] => isTrue rfl
  | [], _ :: _ => isFalse (by simp)
  | _ :: _, [] => isFalse (by simp)
  | a :: as, b :: bs =>
    match Val.decEq a b, Val.decEqList as bs with
    | isTrue h, isTrue h' => isTrue (by rw [h, h'])
    | isFalse h, _ => isFalse (by simp [h])
    | _, isFalse h => isFalse (by simp [h])
end

instance : DecidableEq Val := Val.decEq

/-- A value used as an integer (`True` and `False` count as 1 and 0). -/
def Val.asInt : Val → Option Int
  | .int i => some i
  | .bool true => some 1
  | .bool false => some 0
  | _ => Option.none

/-- `bool(v)`. -/
def Val.truthy : Val → Bool
  | .none => false
  | .bool b => b
  | .int i => i ≠ 0
  | .str s => !s.isEmpty
  | .list l => !l.isEmpty
  | .tuple l => !l.isEmpty
  | .other _ => true

/-- `list(v)`: what iterating over the value gives; `TypeError` if it is not iterable. -/
def Val.elems : Val → Py (List Val)
  | .list l => .ok l
  | .tuple l => .ok l
  | .str s => .ok (s.map fun c => .str [c])
  | _ => .error .typeError

theorem Val.elems_list (l : List Val) : (Val.list l).elems = .ok l := rfl

/-- The characters of a string; `TypeError` for other values. -/
def Val.chars : Val → Py (List Char)
  | .str s => .ok s
  | _ => .error .typeError

/-- The integer a value stands for; `TypeError` for other values. -/
def Val.toInt (v : Val) : Py Int :=
  match v.asInt with
  | some i => .ok i
  | Option.none => .error .typeError

/-- Run a partial conversion over a list, left to right. -/
def mapPy {α β : Type} (f : α → Py β) : List α → Py (List β)
  | [] => .ok []
  | a :: as => do
    let b ← f a
    let bs ← mapPy f as
    return b :: bs

/-- `''.join(l)`. -/
def joinEmpty (l : List Val) : Py (List Char) := do return (← mapPy Val.chars l).flatten

/-- `sum(l)` for a list of values. -/
def sumInts (l : List Val) : Py (List Int × Int) := do
  let is ← mapPy Val.toInt l
  return (is, is.sum)

/-- Hashable values (lists are not; tuples if all members are). -/
def Val.hashable : Val → Bool
  | .list _ => false
  | .tuple l => go l
  | _ => true
where
  /-- All members hashable. -/
  go : List Val → Bool
    | [] => true
    | v :: vs => v.hashable && go vs

instance : PyHash Val := ⟨Val.hashable⟩

theorem mapPy_ok_iff {α β : Type} {f : α → Py β} {l : List α} {r : List β} :
    mapPy f l = .ok r ↔ List.Forall₂ (fun a b => f a = .ok b) l r := by
  induction l generalizing r with
  | nil =>
    constructor
    · intro h; cases h; exact .nil
    · intro h; cases h; rfl
  | cons a as ih =>
    constructor
    · intro h
      obtain ⟨b, h1, h2⟩ := Py.bind_eq_ok h
      obtain ⟨bs, h3, h4⟩ := Py.bind_eq_ok h2
      cases h4
      exact .cons h1 (ih.1 h3)
    · intro h
      cases h with
      | cons h1 h2 =>
        unfold mapPy
        rw [h1, Py.ok_bind, ih.2 h2]; rfl

end Fauxdoc
