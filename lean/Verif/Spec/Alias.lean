import Verif.Model.Alias
/-
Documents as objects that the user may change.
-/
namespace Fauxdoc.Alias
variable {G : Type}

/-- The emitters of the library, over any values. -/
inductive Lib : Emitter G → Prop
  | leaf (one : PyM G PVal) (many : Int → PyM G (List PVal)) : Lib (leaf one many)
  | wrapOne {e : Emitter G} (cb : Callback G) (h : Lib e) : Lib (wrapOne e cb)
  | wrapMany {es : List (Emitter G)} (cb : Callback G) (h : ∀ e ∈ es, Lib e) : Lib (wrapMany es cb)
  | copyFields (str : View → List Char) (source : List Ref) (single : Bool)
    (sep : Option (List Char)) : Lib (copyFields str source single sep)
  | basedOnFields (source : List Ref) (cb : Callback G) : Lib (basedOnFields source cb)

/-- No list. -/
def PVal.IsAtom (v : PVal) : Prop := ∃ a, v = .atom a

/-- The emitters of the library whose items are no lists and which use no other fields than `S`. -/
inductive Plain (S : List Ref) : Emitter G → Prop
  | leaf (one : PyM G PVal) (many : Int → PyM G (List PVal))
    (h1 : ∀ g v, (one g).1 = .ok v → v.IsAtom)
    (h2 : ∀ n g vs, (many n g).1 = .ok vs → ∀ v ∈ vs, v.IsAtom) : Plain S (leaf one many)
  | wrapOne {e : Emitter G} (cb : Callback G) (h : Plain S e) : Plain S (wrapOne e cb)
  | wrapMany {es : List (Emitter G)} (cb : Callback G) (h : ∀ e ∈ es, Plain S e) :
    Plain S (wrapMany es cb)
  | copyFields (str : View → List Char) {source : List Ref} (single : Bool)
    (sep : Option (List Char)) (h : ∀ f ∈ source, f ∈ S) : Plain S (copyFields str source single sep)
  | basedOnFields {source : List Ref} (cb : Callback G) (h : ∀ f ∈ source, f ∈ S) :
    Plain S (basedOnFields source cb)

/-- A field of such emitters. -/
structure FieldObj.PlainOver (f : FieldObj G) (S : List Ref) : Prop where
  emitter : Plain S f.emitter
  rep : Plain S f.rep
  gate : Plain S f.gate

/-- Every field comes after the fields it uses. -/
inductive Ordered : List Ref → List (FieldObj G) → Prop
  | nil (S) : Ordered S []
  | cons {S} {f : FieldObj G} {fs} (h : f.PlainOver S) (hs : Ordered (f.ref :: S) fs) : Ordered S (f :: fs)

/-- The list object `a` is in the value `v`, at any depth. -/
inductive Reach (m : Mem) : PVal → Nat → Prop
  | self (a : Nat) : Reach m (.list a) a
  | step {a b : Nat} {v : PVal} (hv : v ∈ m.lists a) (h : Reach m v b) : Reach m (.list a) b

/-- What a program does: make a document, or anything else that depends on the rest of the state and
changes it, and changes values of fields (calls of emitters that use no fields, resets, seeds, ...). -/
inductive Op (G : Type) where
  | doc
  | other (m : PyM G Unit) (c : (Ref → PVal) → Ref → PVal)

/-- A document, and the list objects at the time it is returned. -/
abbrev Result := Except Err (Dict PVal) × Mem

/-- Run a program; after each operation the user changes lists. -/
def run (fields : List (FieldObj G)) : List (Op G × (Mem → Mem)) → State G → List Result
  | [], _ => []
  | (.doc, u) :: ops, s =>
    let p := document fields s
    (p.1, p.2.mem) :: run fields ops { p.2 with mem := u p.2.mem }
  | (.other m c, u) :: ops, s =>
    run fields ops ⟨u s.mem, c s.cache, (m s.gen).2⟩

/-- Two documents, or two exceptions, that look the same. -/
def LookAlike (r r' : Result) : Prop :=
  match r.1, r'.1 with
  | .error x, .error x' => x = x'
  | .ok d, .ok d' => List.Forall₂ (fun kv kv' => kv.1 = kv'.1 ∧
      ∀ n, read r.2 n kv.2 = read r'.2 n kv'.2) d d'
  | _, _ => False

/-- No list object that is in use is changed. -/
def Untouched (m m' : Mem) : Prop := m.next ≤ m'.next ∧ ∀ a < m.next, m'.lists a = m.lists a

end Fauxdoc.Alias
