import Verif.Model.BadSeed
/-
Vocabulary for seeds that are refused.
-/
namespace Fauxdoc.Refused
variable {G E : Type}

/-- The objects differ in nothing but `rng_seed`. -/
structure SameBut (a b : Obj G E) : Prop where
  cls : a.cls = b.cls
  rng : a.rng = b.rng
  data : a.data = b.data
  lastReset : a.lastReset = b.lastReset
  lastSeed : a.lastSeed = b.lastSeed

/-- The stores differ in nothing but `rng_seed` attributes. -/
def Alike (w w' : Store G E) : Prop := w.entropy = w'.entropy ∧ ∀ x, SameBut (w.obj x) (w'.obj x)

/-- The stores differ in nothing but `rng_seed` of `q`. -/
def AlikeBut (q : Ref) (w w' : Store G E) : Prop :=
  Alike w w' ∧ ∀ x, x ≠ q → w.obj x = w'.obj x

/-- The store in which `rng_seed` of `q` is a value that `random.seed` refuses. -/
def Store.spoilt (w : Store G E) (q : Ref) : Store G E :=
  ⟨fun x => if x = q then { w.obj x with seed := .refused } else w.obj x, w.entropy⟩

/-- The classes of the objects. -/
def Store.Has (w : Store G E) (cls : Ref → Cls) : Prop := ∀ x, (w.obj x).cls = cls x

/-- The object contains others to a depth of less than `n`. -/
inductive Fits (cls : Ref → Cls) : Nat → Ref → Prop
  | intro {n : Nat} {r : Ref} (h : ∀ c ∈ (cls r).kids, Fits cls n c) : Fits cls (n + 1) r

/-- `y` is a part of `x`, or a part of a part, and so on. -/
inductive Below (cls : Ref → Cls) : Ref → Ref → Prop
  | kid {x y : Ref} (h : y ∈ (cls x).kids) : Below cls x y
  | step {x c y : Ref} (h : c ∈ (cls x).kids) (hs : Below cls c y) : Below cls x y

/-- `q` is reached from `r` by going to the first part that has a generator, as long as there is one. -/
inductive First (cls : Ref → Cls) : Ref → Ref → Prop
  | here {r : Ref} (hr : (cls r).random = true)
    (h : ∀ c ∈ (cls r).kids, (cls c).random = false) : First cls r r
  | down {r c q : Ref} {pre post : List Ref} (h : (cls r).kids = pre ++ c :: post)
    (hp : ∀ x ∈ pre, (cls x).random = false) (hc : (cls c).random = true) (hq : First cls c q) :
    First cls r q

end Fauxdoc.Refused
