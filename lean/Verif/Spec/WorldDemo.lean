import Verif.Spec.World
import Verif.Py.RngDemo
/-
A concrete schema, built with the model's constructors, for the examples beside the theorems.
-/
namespace Fauxdoc

instance : DecidableEq demoRng.G := inferInstanceAs (DecidableEq Nat)

/-- Nothing created yet. -/
def emptyWorld : World demoRng := ⟨fun _ => World.blank, 0, 0⟩

/-- A stand-in for `str`. -/
def demoStr : Val → List Char
  | .str s => s
  | .int i => (toString i).toList
  | _ => ['?']

/-- `lambda v: [v, v]`. -/
def doubled : Callback Nat where
  sig := some [⟨"v", .posOrKw, false⟩]
  run args _ := .ok (.list (args ++ args))
  runRng _ _ := PyM.raise .typeError

/-- A field `n` counting through 1, 2, 3; a field `tags` with two words out of three without
repetition per document; a hidden field `kind` choosing with replacement; a field `copy` joining `n`
and `kind`; a field `pair` based on `n`. -/
def demoSchema : PyM (World demoRng) (Dict Ref) := do
  let count ← World.newSequential .list [.int 1, .int 2, .int 3] false
  let n ← World.newField 5 "n" count none none false (some 3)
  let words ← World.newChoice .list [.str ['x'], .str ['y'], .str ['z']] none false true (some 1) none
  let two ← World.newStatic (.int 2)
  let tags ← World.newField 5 "tags" words (some two) none false (some 4)
  let kinds ← World.newChoice .list [.int 7, .int 8] (some [1, 2]) true false none none
  let kind ← World.newField 5 "kind" kinds none none true (some 5)
  let both ← World.newCopyFields [n, kind] false (some ['-'])
  let copy ← World.newField 5 "copy" both none none false (some 6)
  let twice ← World.newBasedOnFields demoStr 5 [n] true doubled (some 8)
  let pair ← World.newField 5 "pair" twice none none false (some 7)
  return [("n", n), ("tags", tags), ("kind", kind), ("copy", copy), ("pair", pair)]

/-- The store after building the schema. -/
def demoWorld : World demoRng := (demoSchema emptyWorld).2

/-- The fields of the schema. -/
def demoFields : Dict Ref := [("n", 3), ("tags", 7), ("kind", 11), ("copy", 15), ("pair", 19)]

/-- `demoWorld`, written so that references outside it are plainly blank. -/
def demoWorld' : World demoRng :=
  { demoWorld with obj := fun r => if r < 20 then demoWorld.obj r else World.blank }

/-- A way to show that an object is not below another one. -/
theorem Below.mem {K : Type} [Field K] [LinearOrder K] [FloorRing K] {R : Rng K} {w : World R}
    {r x : Ref} (h : Below w r x) (L : List Ref)
    (hL : ∀ y ∈ L, ∀ c ∈ (w.obj y).children, c ∈ L) (hr : r ∈ L) : x ∈ L := by
  induction h with
  | self => exact hr
  | step hc _ ih => exact ih (hL _ hr _ hc)

end Fauxdoc
