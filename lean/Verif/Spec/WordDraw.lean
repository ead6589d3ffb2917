import Verif.Spec.Gate
/-
Words with random length and random letters.
-/
namespace Fauxdoc
variable {K : Type} [Field K] [LinearOrder K] [FloorRing K] {R : Rng K}

/-- `r` is a `Word` that chooses its length among `lens` with weights `wl` (by the emitter `l`) and
its letters among `cs` with weights `wa` (by the emitter `a`), with replacement. -/
structure WordOf (w : World R) (r l a : Ref) (lens : List Nat) (wl : List K) (cs : List Char)
    (wa : List K) : Prop where
  node : (w.obj r).node = some (.word l a)
  apart : l ≠ a
  length : Picks (lens.map fun n : Nat => .int n) wl (w.obj l)
  letters : Picks (cs.map fun c => .str [c]) wa (w.obj a)
  roac : (w.obj a).choice.roac = false

end Fauxdoc
