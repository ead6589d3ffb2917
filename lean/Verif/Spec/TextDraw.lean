import Verif.Spec.Gate
import Verif.Spec.Text
/-
Texts with a random number of random words and random separators.
-/
namespace Fauxdoc
variable {K : Type} [Field K] [LinearOrder K] [FloorRing K] {R : Rng K}

/-- `r` is a `Text` that chooses the number of its words among `lens` with weights `wn` (by the
emitter `n`), the words among `words` with weights `ww` (by `wd`) and the separators among `seps` with
weights `ws` (by `sp`), all with replacement. -/
structure RandomText (w : World R) (r n wd sp : Ref) (lens : List Nat) (wn : List K)
    (words : List (List Char)) (ww : List K) (seps : List (List Char)) (ws : List K) : Prop where
  node : (w.obj r).node = some (.text n wd sp)
  apart : n ≠ wd ∧ n ≠ sp ∧ wd ≠ sp
  counts : Picks (lens.map fun n : Nat => .int n) wn (w.obj n)
  words : Picks (words.map .str) ww (w.obj wd)
  seps : Picks (seps.map .str) ws (w.obj sp)
  roac : (w.obj n).choice.roac = false ∧ (w.obj wd).choice.roac = false ∧
    (w.obj sp).choice.roac = false
  positive : ∀ n ∈ lens, 1 ≤ n

/-- A text of these words and separators can be taken apart in one way only. -/
def Legible (words seps : List (List Char)) : Prop :=
  ∀ ws ss ws' ss' t, (∀ x ∈ ws, x ∈ words) → (∀ x ∈ ss, x ∈ seps) → (∀ x ∈ ws', x ∈ words) →
    (∀ x ∈ ss', x ∈ seps) → TextOf ws ss t → TextOf ws' ss' t → ws = ws' ∧ ss = ss'

/-- The part of the unit interval that belongs to item `i` with weights `wa` does not meet the part
that belongs to item `j` with weights `wb`. -/
def SharesApart (wa : List K) (i : Nat) (wb : List K) (j : Nat) : Prop :=
  (wa.take (i + 1)).sum / wa.sum ≤ (wb.take j).sum / wb.sum ∨
    (wb.take (j + 1)).sum / wb.sum ≤ (wa.take i).sum / wa.sum

end Fauxdoc
