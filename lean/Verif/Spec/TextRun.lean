import Verif.Spec.TextDraw
import Verif.Spec.WordDraw
import Verif.Spec.MeanRun
/-
Sequences of words and texts.
-/
namespace Fauxdoc

/-- The calls returned the strings `ts`. -/
def GaveStrings (os : List (Except Err Val)) (ts : List (List Char)) : Prop :=
  os = ts.map fun t => .ok (.str t)

/-- Each of the texts `ts` consists of the words at its place in `wss`, with the separators at its place
in `sss` between them. -/
inductive TextRun : List (List (List Char)) → List (List (List Char)) → List (List Char) → Prop
  | nil : TextRun [] [] []
  | cons {ws ss : List (List Char)} {t : List Char} {wss sss : List (List (List Char))}
      {ts : List (List Char)} : TextOf ws ss t → TextRun wss sss ts →
      TextRun (ws :: wss) (ss :: sss) (t :: ts)

/-- What `n` calls of `r` without an argument give. -/
def World.bareCalls {K : Type} [Field K] [LinearOrder K] [FloorRing K] {R : Rng K}
    (str : Val → List Char) (fuel : Nat) (r : Ref) (n : Nat) (w : World R) : List (Except Err Val) :=
  World.outcomes str fuel r (List.replicate n none) w

/-- The words and separators used are among the given ones. -/
def MadeOf (words seps : List (List Char)) (wss sss : List (List (List Char))) : Prop :=
  (∀ ws ∈ wss, ∀ x ∈ ws, x ∈ words) ∧ ∀ ss ∈ sss, ∀ x ∈ ss, x ∈ seps

end Fauxdoc
