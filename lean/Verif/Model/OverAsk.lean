import Verif.Model.Choice
import Verif.Model.DtText
/-
The message of `Emitter.raise_uniqueness_violation` (`/repo/src/fauxdoc/emitter.py` 52-64).
-/
namespace Fauxdoc
variable {K : Type} [Field K] [LinearOrder K] [FloorRing K] {R : Rng K} {α : Type}

/-- The f-strings of emitter.py 59-64.  `num_unique_values` is read twice: `k` is what it was for the
number and `k'` for the plural. -/
def overAskText (number : Int) (k k' : Nat) : List Char :=
  "Could not emit: ".toList ++ decInt number ++ " new unique value".toList ++
    (if number = 1 then " was".toList else "s were".toList) ++ " requested, out of ".toList ++
    dec k ++ " possible selection".toList ++ (if k' = 1 then [] else ['s']) ++ ['.']

namespace Choice

/-- Putting together the message, emitter.py 59-64, of a `Choice` (choice.py 282-294). -/
def complaint [DecidableEq α] [PyHash α] (number : Int) : ChoiceM α R (List Char) := do
  let k ← numUniqueValues
  let k' ← numUniqueValues
  return overAskText number k k'

end Choice
end Fauxdoc
