import Verif.Model.Choice
import Verif.Model.Text
/-
A `Choice` over dynamic values used as a child emitter.
-/
namespace Fauxdoc
variable {K : Type} [Field K] [LinearOrder K] [FloorRing K] {R : Rng K}

namespace Choice

/-- `emit_many` with a number that is not an integer, choice.py 348-356: a `TypeError`, except that
`random.choices` looks at the cumulative weights first. -/
def emitBad (_ : Val) : ChoiceM Val R Val := do
  let c ← self
  match c.replace, c.roac, c.cumWeights with
  | true, false, some cum =>
    if c.items.length = 1 then PyM.raise .typeError
    else do
      let _ ← onRng (R.choicesCum c.items.length cum 0)
      PyM.raise .typeError
  | _, _, _ => PyM.raise .typeError

/-- `choice(...)`: `Emitter.__call__`, emitter.py 74-102, over choice.py 342-356. -/
def child : Child (ChoiceSt Val R × Nat) := emitterCallOr emitBad emit emitMany

/-- `num_unique_values or 0` if `replace_only_after_call` is set (text.py 262-263). -/
def roacInfo : ChoiceM Val R (Option Int) := do
  let c ← self
  if c.roac then do return some ((← numUniqueValues : Nat) : Int)
  else return none

/-- A `Choice` as the word emitter of a `Text`. -/
def words : Text.WordChild (ChoiceSt Val R × Nat) := ⟨child, reset, roacInfo⟩

end Choice

/-- Run a computation on the first component of the state. -/
def PyM.onFst {σ τ α : Type} (m : PyM σ α) : PyM (σ × τ) α := fun s =>
  match m s.1 with
  | (r, s') => (r, (s', s.2))

/-- A word emitter living in the first component of the state. -/
def Text.WordChild.onFst {σ τ : Type} (w : Text.WordChild σ) : Text.WordChild (σ × τ) :=
  ⟨fun a => (w.call a).onFst, w.reset.onFst, w.roac.onFst⟩

end Fauxdoc
