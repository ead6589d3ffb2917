import Verif.Spec.Choice
import Verif.Props.ShuffleProb
/-
Several calls of a `Choice`, and how likely their results are.
-/
namespace Fauxdoc

/-- Calls of the emitter one after the other, until one fails: what each of them returned. -/
def Choice.callAll {K : Type} [Field K] [LinearOrder K] [FloorRing K] {α : Type} [PyHash α] {R : Rng K} :
    List (Option Nat) → ChoiceM α R (List (List α))
  | [] => pure []
  | n :: ns => do
    let vs ← Choice.call (n.map Int.ofNat)
    let rest ← Choice.callAll ns
    return vs :: rest

/-- The items at the positions `ps` can be the result of a call for `n` values of an emitter with `len`
items; `roac` is `replace_only_after_call`. -/
def CanReturn (roac : Bool) (len : Nat) (n : Option Nat) (ps : List Nat) : Prop :=
  ps.length = wanted n ∧ (∀ p ∈ ps, p < len) ∧ (roac = true → ps.Nodup)

/-- The probability that one call returns the items at the positions `ps`: the weights count in proportion
to the weights of everything, or, with `replace_only_after_call`, of everything not yet drawn in this
call. -/
noncomputable def oneCall (roac : Bool) (ws : List ℝ) (ps : List Nat) : ENNReal :=
  if roac then ENNReal.ofReal (succProb ws.sum (ps.map (ws.getD · 0)))
  else (ps.map fun p => ENNReal.ofReal (ws.getD p 0 / ws.sum)).prod

end Fauxdoc
