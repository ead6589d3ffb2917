import Verif.Spec.CallDraw
/-
How often an item turns up in the long run.
-/
namespace Fauxdoc

/-- The weight of everything equal to `x`, as a share of all weights. -/
noncomputable def shareOf {α : Type} [DecidableEq α] (items : List α) (ws : List ℝ) (x : α) : ℝ :=
  (((items.zip ws).filter fun q => q.1 = x).map Prod.snd).sum / ws.sum

/-- How many values the first `k` of some calls are for. -/
def askedBy (ns : ℕ → Option Nat) (k : ℕ) : ℕ := ((List.range k).map fun i => wanted (ns i)).sum

/-- How many of the values are `x`, as a share of their number. -/
noncomputable def freq {α : Type} [DecidableEq α] (x : α) (vs : List α) : ℝ := (vs.count x : ℝ) / vs.length

end Fauxdoc
