import Verif.Spec.RepeatDraw
import Verif.Spec.LongRun
/-
Averages in the long run.
-/
namespace Fauxdoc

/-- The average of the numbers, weighted. -/
noncomputable def meanOf (counts : List Nat) (ws : List ℝ) : ℝ :=
  ((counts.zip ws).map fun q => (q.1 : ℝ) * q.2).sum / ws.sum

end Fauxdoc
