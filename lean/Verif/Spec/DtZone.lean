import Verif.Model.DtZone
/-
Specification vocabulary for C90: moments, and ranges over which the clock is not changed.
-/
namespace Fauxdoc

/-- The moment a value in zone `z` stands for, as a reading of the clock in UTC. -/
def ZDT.moment (Z : Zones) (z : Nat) (v : ZDT) : Int := v.us - Z z v.us v.fold

/-- The value with the given clock reading that stands `i` steps after the start of the range, on the
local clock. -/
def ZDTR.nth (r : ZDTR) (i : Int) : ZDT := ⟨r.start.us + r.step * i, false, r.start.tz⟩

/-- The clock of zone `z` is not changed between the elements of the range: one offset for all of
them and for the start, and none of them is in a repeated or missing hour. -/
def ZDTR.Steady (Z : Zones) (z : Nat) (r : ZDTR) : Prop :=
  ∀ i : Nat, (i : Int) < r.length → ∀ f, Z z (r.nth i).us f = Z z r.start.us r.start.fold

/-- All elements of the range exist (years 1 to 9999). -/
def ZDTR.Exists (r : ZDTR) : Prop :=
  0 ≤ r.length ∧ ∀ i : Nat, (i : Int) < r.length →
    (DT.datetime (r.nth i).us).Valid ∧ tdValid (r.step * i)

end Fauxdoc
