import Verif.Model.Interrupt
import Verif.Spec.World
/-
Notions for interrupted runs.
-/
namespace Fauxdoc
variable {K : Type} [Field K] [LinearOrder K] [FloorRing K] {R : Rng K}

/-- An interrupt within a step leaves the configuration of the object struck as it is (no step
changes it half-way), and a field's last value (it is assigned at the very end, profile.py 195-197).
Generators, iterators and progress through shuffled items may be in any state. -/
def Tear.Sound (T : Tear R) : Prop := ∀ a, (T.attrs a).config = a.config ∧ (T.attrs a).cache = a.cache

/-- The class hands out the values of a generator `_iterator`. -/
def Node.iterates : Option Node → Bool
  | some .iterative | some (.sequential _) => true
  | _ => false

namespace Alarm

/-- Start with the clock set to `n`. -/
def set (n : Option Nat) (s : Alarm R) : Alarm R := { s with left := n, rang := false }

/-- The iterating objects below `r` have living generators. -/
def AliveBelow (w0 : World R) (r : Ref) (s : Alarm R) : Prop :=
  ∀ x, Below w0 r x → Node.iterates (w0.obj x).node = true → s.dead x = false

/-- What an interruptible run may do, compared with the run that nobody interrupts: either no
interrupt came, and it ends in the same way with the same store (and finishes no generator); or one
was due, came, and is what the run raises, and `kept` holds of the store. -/
def Follows {α : Type} (s : Alarm R) (out : Except Err α × Alarm R) (full : Except Err α × World R)
    (kept : World R → Prop) : Prop :=
  (out.2.rang = false ∧ out.1 = full.1 ∧ out.2.world = full.2 ∧
    ∀ x, s.dead x = false → out.2.dead x = false) ∨
  (out.2.rang = true ∧ out.1 = .error interrupt ∧ s.left ≠ none ∧ kept out.2.world)

/-- One use of some object, interrupted at any moment or not at all, whatever its outcome. -/
inductive Use (str : Val → List Char) (s : Alarm R) : Alarm R → Prop
  | call (T : Tear R) (hT : T.Sound) (n : Option Nat) (fuel : Nat) (r : Ref) (arg : Option Val) :
    Use str s (call T str fuel r arg (s.set n)).2
  | reset (T : Tear R) (hT : T.Sound) (n : Option Nat) (fuel : Nat) (r : Ref) :
    Use str s (reset T fuel r (s.set n)).2
  | document (T : Tear R) (hT : T.Sound) (n : Option Nat) (fuel : Nat) (fields : Dict Ref) :
    Use str s (document T str fuel fields (s.set n)).2
  | resetFields (T : Tear R) (hT : T.Sound) (n : Option Nat) (fuel : Nat) (fields : Dict Ref) :
    Use str s (resetFields T fuel fields (s.set n)).2

/-- Any number of uses. -/
inductive History (str : Val → List Char) (s : Alarm R) : Alarm R → Prop
  | start : History str s s
  | use {u v : Alarm R} (h : History str s u) (h' : Use str u v) : History str s v

/-- The same with seeding. -/
inductive LongHistory (str : Val → List Char) (s : Alarm R) : Alarm R → Prop
  | start : LongHistory str s s
  | use {u v : Alarm R} (h : LongHistory str s u) (h' : Use str u v) : LongHistory str s v
  | seed {u : Alarm R} (h : LongHistory str s u) (T : Tear R) (hT : T.Sound) (n : Option Nat)
    (fuel : Nat) (r : Ref) (z : Option Int) : LongHistory str s (seed T fuel r z (u.set n)).2
  | seedFields {u : Alarm R} (h : LongHistory str s u) (T : Tear R) (hT : T.Sound) (n : Option Nat)
    (fuel : Nat) (z : Option Int) (fields : Dict Ref) :
    LongHistory str s (seedFields T fuel z fields (u.set n)).2

/-- The outcomes of `k` successive uninterrupted calls of a schema. -/
def documents (T : Tear R) (str : Val → List Char) (fuel : Nat) (fields : Dict Ref) :
    Nat → Alarm R → List (Except Err (Dict Val))
  | 0, _ => []
  | k + 1, s => (document T str fuel fields (s.set none)).1 ::
      documents T str fuel fields k (document T str fuel fields (s.set none)).2

end Alarm
end Fauxdoc
