import Verif.Model.WrapObj
/-
What is to be expected of a `BoundWrapper`, and how programs can use it.
-/
namespace Fauxdoc
variable {G : Type}

/-- `signature` and `wants_rng` are those of the function (wrappers.py 44-62). -/
def WrapAttrs.Describes (a : WrapAttrs G) : Prop :=
  match WrapStore.signatureOf a.fn with
  | .ok ps => a.sig = some ps ∧ (a.wants = true ↔ ∃ p ∈ ps, p.name = "rng")
  | .error .valueError => a.sig = none ∧ a.wants = false
  | .error _ => False

/-- It can be called. -/
def FnObj.Callable : FnObj G → Prop
  | .junk => False
  | _ => True

/-- All wrappers referred to are in the list. -/
def FnObj.Within (rs : List Nat) : FnObj G → Prop
  | .plain _ | .junk => True
  | .having _ f => f.Within rs
  | .wrapper r => r ∈ rs

/-- All stores that a program can reach by making `BoundWrapper` objects (numbered, the list has those
that exist), assigning functions and calling them, whether or not exceptions are raised. -/
inductive WrapReach : List Nat → WrapStore G → Prop
  | start (s : WrapStore G) : WrapReach [] s
  | new {rs s} (h : WrapReach rs s) (r : Nat) (hr : r ∉ rs) (f : FnObj G) (hf : f.Within rs)
    (owner : Nat) (hok : (WrapStore.init r f owner s).1 = .ok ()) :
    WrapReach (r :: rs) (WrapStore.init r f owner s).2
  | failed {rs s} (h : WrapReach rs s) (r : Nat) (hr : r ∉ rs) (f : FnObj G) (hf : f.Within rs)
    (owner : Nat) (hok : (WrapStore.init r f owner s).1 ≠ .ok ()) : WrapReach rs (WrapStore.init r f owner s).2
  | assign {rs s} (h : WrapReach rs s) (r : Nat) (hr : r ∈ rs) (f : FnObj G) (hf : f.Within rs) :
    WrapReach rs (WrapStore.setFunction r f s).2
  | use {rs s} (h : WrapReach rs s) (fuel r : Nat) (hr : r ∈ rs) (args : List Val) (kwargs : Dict Val) :
    WrapReach rs (WrapStore.call fuel r args kwargs s).2

/-- The function that is called in the end when `r` is called, and the emitter whose generator it gets:
wrappers within wrappers are followed. -/
inductive Serves (s : WrapStore G) : Nat → Callback G → Nat → Nat → Prop
  | plain {r cb} (h : (s.wr r).fn = .plain cb) : Serves s r cb (s.wr r).owner 1
  | having {r cb f} (h : (s.wr r).fn = .having cb f) : Serves s r cb (s.wr r).owner 1
  | wrapper {r r' cb i n} (h : (s.wr r).fn = .wrapper r') (h' : Serves s r' cb i n) :
    Serves s r cb i (n + 1)

end Fauxdoc
