import Verif.Model.Choice
/-
Histories of a `Choice` emitter, as its user sees them.
-/
namespace Fauxdoc
variable {K : Type} [Field K] [LinearOrder K] [FloorRing K] {α : Type} [PyHash α] {R : Rng K}

/-- The values emitted since the last reshuffle, after one more operation `op` with outcome `r` on
an emitter whose `replace` attribute was `repl`.  Documented reshuffles are: a successful `reset`,
`seed` or weight assignment, and an actual change of `replace`. -/
def emittedAfter (repl : Bool) (op : ChoiceOp K) (r : Except Err (List α)) (E : List α) : List α :=
  match r with
  | .error _ => E
  | .ok vs =>
    match op with
    | .call _ => if repl then E else E ++ vs
    | .setWeights _ => []
    | .setCumWeights _ => []
    | .reset => []
    | .seed _ => []
    | .setReplace b => if b = repl then E else []
    | .setRoac b => if b && !repl then [] else E
    | .setRngSeed _ => E

/-- All states reachable by constructing a `Choice` over `items` and operating on it, including
after operations that raised. -/
inductive ChoiceReach (R : Rng K) (items : List α) : ChoiceSt α R × Nat → Prop
  | init (w : Option (List K)) (replace roac : Bool) (seed : Option Int) (cw : Option (List K))
      (ent ent' : Nat) (st : ChoiceSt α R)
      (h : Choice.init items w replace roac seed cw ent = (.ok st, ent')) :
      ChoiceReach R items (st, ent')
  | op (s : ChoiceSt α R × Nat) (o : ChoiceOp K) (h : ChoiceReach R items s) :
      ChoiceReach R items (o.run s).2

/-- Histories in which no assignment `replace = False` raised, with the values emitted since the
last reshuffle. -/
inductive ChoiceRun (R : Rng K) (items : List α) : ChoiceSt α R × Nat → List α → Prop
  | init (w : Option (List K)) (replace roac : Bool) (seed : Option Int) (cw : Option (List K))
      (ent ent' : Nat) (st : ChoiceSt α R)
      (h : Choice.init items w replace roac seed cw ent = (.ok st, ent')) :
      ChoiceRun R items (st, ent') []
  | op (s : ChoiceSt α R × Nat) (E : List α) (o : ChoiceOp K) (h : ChoiceRun R items s E)
      (hok : ∀ x, (o.run s).1 = .error x → ∀ b, o = .setReplace b → b = true) :
      ChoiceRun R items (o.run s).2 (emittedAfter s.1.replace o (o.run s).1 E)

theorem ChoiceRun.reach {items : List α} {s : ChoiceSt α R × Nat} {E : List α}
    (h : ChoiceRun R items s E) : ChoiceReach R items s := by
  induction h with
  | init w r ro sd cw e e' st h => exact .init w r ro sd cw e e' st h
  | op s E o _ _ ih => exact .op s o ih

/-- The number of values a call asks for. -/
def wanted (n : Option Nat) : Nat := n.getD 1

/-- Operations that do not ask for OS entropy. -/
def ChoiceOp.Seeded : ChoiceOp K → Prop
  | .seed s => s ≠ none
  | .setRngSeed s => s ≠ none
  | _ => True

/-- What a user sees when performing the operations in turn: every returned value or exception. -/
def choiceOutputs : List (ChoiceOp K) → ChoiceSt α R × Nat → List (Except Err (List α))
  | [], _ => []
  | o :: os, s => (o.run s).1 :: choiceOutputs os (o.run s).2

/-- The operations never ask for OS entropy, and no assignment `replace = False` raises. -/
def ChoiceAdmissible : List (ChoiceOp K) → ChoiceSt α R × Nat → Prop
  | [], _ => True
  | o :: os, s => o.Seeded ∧ (o = .setReplace false → ∃ vs, (o.run s).1 = .ok vs) ∧
      ChoiceAdmissible os (o.run s).2

end Fauxdoc
