import Verif.Props.Choice
import Verif.Py.Val
/-
`Choice` over items that cannot be hashed (C13, C17): the counters and the message of the
`ValueError` for over-asking use `len(set(...))`.
-/
namespace Fauxdoc
open Choice

/-- `[1]` and `[2]`. -/
def listItems : List Val := [.list [.int 1], .list [.int 2]]

/-- The state of `Choice([[1], [2]], replace=False, rng_seed=5)`. -/
def listState : ChoiceSt Val demoRng :=
  match (Choice.init listItems none false false (some 5) none 0 :
      Except Err (ChoiceSt Val demoRng) × Nat).1 with
  | .ok st => st
  | .error _ => ⟨[], none, none, false, false, [], none, 0, none, (0 : Nat)⟩

theorem listState_run : ChoiceRun demoRng listItems (listState, 0) [] := by
  have h1 : (Choice.init (R := demoRng) listItems none false false (some 5) none 0).1.isOk = true := by
    decide +kernel
  have h2 : (Choice.init (R := demoRng) listItems none false false (some 5) none 0).2 = 0 := by
    decide +kernel
  refine .init none false false (some 5) none 0 0 _ (Prod.ext ?_ h2)
  unfold listState
  rcases hi : (Choice.init (R := demoRng) listItems none false false (some 5) none 0).1 with x | st
  · rw [hi] at h1; cases h1
  · rfl

/-- **C13 violated.** `Choice([[1], [2]], replace=False)` asked for three values raises `TypeError`,
not `ValueError`: the message needs `num_unique_values`, which puts the items into a set.  Nothing is
consumed; once both items are handed out, a further call raises `ValueError`. -/
theorem C13_violated : ∃ s, ChoiceRun demoRng listItems s [] ∧ s.1.replace = false ∧
    (call (some 3) s).1 = .error .typeError ∧
    (call (some 2) (call (some 3) s).2).1 = .ok listItems ∧
    (call (some 1) (call (some 2) (call (some 3) s).2).2).1 = .error .valueError :=
  ⟨_, listState_run, by decide +kernel, by decide +kernel, by decide +kernel, by decide +kernel⟩

/-- The same with `replace_only_after_call`. -/
theorem C13_roac_violated : ∃ s, ChoiceReach demoRng listItems s ∧ s.1.roac = true ∧
    (call (some 3) s).1 = .error .typeError := by
  refine ⟨((ChoiceOp.setRoac true : ChoiceOp ℚ).run (listState, 0)).2,
    .op _ _ listState_run.reach, by decide +kernel, by decide +kernel⟩

/-- **C17 violated.** Both items are still to come and different, but `num_unique_values` and
`emits_unique_values` raise `TypeError`. -/
theorem C17_violated : ∃ s, ChoiceRun demoRng listItems s [] ∧ s.1.replace = false ∧
    (numUniqueValues s).1 = .error .typeError ∧ (emitsUniqueValues s).1 = .error .typeError :=
  ⟨_, listState_run, by decide +kernel, by decide +kernel, by decide +kernel⟩

/-- Tuples can be hashed unless they contain a list. -/
example : allHashable [Val.tuple [.int 1, .str ['a']], .none] = true ∧
    allHashable [Val.tuple [.int 1, .list []]] = false := by decide +kernel

end Fauxdoc
