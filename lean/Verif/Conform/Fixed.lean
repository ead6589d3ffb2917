import Verif.Conform.Basic
import Verif.Model.Fixed
/-
The tests of `/repo/tests/test_emitters_fixed.py`, run on the model. Left out: attributes without
setters and error messages.
-/
namespace Fauxdoc
namespace Conform

/-- A line of a test. -/
inductive FixedStep (α : Type) where
  | run (o : IterOp α)
  | gives (l : List α)
  | ones (l : List α)
  | raises (o : IterOp α) (e : Err)
  | resetAfterCall (b : Bool)

variable {α : Type} [DecidableEq α] [PyHash α]

/-- Single values, one after the other. -/
def singlesOf {σ : Type} (run : IterOp α → PyM σ (List α)) : Nat → PyM σ (List α)
  | 0 => return []
  | n + 1 => do
    let v ← run (.call none)
    let vs ← singlesOf run n
    return v ++ vs

/-- Whether all assertions hold, and no other exception is raised. -/
def checkFixed {σ : Type} (run : IterOp α → PyM σ (List α)) (rac : σ → Bool) :
    List (FixedStep α) → σ → Bool
  | [], _ => true
  | .run o :: rest, s =>
    match run o s with
    | (.ok _, s') => checkFixed run rac rest s'
    | (.error _, _) => false
  | .gives l :: rest, s =>
    match run (.call (some l.length)) s with
    | (r, s') => is r l && checkFixed run rac rest s'
  | .ones l :: rest, s =>
    match singlesOf run l.length s with
    | (r, s') => is r l && checkFixed run rac rest s'
  | .raises o e :: rest, s =>
    match run o s with
    | (r, s') => fails r e && checkFixed run rac rest s'
  | .resetAfterCall b :: rest, s => decide (rac s = b) && checkFixed run rac rest s

/-- `Iterative(f, reset_after_call)`, then the lines of the test. -/
def iterative (f : Factory α) (rac : Bool) (steps : List (FixedStep α)) : Bool :=
  match Iterative.init f rac with
  | .ok s => checkFixed IterOp.runIter (·.resetAfterCall) steps s
  | .error _ => false

/-- `Sequential(items, reset_after_call)`, then the lines of the test. -/
def sequential (items : List α) (rac : Bool) (steps : List (FixedStep α)) : Bool :=
  match Sequential.init items rac with
  | .ok s => checkFixed IterOp.runSeq (·.it.resetAfterCall) steps s
  | .error _ => false

/-- `lambda: iter(l)`. -/
def overList (l : List α) : Factory α := ⟨.fin l, true⟩

/-- `lambda: itertools.count(n)`, with `f` applied. -/
def counting (n : Nat) (f : Nat → α) : Factory α := ⟨.inf fun k => f (n + k), false⟩

/-- The body of `test_static_emit`. -/
def staticEmits (v : α) : Bool :=
  decide ((Static.init v).value = v) && is (Static.call none (Static.init v)).1 [v] &&
    is (Static.call (some 5) (Static.init v)).1 [v, v, v, v, v]

/-! `test_static_emit`, line 16 -/
example : staticEmits 10 = true := by decide +kernel
example : staticEmits "my value" = true := by decide +kernel
example : staticEmits true = true := by decide +kernel
/-! `test_static_set_value`, line 23; `test_static_uniqueness_properties`, line 36 -/
example : (match Static.setValue 1 (Static.init 3) with
    | (_, s) => is (Static.call none s).1 [1] && decide (s.items = [1])) = true := by decide +kernel
example : is (Static.numUniqueValues (Static.init 1)) 1 = true := by decide +kernel

/-- The body of `test_iterative_emit`. -/
def iterativeEmits (f : Factory α) (l : List α) : Bool :=
  iterative f false [.gives l, .run .reset, .ones l]

/-! `test_iterative_emit`, line 64 -/
example : iterativeEmits (overList [1]) [1, 1, 1, 1, 1, 1] = true := by decide +kernel
example : iterativeEmits (counting 0 id) [0, 1, 2, 3, 4, 5, 6, 7, 8, 9] = true := by decide +kernel
example : iterativeEmits (counting 1001 id) [1001, 1002, 1003, 1004, 1005, 1006] = true := by
  decide +kernel
example : iterativeEmits (overList (List.range 100)) [0, 1, 2, 3, 4, 5, 6, 7, 8, 9] = true := by
  decide +kernel
example : iterativeEmits (overList (List.range 5))
    [0, 1, 2, 3, 4, 0, 1, 2, 3, 4, 0, 1, 2, 3, 4, 0] = true := by decide +kernel
example : iterativeEmits (counting 1 fun n => 'b' :: (toString n).toList)
    [['b', '1'], ['b', '2'], ['b', '3'], ['b', '4']] = true := by decide +kernel
example : iterativeEmits (overList ["0", "1", "2"]) ["0", "1", "2", "0", "1", "2", "0"] = true := by
  decide +kernel
example : iterativeEmits (overList ["red", "cat", "sun"]) ["red", "cat", "sun", "red", "cat"] =
    true := by decide +kernel
/-! `test_iterative_set_iterator_factory`, line 72 -/
example : iterative (overList [1, 2, 3]) false [.run (.call none), .run (.call (some 3)),
    .run (.setFactory (overList [4, 5, 6])), .ones [4], .gives [5, 6, 4, 5, 6]] = true := by
  decide +kernel
/-! `test_iterative_empty_iterator_factory_raises_error_on_init`, line 81 -/
example : (match Iterative.init (overList ([] : List Nat)) false with
    | .ok _ => false
    | .error e => decide (e = .valueError)) = true := by decide +kernel
/-! `test_iterative_empty_iterator_factory_raises_error_when_set`, line 87 -/
example : iterative (overList [1]) false [.raises (.setFactory (overList [])) .valueError] = true := by
  decide +kernel
/-! `test_iterative_resetaftercall_isfalse_doesnot_reset_after_call`, line 94 -/
example : iterative (overList [1, 2, 3]) false [.resetAfterCall false, .gives [1, 2, 3, 1, 2, 3, 1],
    .gives [2, 3, 1, 2, 3, 1, 2], .ones [3], .ones [1], .ones [2]] = true := by decide +kernel
/-! `test_iterative_resetaftercall_istrue_resets_after_call`, line 104 -/
example : iterative (overList [1, 2, 3]) true [.resetAfterCall true, .gives [1, 2, 3, 1, 2, 3, 1],
    .gives [1, 2, 3, 1, 2, 3, 1], .ones [1], .ones [1], .ones [1]] = true := by decide +kernel
/-! `test_iterative_change_resetaftercall`, line 114 -/
example : iterative (overList [1, 2, 3]) false [.run (.setResetAfterCall true), .gives [1, 2, 3, 1],
    .gives [1, 2], .ones [1], .run (.setResetAfterCall false), .gives [1, 2, 3, 1],
    .gives [2, 3, 1], .ones [2]] = true := by decide +kernel
/-! `test_iterative_reset`, line 133 -/
example : iterative (overList [1, 2, 3]) false [.ones [1], .ones [2], .run .reset, .ones [1]] =
    true := by decide +kernel

/-- The body of `test_sequential_emit`. -/
def sequentialEmits (items l : List α) : Bool :=
  (match Sequential.init items false with
    | .ok s => decide (s.items = items)
    | .error _ => false)
  && sequential items false [.gives l, .run .reset, .ones l]

/-! `test_sequential_emit`, line 165 -/
example : sequentialEmits [1] [1, 1, 1, 1, 1, 1, 1, 1, 1] = true := by decide +kernel
example : sequentialEmits (List.range' 1 100) [1, 2, 3, 4, 5, 6, 7, 8, 9, 10] = true := by
  decide +kernel
example : sequentialEmits [1, 2] [1, 2, 1, 2, 1, 2, 1, 2, 1, 2, 1] = true := by decide +kernel
example : sequentialEmits ["red", "cat", "sun"] ["red", "cat", "sun", "red", "cat"] = true := by
  decide +kernel
/-! `test_sequential_set_iterator_factory`, line 174 -/
example : sequential [1, 2] false [.run (.call none), .run (.call (some 2)),
    .run (.setFactory (overList [4, 5, 6])), .ones [4], .gives [5, 6, 4, 5, 6]] = true := by
  decide +kernel
example : (match Sequential.init [1, 2] false with
    | .ok s => (match Sequential.setFactory (overList [4, 5, 6]) s with
      | (.ok _, s') => decide (s'.items = [4, 5, 6]) && is (Sequential.numUniqueValues s') 3
      | (.error _, _) => false)
    | .error _ => false) = true := by decide +kernel
/-! `test_sequential_set_nonseq_iterator_factory_raises_error`, line 187 -/
example : sequential [1, 2, 3] false [.run (.call none),
    .raises (.setFactory (counting 0 id)) .valueError] = true := by decide +kernel

/-- The body of `test_sequential_uniqueness_properties`. -/
def sequentialUnique (items : List α) (n : Nat) : Bool :=
  match Sequential.init items false with
  | .ok s => is (Sequential.numUniqueValues s) n
  | .error _ => false

/-! `test_sequential_uniqueness_properties`, line 202 -/
example : sequentialUnique ['a', 'b', 'c', 'd', 'e'] 5 = true := by decide +kernel
example : sequentialUnique [1, 2, 1, 2, 1, 2] 2 = true := by decide +kernel
example : sequentialUnique ['a', 'a', 'a', 'a', 'a', 'a'] 1 = true := by decide +kernel
/-! `test_sequential_empty_iterator_factory_raises_error`, line 208 -/
example : (match Sequential.init ([] : List Nat) false with
    | .ok _ => false
    | .error e => decide (e = .valueError)) = true := by decide +kernel
/-! `test_sequential_resetaftercall_isfalse_doesnot_reset_after_call`, line 214 -/
example : sequential [1, 2, 3] false [.gives [1, 2, 3, 1, 2, 3, 1], .gives [2, 3, 1, 2, 3, 1, 2],
    .ones [3], .ones [1], .ones [2]] = true := by decide +kernel
/-! `test_sequential_resetaftercall_istrue_resets_after_call`, line 223 -/
example : sequential [1, 2, 3] true [.gives [1, 2, 3, 1, 2, 3, 1], .gives [1, 2, 3, 1, 2, 3, 1],
    .ones [1], .ones [1], .ones [1]] = true := by decide +kernel

end Conform
end Fauxdoc
