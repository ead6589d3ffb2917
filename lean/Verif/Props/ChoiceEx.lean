import Verif.Props.Choice3
import Verif.Proofs.TotalSeconds
/-
Concrete histories that meet the hypotheses of the theorems in Props/Choice.lean and
Props/Choice3.lean, each theorem being applied to one of them.
-/
namespace Fauxdoc
open Choice

/-- The state a constructor call leaves behind. -/
def builtState (p : Except Err (ChoiceSt Char demoRng) × Nat) : ChoiceSt Char demoRng × Nat :=
  match p with
  | (.ok st, e) => (st, e)
  | (.error _, e) => (zeroWeightChoice, e)

theorem builtState_eq (p : Except Err (ChoiceSt Char demoRng) × Nat) (h : p.1.isOk = true) :
    p = (.ok (builtState p).1, (builtState p).2) := by
  obtain ⟨p | p, e⟩ := p
  · cases h
  · rfl

/-- `Choice('aab', weights=[1, 2, 1], replace=False, rng_seed=3)`. -/
def dealt0 : ChoiceSt Char demoRng × Nat :=
  builtState (Choice.init ['a', 'a', 'b'] (some [1, 2, 1]) false false (some 3) none 0)

/-- The same after two values. -/
def dealt2 : ChoiceSt Char demoRng × Nat := ((ChoiceOp.call (some 2) : ChoiceOp ℚ).run dealt0).2

/-- The same after all three values. -/
def dealt3 : ChoiceSt Char demoRng × Nat := ((ChoiceOp.call none : ChoiceOp ℚ).run dealt2).2

theorem dealt0_run : ChoiceRun demoRng ['a', 'a', 'b'] dealt0 [] :=
  .init (some [1, 2, 1]) false false (some 3) none 0 dealt0.2 dealt0.1
    (builtState_eq (Choice.init ['a', 'a', 'b'] (some [1, 2, 1]) false false (some 3) none 0)
      (by decide +kernel))

theorem dealt2_run : ChoiceRun demoRng ['a', 'a', 'b'] dealt2 ['a', 'b'] := by
  have h := ChoiceRun.op _ _ (.call (some 2)) dealt0_run (fun _ _ _ hb => by cases hb)
  rwa [show emittedAfter dealt0.1.replace (.call (some 2))
    ((ChoiceOp.call (some 2) : ChoiceOp ℚ).run dealt0).1 [] = ['a', 'b'] by decide +kernel] at h

theorem dealt3_run : ChoiceRun demoRng ['a', 'a', 'b'] dealt3 ['a', 'b', 'a'] := by
  have h := ChoiceRun.op _ _ (.call none) dealt2_run (fun _ _ _ hb => by cases hb)
  rwa [show emittedAfter dealt2.1.replace (.call none)
    ((ChoiceOp.call none : ChoiceOp ℚ).run dealt2).1 ['a', 'b'] = ['a', 'b', 'a'] by
      decide +kernel] at h

/-- `Choice('abc', weights=[1, 0, 3], rng_seed=3)`. -/
def weighted0 : ChoiceSt Char demoRng × Nat :=
  builtState (Choice.init ['a', 'b', 'c'] (some [1, 0, 3]) true false (some 3) none 0)

theorem weighted0_reach : ChoiceReach demoRng ['a', 'b', 'c'] weighted0 :=
  .init (some [1, 0, 3]) true false (some 3) none 0 _ _ (builtState_eq _ (by decide +kernel))

/-- `Choice('abc', weights=w, replace_only_after_call=True, rng_seed=3)`. -/
def roac0 (w : Option (List ℚ)) : ChoiceSt Char demoRng × Nat :=
  builtState (Choice.init ['a', 'b', 'c'] w false true (some 3) none 0)

theorem roac0_reach : ChoiceReach demoRng ['a', 'b', 'c'] (roac0 none) :=
  .init none false true (some 3) none 0 _ _ (builtState_eq _ (by decide +kernel))

theorem roac0_weighted_reach : ChoiceReach demoRng ['a', 'b', 'c'] (roac0 (some [1, 2, 4])) :=
  .init (some [1, 2, 4]) false true (some 3) none 0 _ _ (builtState_eq _ (by decide +kernel))

-- C09, C10
example : ∃ vs g, call (some 5) weighted0 = (.ok vs, ({ weighted0.1 with rng := g }, weighted0.2)) ∧
    vs.length = 5 ∧ ∀ v ∈ vs, v ∈ ['a', 'b', 'c'] :=
  C09_with_replacement weighted0_reach (by decide +kernel) (some 5)
    (fun h => absurd h (by decide +kernel)) (fun ws h => by
      rw [show weighted0.1.weights = some [1, 0, 3] by decide +kernel] at h; cases h; norm_num)
example : ∀ vs s', call (some 5) weighted0 = (.ok vs, s') →
    ∀ v ∈ vs, ∃ i, ['a', 'b', 'c'][i]? = some v ∧ 0 < ([1, 0, 3] : List ℚ).getD i 0 :=
  fun _ _ h => C10_positive_weight weighted0_reach (by decide +kernel) (some 5)
    (fun h => absurd h (by decide +kernel)) (by decide)
    (show weighted0.1.weights = some [1, 0, 3] by decide +kernel) (by norm_num) h

-- C12
example : ∃ p, p.Perm ['a', 'a', 'b'] ∧ ['a', 'b'] <+: p :=
  C12_prefix_of_permutation dealt2_run (by decide +kernel)
example : ['a', 'b'].count 'a' ≤ ['a', 'a', 'b'].count 'a' :=
  C12_count dealt2_run (by decide +kernel) 'a'
example : ['a', 'b', 'a'].Perm ['a', 'a', 'b'] :=
  C12_exhausted dealt3_run (by decide +kernel) (by decide)
example : ∃ vs s', (ChoiceOp.call none : ChoiceOp ℚ).run dealt2 = (.ok vs, s') ∧ vs.length = 1 ∧
    ChoiceRun demoRng ['a', 'a', 'b'] s' (['a', 'b'] ++ vs) :=
  C12_available dealt2_run (by decide +kernel) none (by decide)

-- C13
example : call (some 2) dealt2 = (.error .valueError, dealt2) :=
  C13_over_ask_partial dealt2_run (by decide +kernel) (some 2) (by decide) (by decide)
example : call (some 4) (roac0 none) = (.error .valueError, roac0 none) :=
  C13_over_ask_roac_partial roac0_reach (by decide +kernel) 4 (by decide) (by decide)

-- C14
example : ∃ vs s', call (some 3) (roac0 none) = (.ok vs, s') ∧ vs.Nodup := by
  obtain ⟨vs, s', h⟩ := C14_unweighted_succeeds roac0_reach (by decide +kernel) (some 3) (by decide)
    (by decide +kernel)
  exact ⟨vs, s', h, C14_nodup roac0_reach (by decide +kernel) (some 3) (by decide) (by decide) h⟩
example : ∃ vs s', call (some 2) (roac0 (some [1, 2, 4])) = (.ok vs, s') ∧
    DistinctPick ['a', 'b', 'c'] vs := by
  obtain ⟨vs, s', h⟩ := C14_weighted_succeeds_partial roac0_weighted_reach (by decide +kernel) (some 2)
    (by decide) (show (roac0 (some [1, 2, 4])).1.weights = some [1, 2, 4] by decide +kernel)
    (by simp) (fun _ us g h => by
      have e : (demoRng.rands 3 (roac0 (some [1, 2, 4])).1.rng).1 = .ok us := by
        change (demoRng.rands (['a', 'b', 'c'].length) _).1 = _; rw [h]
      have hz : ∀ vs, (demoRng.rands 3 (roac0 (some [1, 2, 4])).1.rng).1 = .ok vs →
          ∀ u ∈ vs, u ≠ 0 := by
        intro vs hv
        rw [show (demoRng.rands 3 (roac0 (some [1, 2, 4])).1.rng).1 =
          .ok [3 / 13, 10 / 13, 6 / 13] by decide +kernel] at hv
        cases hv; norm_num
      exact hz us e)
  exact ⟨vs, s', h,
    (C14_distinct roac0_weighted_reach (by decide +kernel) (some 2) (by decide) h).1⟩

-- C15: after `replace = False` on an emitter made with `replace_only_after_call`
example : ((ChoiceOp.setReplace false : ChoiceOp ℚ).run (roac0 none)).2.1.roac = false :=
  (C15_setters roac0_reach).1
example : (roac0 none).1.roac = true := by decide +kernel

-- C16
example : ((ChoiceOp.setWeights (some [5, 6, 7]) : ChoiceOp ℚ).run dealt2).2.1.weights =
      some [5, 6, 7] ∧
    (ChoiceOp.setWeights (some [5, 6]) : ChoiceOp ℚ).run dealt2 = (.error .valueError, dealt2) :=
  ⟨((C16_assignment dealt2_run.reach [5, 6, 7]).1 rfl).1,
    ((C16_assignment dealt2_run.reach [5, 6]).2 (by decide)).1⟩

-- C17: one 'a' is left of 'aab'
example : Choice.numUniqueItems dealt2 = (.ok 1, dealt2) ∧
    numUniqueValues dealt2 = (.ok 1, dealt2) ∧ emitsUniqueValues dealt2 = (.ok true, dealt2) :=
  C17_without_replacement_partial dealt2_run (by decide +kernel) ['a'] (by decide) (by decide)
-- three items, two values, not all different, before the first call
example : Choice.numUniqueItems dealt0 = (.ok 3, dealt0) ∧
    numUniqueValues dealt0 = (.ok 2, dealt0) ∧ emitsUniqueValues dealt0 = (.ok false, dealt0) :=
  C17_without_replacement_partial dealt0_run (by decide +kernel) ['a', 'a', 'b'] (by decide) (by decide)

-- C19: after a refused weight list the two remaining calls still work
example : ChoiceUsable ['a', 'a', 'b']
    ((ChoiceOp.setWeights (some [5, 6]) : ChoiceOp ℚ).run dealt2).2 ['a', 'b'] :=
  C19_usable_partial dealt2_run (.setWeights (some [5, 6])) (x := .valueError)
    (congrArg Prod.fst ((C16_assignment dealt2_run.reach [5, 6]).2 (by decide)).1)
    (by simp)

-- C11: `chance(1/3)` over the demo generator, whose draws from state 3 are 3/13, 10/13, …
example : ∃ st ent', chance (R := demoRng) (1 / 3) (some 3) 0 = (.ok st, ent') ∧
    ∀ (g : demoRng.G) (n : Option Nat), ∃ us g', demoRng.rands (wanted n) g = (.ok us, g') ∧
      us.length = wanted n ∧ (∀ u ∈ us, 0 ≤ u ∧ u < 1) ∧
      call (n.map Int.ofNat) ({ st with rng := g }, ent') =
        (.ok (us.map fun u => decide (u < 1 / 3)), ({ st with rng := g' }, ent')) :=
  C11_chance _ _ _

-- the float `total_seconds` of one microsecond
example : ∃ m e : Nat, 2 ^ 52 ≤ m ∧ m ≤ 2 ^ 53 ∧ totalSeconds 1 = (1 : Int).sign * (m * 2 ^ e : Nat) ∧
    2 * |1000000 * totalSeconds 1 - 1 * SEC| ≤ 1000000 * 2 ^ e ∧
    (2 * |1000000 * totalSeconds 1 - 1 * SEC| = 1000000 * 2 ^ e → m % 2 = 0) :=
  totalSeconds_nearest (by decide)

end Fauxdoc
