import Verif.Conform.Basic
/-
The tests of `/repo/tests/test_emitters_choice.py`, run on the model. Made by
`tools/conform_choice.py` from the text of the tests.

Left out: `test_choice_items_is_readonly`, `test_choice_emitsuniquevalues_is_readonly`, `test_choice_numuniquevalues_is_readonly`, `test_choice_numuniqueitems_is_readonly`, `test_choice_weights_is_immutable`, `test_choice_cumweights_is_immutable`, `test_choice_change_noun`, `test_choice_dates`, `test_choice_times`, `test_choice_datetimes`, `test_poisson_choice`, `test_gaussian_choice`
(attributes without setters, tuples, error messages, and those in `Conform/ChoiceRange`).
-/
namespace Fauxdoc
namespace Conform

/-- `chance(p, rng_seed=seed)`, then `assert em(n) == l`. -/
def chanceOf (p : ℚ) (seed : Int) (l : List Bool) : Bool :=
  match chance (R := pyRng) p (some seed) 0 with
  | (.ok s, e) => check [.gives l] (s, e)
  | (.error _, _) => false

/-! `test_choice`, line 63 -/
example : choice ([0, 1] : List Nat) none none true false (some 999) [.gives [1, 0, 1, 1, 0, 0,
    1, 0, 1, 1]] = true := by decide +kernel
example : choice ([0, 1] : List Nat) none none true false (some 999) [.ones [0, 1, 1, 0, 1, 0,
    0, 0, 1, 0]] = true := by decide +kernel
example : choice ([1] : List Nat) none none true false (some 999) [.gives [1, 1, 1, 1, 1, 1, 1,
    1, 1, 1]] = true := by decide +kernel
example : choice ([1] : List Nat) none none true false (some 999) [.ones [1, 1, 1, 1, 1, 1, 1,
    1, 1, 1]] = true := by decide +kernel
example : choice ([5] : List Nat) none none true false (some 999) [.gives [5, 5, 5, 5, 5, 5, 5,
    5, 5, 5]] = true := by decide +kernel
example : choice ([1, 2, 3, 4, 5, 6, 7, 8, 9, 10] : List Nat) none none true false (some 999)
    [.gives [8, 1, 9, 6, 5, 2, 8, 4, 8, 9]] = true := by decide +kernel
example : choice (['a', 'b', 'c', 'd', 'e'] : List Char) none none true false (some 999) [.gives
    ['d', 'a', 'e', 'c', 'c', 'a', 'd', 'b', 'd', 'e']] = true := by decide +kernel
example : choice (['H', 'T'] : List Char) (some [80, 20]) none true false (some 999) [.gives
    ['H', 'H', 'T', 'H', 'H', 'H', 'H', 'H', 'H', 'T']] = true := by decide +kernel
example : choice (['H', 'T'] : List Char) none (some [80, 100]) true false (some 999) [.gives
    ['H', 'H', 'T', 'H', 'H', 'H', 'H', 'H', 'H', 'T']] = true := by decide +kernel
example : choice (['H', 'T'] : List Char) (some [80, 20]) none true false (some 999) [.ones
    ['H', 'H', 'T', 'H', 'H', 'H', 'H', 'H', 'H', 'T']] = true := by decide +kernel
example : choice (['H', 'T'] : List Char) (some [20, 80]) none true false (some 999) [.gives
    ['T', 'H', 'T', 'T', 'T', 'H', 'T', 'T', 'T', 'T']] = true := by decide +kernel
example : choice (['H', 'T'] : List Char) none (some [20, 100]) true false (some 999) [.gives
    ['T', 'H', 'T', 'T', 'T', 'H', 'T', 'T', 'T', 'T']] = true := by decide +kernel
example : choice (['T', 'T', 'H', 'H', 'H', 'H', 'H', 'H', 'H', 'H'] : List Char) none none true
    true (some 999) [.gives ['T', 'H', 'H', 'H', 'H', 'H', 'T', 'H', 'H', 'H']] = true := by
    decide +kernel
example : choice (['H', 'H', 'H', 'H', 'T'] : List Char) none none true true (some 999) [.ones
    ['H', 'T', 'T', 'T', 'H', 'H', 'H', 'H', 'H', 'H']] = true := by decide +kernel
example : choice (['H', 'T'] : List Char) (some [80, 20]) none true true (some 999) [.ones ['H',
    'H', 'T', 'H', 'H', 'H', 'H', 'H', 'H', 'T']] = true := by decide +kernel
example : choice (['H', 'T'] : List Char) (some [20, 80]) none true true (some 999) [.ones ['T',
    'H', 'T', 'T', 'T', 'H', 'T', 'T', 'T', 'T']] = true := by decide +kernel
example : choice ([0, 1, 2, 3, 4] : List Nat) (some [70, 20, 7, 2, 1]) none true true (some 999)
    [.gives [0, 2, 1], .gives [1, 0, 3], .gives [1, 0, 2], .gives [0, 3, 2], .gives [0, 4, 1],
    .gives [0, 2, 1], .gives [1, 0, 2], .gives [1, 0, 2], .gives [1, 0, 3], .gives [0, 2, 1]] =
    true := by decide +kernel
example : choice ([0, 1, 2, 3, 4] : List Nat) (some [70, 20, 7, 2, 1]) none true false (some
    999) [.gives [1, 0, 1], .gives [0, 0, 0], .gives [1, 0, 1], .gives [1, 0, 4], .gives [0, 0,
    0], .gives [1, 0, 1], .gives [3, 0, 0], .gives [0, 0, 0], .gives [2, 0, 0], .gives [0, 0,
    1]] = true := by decide +kernel
example : choice (List.range 25) none none false false (some 999) [.gives [11, 18, 24, 17, 2],
    .gives [9, 6, 8, 0, 15], .gives [20, 3, 14, 4, 7], .gives [13, 16, 19, 23, 12], .gives [5,
    10, 1, 21, 22]] = true := by decide +kernel
example : choice (List.range 25) none none false false (some 999) [.ones [11, 18, 24, 17, 2, 9,
    6, 8, 0, 15, 20, 3, 14, 4, 7, 13, 16, 19, 23, 12, 5, 10, 1, 21, 22]] = true := by
    decide +kernel
example : choice (List.range 25) (some (List.replicate 5 50 ++ List.replicate 5 10 ++
    List.replicate 15 1)) none false false (some 9999) [.gives [0, 3, 7, 12, 4], .gives [6, 1,
    2, 9, 8], .gives [22, 14, 5, 18, 11], .gives [20, 24, 13, 23, 16], .gives [21, 17, 19, 15,
    10]] = true := by decide +kernel
example : choice (List.range 25) (some (List.replicate 5 50 ++ List.replicate 5 10 ++
    List.replicate 15 1)) none false false (some 9999) [.ones [0, 3, 7, 12, 4, 6, 1, 2, 9, 8,
    22, 14, 5, 18, 11, 20, 24, 13, 23, 16, 21, 17, 19, 15, 10]] = true := by decide +kernel
/-! `test_choice_uniqueness_properties`, line 87 -/
example : choice ([0, 1, 2, 3, 4] : List Nat) none none true false none [.values 5, .items 5,
    .unique false, .run (.call (some 10)), .values 5, .items 5, .unique false, .run .reset,
    .values 5, .items 5, .unique false] = true := by decide +kernel
example : choice ([0, 1, 2, 3, 4] : List Nat) none none true true none [.values 5, .items 5,
    .unique false, .run (.call (some 5)), .values 5, .items 5, .unique false, .run .reset,
    .values 5, .items 5, .unique false] = true := by decide +kernel
example : choice ([0, 1, 2, 3, 4] : List Nat) none none false false none [.values 5, .items 5,
    .unique true, .run (.call (some 3)), .values 2, .items 2, .unique true, .run .reset, .values
    5, .items 5, .unique true] = true := by decide +kernel
example : choice ([0, 1, 2, 3, 4] : List Nat) none none false false none [.values 5, .items 5,
    .unique true, .run (.call (some 5)), .values 0, .items 0, .unique true, .run .reset, .values
    5, .items 5, .unique true] = true := by decide +kernel
example : choice ([0, 1, 0, 2, 2] : List Nat) none none false false (some 999) [.values 3,
    .items 5, .unique false, .run (.call (some 3)), .values 2, .items 2, .unique true, .run
    .reset, .values 3, .items 5, .unique false] = true := by decide +kernel
example : choice ([0, 1, 0, 2, 2] : List Nat) none none true false (some 999) [.values 3, .items
    5, .unique false, .run (.call (some 10)), .values 3, .items 5, .unique false, .run .reset,
    .values 3, .items 5, .unique false] = true := by decide +kernel
/-! `test_choice_not_enough_unique_values`, line 117 -/
example : choice ([0, 1, 2, 3, 4, 5, 6, 7, 8] : List Nat) none none true true none [.raises
    (.call (some 10)) .valueError] = true := by decide +kernel
example : choice ([0, 1, 2, 3, 4, 5, 6, 7, 8] : List Nat) none none false false none [.raises
    (.call (some 10)) .valueError] = true := by decide +kernel
example : choice ([0, 1, 2, 3, 4, 5, 6, 7, 8] : List Nat) none none false false none [.run
    (.call none), .run (.call none), .run (.call none), .run (.call none), .run (.call none),
    .run (.call none), .run (.call none), .run (.call none), .run (.call none), .raises (.call
    none) .valueError] = true := by decide +kernel
example : choice ([0, 1, 2, 3, 4, 5, 6, 7, 8] : List Nat) none none false false none [.run
    (.call (some 3)), .run (.call (some 3)), .run (.call (some 3)), .raises (.call (some 3))
    .valueError] = true := by decide +kernel
example : choice (List.range 10) none none false false none [.run (.call (some 3)), .run (.call
    (some 3)), .run (.call (some 3)), .raises (.call (some 3)) .valueError] = true := by
    decide +kernel
/-! `test_choice_reset_reshuffles_when_no_replacement`, line 126 -/
example : choice ([0, 1, 2, 3] : List Nat) (some [97, 1, 1, 1]) none false false (some 999)
    [.gives [0, 2, 3, 1], .run .reset, .values 4, .items 4, .gives [0, 2, 3, 1]] = true := by
    decide +kernel
/-! `test_choice_seed_reseeds_and_reshuffles_when_no_replacement`, line 135 -/
example : choice ([0, 1, 2, 3] : List Nat) (some [97, 1, 1, 1]) none false false (some 999)
    [.seed 999, .gives [0, 2, 3, 1], .run (.seed (some 9999)), .seed 9999, .values 4, .items 4,
    .gives [0, 3, 1, 2]] = true := by decide +kernel
/-! `test_choice_setting_rngseed_does_not_reshuffle_when_no_replacement`, line 146 -/
example : choice ([0, 1, 2, 3] : List Nat) (some [97, 1, 1, 1]) none false false (some 999)
    [.gives [0, 2], .run (.setRngSeed (some 9999)), .values 2, .items 2, .gives [3, 1]] = true
    := by decide +kernel
/-! `test_choice_setting_rng_does_not_reshuffle_when_no_replacement`, line 155 -/
example : choice ([0, 1, 2, 3] : List Nat) (some [97, 1, 1, 1]) none false false (some 999)
    [.gives [0, 2], .rng 9999, .values 2, .items 2, .gives [3, 1]] = true := by decide +kernel
/-! `test_choice_setting_rngseed_does_not_change_output_until_reset`, line 164 -/
example : choice ([0, 1, 2, 3] : List Nat) none none true false (some 999) [.gives [3, 0, 3, 2,
    1, 0, 3, 1, 3, 3], .run .reset, .run (.setRngSeed (some 9999)), .gives [3, 0, 3, 2, 1, 0, 3,
    1, 3, 3], .run .reset, .gives [3, 0, 0, 3, 1, 0, 3, 3, 1, 2]] = true := by decide +kernel
/-! `test_choice_setting_rng_immediately_changes_output`, line 174 -/
example : choice ([0, 1, 2, 3] : List Nat) none none true false (some 999) [.gives [3, 0, 3, 2,
    1, 0, 3, 1, 3, 3], .run .reset, .rng 9999, .gives [3, 0, 0, 3, 1, 0, 3, 3, 1, 2]] = true :=
    by decide +kernel
/-! `test_choice_setting_weights_sets_cumweights`, line 224 -/
example : choice ([0, 1, 2, 3] : List Nat) none none true false none [.run (.setWeights (some
    [97, 1, 1, 1])), .cumWeights (some [97, 98, 99, 100])] = true := by decide +kernel
/-! `test_choice_setting_cumweights_sets_weights`, line 230 -/
example : choice ([0, 1, 2, 3] : List Nat) none none true false none [.run (.setCumWeights (some
    [97, 98, 99, 100])), .weights (some [97, 1, 1, 1])] = true := by decide +kernel
/-! `test_choice_removing_weights_removes_cumweights`, line 236 -/
example : choice ([0, 1, 2, 3] : List Nat) (some [97, 1, 1, 1]) none true false none [.run
    (.setWeights none), .cumWeights none] = true := by decide +kernel
/-! `test_choice_removing_cumweights_removes_weights`, line 242 -/
example : choice ([0, 1, 2, 3] : List Nat) (some [97, 1, 1, 1]) none true false none [.run
    (.setCumWeights none), .weights none] = true := by decide +kernel
/-! `test_choice_remove_weights_with_replacement`, line 248 -/
example : choice ([0, 1, 2, 3] : List Nat) (some [97, 1, 1, 1]) none true false (some 999) [.run
    (.call (some 2)), .run (.setWeights none), .values 4, .items 4, .unique false, .gives [3, 2,
    1, 0, 3, 1, 3, 3, 0, 3], .values 4, .items 4] = true := by decide +kernel
/-! `test_choice_remove_weights_no_replacement`, line 260 -/
example : choice ([0, 1, 2, 3] : List Nat) (some [97, 1, 1, 1]) none false false (some 999)
    [.run (.call (some 2)), .run (.setWeights none), .values 4, .items 4, .unique true, .gives
    [2, 0, 3, 1], .values 0, .items 0] = true := by decide +kernel
/-! `test_choice_remove_weights_only_replace_after_call`, line 272 -/
example : choice ([0, 1, 2, 3] : List Nat) (some [97, 1, 1, 1]) none true true (some 999) [.run
    (.call (some 2)), .run (.setWeights none), .values 4, .items 4, .unique false, .gives [3, 1,
    0, 2], .gives [0, 2, 3, 1], .gives [2, 3, 0, 1], .gives [3, 0, 1, 2], .gives [2, 0, 3, 1],
    .values 4, .items 4] = true := by decide +kernel
/-! `test_choice_add_weights_with_replacement`, line 289 -/
example : choice ([0, 1, 2, 3] : List Nat) none none true false (some 999) [.run (.call (some
    2)), .run (.setWeights (some [97, 1, 1, 1])), .values 4, .items 4, .unique false, .gives [0,
    0, 0, 0, 0, 0, 0, 0, 0, 3], .values 4, .items 4] = true := by decide +kernel
/-! `test_choice_add_weights_no_replacement`, line 301 -/
example : choice ([0, 1, 2, 3] : List Nat) none none false false (some 999) [.run (.call (some
    2)), .run (.setWeights (some [97, 1, 1, 1])), .values 4, .items 4, .unique true, .gives [0,
    2, 3, 1], .values 0, .items 0] = true := by decide +kernel
/-! `test_choice_add_weights_only_replace_after_call`, line 313 -/
example : choice ([0, 1, 2, 3] : List Nat) none none true true (some 999) [.run (.call (some
    2)), .run (.setWeights (some [97, 1, 1, 1])), .values 4, .items 4, .unique false, .gives [0,
    3, 1, 2], .gives [0, 2, 1, 3], .gives [0, 3, 2, 1], .gives [0, 3, 2, 1], .gives [0, 1, 2,
    3], .values 4, .items 4] = true := by decide +kernel
/-! `test_choice_change_weights_with_replacement`, line 329 -/
example : choice ([0, 1, 2, 3] : List Nat) (some [97, 1, 1, 1]) none true false (some 999) [.run
    (.call (some 2)), .run (.setWeights (some [1, 1, 1, 97])), .values 4, .items 4, .unique
    false, .gives [3, 3, 3, 3, 3, 3, 3, 3, 3, 3], .values 4, .items 4] = true := by
    decide +kernel
/-! `test_choice_change_weights_no_replacement`, line 341 -/
example : choice ([0, 1, 2, 3] : List Nat) (some [97, 1, 1, 1]) none false false (some 999)
    [.run (.call (some 2)), .run (.setWeights (some [1, 1, 1, 97])), .values 4, .items 4,
    .unique true, .gives [3, 2, 0, 1], .values 0, .items 0] = true := by decide +kernel
/-! `test_choice_change_weights_only_replace_after_call`, line 353 -/
example : choice ([0, 1, 2, 3] : List Nat) (some [97, 1, 1, 1]) none true true (some 999) [.run
    (.call (some 2)), .run (.setWeights (some [1, 1, 1, 97])), .values 4, .items 4, .unique
    false, .gives [3, 2, 0, 1], .gives [3, 1, 0, 2], .gives [3, 2, 1, 0], .gives [2, 3, 1, 0],
    .gives [3, 0, 1, 2], .values 4, .items 4] = true := by decide +kernel
/-! `test_choice_change_replacement__replace_to_replace_only_after_call`, line 370 -/
example : choice ([0, 1, 2, 3] : List Nat) (some [97, 1, 1, 1]) none true false (some 999) [.run
    (.call (some 10)), .run (.setRoac true), .values 4, .items 4, .unique false, .gives [1, 0,
    3, 2], .gives [0, 3, 1, 2], .gives [0, 2, 1, 3], .gives [2, 0, 3, 1], .gives [0, 3, 1, 2],
    .values 4, .items 4, .raises (.call (some 5)) .valueError] = true := by decide +kernel
/-! `test_choice_change_replacement__replace_to_none`, line 388 -/
example : choice ([0, 1, 2, 3] : List Nat) (some [97, 1, 1, 1]) none true false (some 999) [.run
    (.call (some 10)), .run (.setReplace false), .values 4, .items 4, .unique true, .gives [1,
    0, 3, 2], .values 0, .items 0, .raises (.call none) .valueError] = true := by decide +kernel
/-! `test_choice_change_replacement__replace_only_after_call_to_replace`, line 402 -/
example : choice ([0, 1, 2, 3] : List Nat) (some [97, 1, 1, 1]) none true true (some 999) [.run
    (.call (some 4)), .run (.setRoac false), .values 4, .items 4, .unique false, .gives [0, 0,
    0, 0, 0, 0, 0, 3, 0, 0]] = true := by decide +kernel
/-! `test_choice_change_replacement__replace_only_after_call_to_none`, line 413 -/
example : choice ([0, 1, 2, 3] : List Nat) (some [97, 1, 1, 1]) none true true (some 999) [.run
    (.call (some 4)), .run (.setReplace false), .roac false, .values 4, .items 4, .unique true,
    .gives [0, 2, 3, 1], .values 0, .items 0, .raises (.call none) .valueError] = true := by
    decide +kernel
/-! `test_choice_change_replacement__none_to_replace`, line 429 -/
example : choice ([0, 1, 2, 3] : List Nat) (some [97, 1, 1, 1]) none false false (some 999)
    [.run (.call (some 2)), .run (.setReplace true), .values 4, .items 4, .unique false, .gives
    [0, 0, 0, 0, 0, 0, 0, 3, 0, 0], .values 4, .items 4] = true := by decide +kernel
/-! `test_choice_change_replacement__none_to_replace_only_after_call`, line 441 -/
example : choice ([0, 1, 2, 3] : List Nat) (some [97, 1, 1, 1]) none false false (some 999)
    [.run (.call (some 2)), .run (.setRoac true), .replace true, .values 4, .items 4, .unique
    false, .gives [0, 2, 3, 1], .gives [0, 3, 1, 2], .gives [0, 3, 2, 1], .gives [0, 2, 1, 3],
    .gives [0, 3, 1, 2], .values 4, .items 4, .raises (.call (some 5)) .valueError] = true := by
    decide +kernel
/-! `test_choice_cannot_init_empty_items`, line 461 -/
example : noChoice ([] : List Nat) none none .valueError = true := by decide +kernel
/-! `test_choice_cannot_init_weights_and_cumweights`, line 466 -/
example : noChoice ["abc"] (some [10, 50, 40]) (some [10, 60, 100]) .typeError = true := by
    decide +kernel
/-! `test_choice_incorrect_weights`, line 478 -/
example : noChoice ([0, 1, 2, 3] : List Nat) (some [40, 50]) none .valueError = true := by
    decide +kernel
example : noChoice ([0, 1, 2, 3] : List Nat) none (some [40, 50]) .valueError = true := by
    decide +kernel
example : noChoice ([0, 1] : List Nat) (some [50, 10, 2]) none .valueError = true := by
    decide +kernel
example : noChoice ([0, 1] : List Nat) none (some [50, 10, 2]) .valueError = true := by
    decide +kernel
/-! `test_choice_change_weights_to_incorrect_weights`, line 502 -/
example : choice ([0, 1, 2, 3] : List Nat) (some [10, 10, 10, 10]) none true false none [.raises
    (.setWeights (some [40, 50])) .valueError] = true := by decide +kernel
example : choice ([0, 1, 2, 3] : List Nat) none (some [10, 10, 10, 10]) true false none [.raises
    (.setCumWeights (some [40, 50])) .valueError] = true := by decide +kernel
example : choice ([0, 1] : List Nat) (some [10, 10]) none true false none [.raises (.setWeights
    (some [50, 10, 2])) .valueError] = true := by decide +kernel
example : choice ([0, 1] : List Nat) none (some [10, 10]) true false none [.raises
    (.setCumWeights (some [50, 10, 2])) .valueError] = true := by decide +kernel
/-! `test_chance`, line 676 -/
example : chanceOf (-10) 999 [false, false, false, false, false, false, false, false, false,
    false] = true := by decide +kernel
example : chanceOf (0) 999 [false, false, false, false, false, false, false, false, false,
    false] = true := by decide +kernel
example : chanceOf (1 / 4) 999 [false, true, false, false, false, true, false, false, false,
    false] = true := by decide +kernel
example : chanceOf (91 / 200) 999 [false, true, false, false, false, true, false, true, false,
    false] = true := by decide +kernel
example : chanceOf (4 / 5) 999 [true, true, false, true, true, true, true, true, true, false] =
    true := by decide +kernel
example : chanceOf (1) 999 [true, true, true, true, true, true, true, true, true, true] = true
    := by decide +kernel
example : chanceOf (10000) 999 [true, true, true, true, true, true, true, true, true, true] =
    true := by decide +kernel

end Conform
end Fauxdoc
