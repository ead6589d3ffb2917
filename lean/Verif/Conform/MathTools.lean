import Verif.Conform.Basic
import Verif.Model.MathTools
/-
The tests of `/repo/tests/test_mathtools.py` of `clamp` and `weighted_shuffle`, run on the model.
Made by `tools/conform_dtrange.py` from the text of the tests. Left out: `poisson` and `gaussian`,
which the model has over the reals, and error messages.
-/
namespace Fauxdoc
namespace Conform

/-- Whether the next shuffles give these positions. -/
def shufflesFrom (nitems : Nat) (ws : List ℚ) (k : Option Int) : List (List Nat) → Twister.G → Bool
  | [], _ => true
  | l :: ls, g =>
    match weightedShuffle pyRng nitems ws k g with
    | (.ok l', g') => decide (l' = l) && shufflesFrom nitems ws k ls g'
    | (.error _, _) => false

def shuffles (nitems : Nat) (ws : List ℚ) (seed : Int) (k : Option Int) (l : List (List Nat)) :
    Bool :=
  shufflesFrom nitems ws k l (Twister.ofSeed seed)

/-! `test_clamp`, line 66 -/
example : clamp (35 : ℚ) (some 50) (some 100) = 50 := by decide +kernel
example : clamp (35 : ℚ) (some 1) (some 100) = 35 := by decide +kernel
example : clamp (35 : ℚ) (some 1) (some 20) = 20 := by decide +kernel
example : clamp (35 : ℚ) none (some 20) = 20 := by decide +kernel
example : clamp (35 : ℚ) (some 20) none = 35 := by decide +kernel
example : clamp (35 : ℚ) (some 50) none = 50 := by decide +kernel
example : clamp (35 : ℚ) none none = 35 := by decide +kernel
/-! `test_weighted_shuffle`, line 97 -/
example : shuffles 6 (List.replicate 1 10 ++ List.replicate 4 5 ++ List.replicate 1 1) 999 none
    [[0, 2, 3, 4, 1, 5], [5, 0, 3, 2, 1, 4], [3, 2, 5, 0, 1, 4], [0, 2, 1, 3, 4, 5], [0, 3, 5,
    1, 2, 4], [1, 4, 0, 3, 2, 5], [0, 2, 1, 5, 3, 4], [1, 3, 0, 5, 2, 4], [2, 0, 3, 4, 1, 5],
    [0, 2, 3, 4, 1, 5]] = true := by decide +kernel
example : shuffles 100 (List.replicate 25 20 ++ List.replicate 25 10 ++ List.replicate 25 5 ++
    List.replicate 25 1) 999 (some 6) [[45, 3, 57, 26, 22, 5], [46, 14, 52, 4, 94, 8], [11, 26,
    38, 58, 86, 9], [31, 3, 1, 9, 74, 22], [8, 35, 7, 59, 24, 66], [20, 37, 42, 5, 33, 44], [10,
    5, 51, 46, 12, 23], [1, 44, 20, 4, 64, 24], [7, 10, 46, 9, 23, 12], [11, 28, 54, 60, 95, 1]]
    = true := by decide +kernel
example : shuffles 2 (List.replicate 1 75 ++ List.replicate 1 25) 999 (some 1) [[0], [0], [0],
    [0], [0], [1], [0], [0], [1], [0], [0], [0], [0], [1], [1], [1], [0], [0], [0], [0], [1],
    [1], [0], [1], [0], [0], [0], [0], [0], [0], [0], [0], [0], [1], [0], [0], [0], [1], [1],
    [0], [0], [1], [1], [1], [0], [1], [0], [0], [0], [1]] = true := by decide +kernel
example : shuffles 10 (List.replicate 1 71 ++ List.replicate 1 21 ++ List.replicate 8 1) 999
    (some 2) [[1, 0], [1, 0], [0, 4], [0, 1], [1, 0], [9, 0], [0, 1], [0, 1], [8, 0], [0, 1],
    [0, 6], [0, 1], [0, 1], [0, 2], [0, 2], [0, 1], [1, 0], [0, 1], [0, 1], [0, 1], [1, 0], [0,
    1], [0, 1], [1, 0], [0, 1], [0, 1], [1, 9], [0, 3], [0, 1], [8, 0], [0, 3], [0, 7], [0, 3],
    [2, 0], [0, 4], [0, 1], [1, 0], [0, 9], [0, 1], [0, 9], [1, 0], [6, 0], [0, 1], [1, 0], [0,
    1], [0, 1], [0, 1], [1, 2], [1, 0], [1, 0]] = true := by decide +kernel
example : shuffles 2 (List.replicate 1 25 ++ List.replicate 1 75) 999 (some 1) [[0], [0], [1],
    [0], [1], [1], [1], [1], [1], [0]] = true := by decide +kernel
/-! `test_weighted_shuffle_raises_error_mismatched_weights`, line 108 -/
example : fails (weightedShuffle pyRng 3 [] none (Twister.ofSeed 0)).1 .valueError = true := by
    decide +kernel
example : fails (weightedShuffle pyRng 3 [10, 5] none (Twister.ofSeed 0)).1 .valueError = true
    := by decide +kernel
example : fails (weightedShuffle pyRng 3 [10, 5, 5, 5] none (Twister.ofSeed 0)).1 .valueError =
    true := by decide +kernel

end Conform
end Fauxdoc
