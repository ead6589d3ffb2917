import Verif.Py.Random
import Mathlib.Tactic.Linarith
/-
A concrete, computable generator over the rationals: shows that the laws of `Rng` are satisfiable
and drives the examples and counterexamples.
-/
namespace Fauxdoc

/-- A generator that replays the stream `f`; the state is the position in the stream. -/
def streamRng (f : Nat → ℚ) (h0 : ∀ i, 0 ≤ f i) (h1 : ∀ i, f i < 1) : Rng ℚ where
  G := Nat
  ofSeed s := s.toNat
  ofEntropy i := i + 1000
  random g := (f g, g + 1)
  randbelow n g := (g % n, g + 1)
  sample n k g := ((List.range n).take k, g + 1)
  log x := x - 1
  random_nonneg := h0
  random_lt_one := h1
  randbelow_lt n g hn := Nat.mod_lt _ hn
  sample_length n k g h := by simp [h]
  sample_nodup n k g h := (List.take_sublist k _).nodup List.nodup_range
  sample_lt n k g h i hi := List.mem_range.1 (List.mem_of_mem_take hi)
  log_neg x _ h := by linarith

/-- Draws `((7g+3) mod 11 + 1) / 13`, never zero. -/
def demoRng : Rng ℚ := streamRng (fun g => (((7 * g + 3) % 11 + 1 : Nat) : ℚ) / 13)
  (fun _ => by positivity)
  (fun g => by
    rw [div_lt_one (by norm_num)]
    have : (7 * g + 3) % 11 + 1 < 13 := by omega
    exact_mod_cast this)

/-- A generator whose draws are all exactly `0.0`. -/
def zeroRng : Rng ℚ := streamRng (fun _ => 0) (fun _ => le_rfl) (fun _ => by norm_num)

end Fauxdoc
