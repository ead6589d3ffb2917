import Verif.Model.MathTools
import Mathlib.Analysis.SpecialFunctions.Exponential
import Mathlib.Probability.Distributions.Gaussian.Real
/-
C23: shape of `poisson` and `gaussian`.
-/
namespace Fauxdoc

/-- **C23 (poisson, positive).** -/
theorem C23_poisson_pos (x : Nat) (mu : ℝ) (h : 0 < mu) : 0 < poisson x mu := by
  unfold poisson; positivity

theorem poisson_succ (x : Nat) (mu : ℝ) :
    poisson (x + 1) mu = poisson x mu * (mu / (x + 1)) := by
  unfold poisson
  rw [pow_succ, Nat.factorial_succ]
  push_cast
  field_simp

/-- **C23 (poisson, rising below the mean).** -/
theorem C23_poisson_rises (x : Nat) (mu : ℝ) (h : 0 < mu) (hx : (x : ℝ) + 1 < mu) :
    poisson x mu < poisson (x + 1) mu := by
  rw [poisson_succ]
  have hp := C23_poisson_pos x mu h
  have : 1 < mu / ((x : ℝ) + 1) := by rw [lt_div_iff₀ (by positivity)]; linarith
  nlinarith

/-- **C23 (poisson, falling above the mean).** -/
theorem C23_poisson_falls (x : Nat) (mu : ℝ) (h : 0 < mu) (hx : mu < (x : ℝ) + 1) :
    poisson (x + 1) mu < poisson x mu := by
  rw [poisson_succ]
  have hp := C23_poisson_pos x mu h
  have : mu / ((x : ℝ) + 1) < 1 := by rw [div_lt_one (by positivity)]; linarith
  nlinarith

/-- **C23 (poisson, mode).** The value at `floor(mu)` is the largest. -/
theorem C23_poisson_mode (x : Nat) (mu : ℝ) (h : 0 < mu) : poisson x mu ≤ poisson ⌊mu⌋₊ mu := by
  have hup : ∀ d : Nat, d ≤ ⌊mu⌋₊ → poisson (⌊mu⌋₊ - d) mu ≤ poisson ⌊mu⌋₊ mu := by
    intro d
    induction d with
    | zero => intro _; exact le_rfl
    | succ d ih =>
      intro hd
      refine le_trans ?_ (ih (by omega))
      have e : ⌊mu⌋₊ - d = (⌊mu⌋₊ - (d + 1)) + 1 := by omega
      rw [e, poisson_succ]
      have hp := C23_poisson_pos (⌊mu⌋₊ - (d + 1)) mu h
      have hle : (((⌊mu⌋₊ - (d + 1) : Nat) : ℝ) + 1) ≤ mu := by
        refine le_trans ?_ (Nat.floor_le h.le)
        exact_mod_cast (by omega : ⌊mu⌋₊ - (d + 1) + 1 ≤ ⌊mu⌋₊)
      have : 1 ≤ mu / (((⌊mu⌋₊ - (d + 1) : Nat) : ℝ) + 1) := by
        rw [le_div_iff₀ (by positivity)]; linarith
      nlinarith
  have hdown : ∀ d : Nat, poisson (⌊mu⌋₊ + d) mu ≤ poisson ⌊mu⌋₊ mu := by
    intro d
    induction d with
    | zero => exact le_rfl
    | succ d ih =>
      refine le_trans (le_of_lt ?_) ih
      rw [← add_assoc]
      apply C23_poisson_falls _ _ h
      have := Nat.lt_floor_add_one mu
      push_cast
      have : (0 : ℝ) ≤ d := by positivity
      linarith
  rcases le_total x ⌊mu⌋₊ with hx | hx
  · have := hup (⌊mu⌋₊ - x) (by omega)
    rwa [show ⌊mu⌋₊ - (⌊mu⌋₊ - x) = x by omega] at this
  · have := hdown (x - ⌊mu⌋₊)
    rwa [show ⌊mu⌋₊ + (x - ⌊mu⌋₊) = x by omega] at this

/-- **C23 (poisson, total).** The values over all `x` sum to one. -/
theorem C23_poisson_total (mu : ℝ) : HasSum (fun x => poisson x mu) 1 := by
  have h := (NormedSpace.expSeries_div_hasSum_exp (𝔸 := ℝ) mu).mul_left (Real.exp (-1 * mu))
  rw [← Real.exp_eq_exp_ℝ, ← Real.exp_add] at h
  simp only [neg_mul, one_mul, neg_add_cancel, Real.exp_zero] at h
  have e : (fun x => poisson x mu) = fun i => Real.exp (-mu) * (mu ^ i / (i.factorial : ℝ)) := by
    funext x
    unfold poisson
    rw [neg_one_mul]
    ring
  rw [e]
  exact h

/-- **C23 (gaussian, positive).** -/
theorem C23_gaussian_pos (x mu sigma : ℝ) (h : 0 < sigma) : 0 < gaussian x mu sigma := by
  unfold gaussian
  have := Real.pi_pos
  positivity

/-- **C23 (gaussian, symmetric).** -/
theorem C23_gaussian_symm (d mu sigma : ℝ) :
    gaussian (mu + d) mu sigma = gaussian (mu - d) mu sigma := by
  unfold gaussian
  congr 2
  ring

/-- **C23 (gaussian, decreasing away from the mean).** -/
theorem C23_gaussian_mono (x y mu sigma : ℝ) (h : 0 < sigma) (hxy : |x - mu| < |y - mu|) :
    gaussian y mu sigma < gaussian x mu sigma := by
  unfold gaussian
  have hpi := Real.pi_pos
  have hc : 0 < 1 / (Real.sqrt (2 * Real.pi) * sigma) := by positivity
  refine mul_lt_mul_of_pos_right (Real.exp_lt_exp.2 ?_) hc
  have h1 : (x - mu) ^ 2 < (y - mu) ^ 2 := sq_lt_sq.2 hxy
  have h2 : ((x - mu) / sigma) ^ 2 < ((y - mu) / sigma) ^ 2 := by
    rw [div_pow, div_pow]
    exact div_lt_div_of_pos_right h1 (by positivity)
  linarith

/-- **C23 (gaussian, maximal at the mean).** -/
theorem C23_gaussian_max (x mu sigma : ℝ) (h : 0 < sigma) :
    gaussian x mu sigma ≤ gaussian mu mu sigma := by
  by_cases hx : x = mu
  · rw [hx]
  · refine (C23_gaussian_mono mu x mu sigma h ?_).le
    simpa [sub_eq_zero] using hx

/-- **C23 (gaussian, density).** It is the normal density, so it integrates to one. -/
theorem C23_gaussian_total (mu sigma : ℝ) (h : 0 < sigma) :
    ∫ x, gaussian x mu sigma = 1 := by
  have hv : (⟨sigma ^ 2, by positivity⟩ : NNReal) ≠ 0 := by
    intro hc
    have : sigma ^ 2 = 0 := congrArg NNReal.toReal hc
    exact h.ne' (pow_eq_zero_iff (by norm_num) |>.1 this)
  rw [← ProbabilityTheory.integral_gaussianPDFReal_eq_one mu hv]
  congr 1
  funext x
  unfold gaussian ProbabilityTheory.gaussianPDFReal
  rw [mul_comm]
  congr 1
  · rw [one_div]
    congr 1
    change _ = Real.sqrt (2 * Real.pi * sigma ^ 2)
    rw [Real.sqrt_mul (x := 2 * Real.pi) (by have := Real.pi_pos; positivity) (sigma ^ 2),
      Real.sqrt_sq h.le]
  · congr 1
    change _ = -(x - mu) ^ 2 / (2 * sigma ^ 2)
    field_simp

example : poisson 1 1 = Real.exp (-1) := by simp [poisson]

end Fauxdoc
