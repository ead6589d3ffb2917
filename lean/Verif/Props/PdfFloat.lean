import Verif.Model.Pdf
import Verif.Props.Pdf
import Verif.Props.Choice3
import Verif.Props.Exact
import Verif.Proofs.Double
import Mathlib.Analysis.Complex.ExponentialBounds
/-
C23 and C24 in floating-point arithmetic: overflow, underflow and accuracy of `poisson` and
`gaussian`, and what that means for the factories.
-/
namespace Fauxdoc

set_option exponentiation.threshold 3000

section
variable {K : Type} [Field K] [LinearOrder K] [IsStrictOrderedRing K]

/-- The least number that is rounded beyond the largest double. -/
def overflowAt : K := 2 ^ 1024 - 2 ^ 970

theorem rnd_overflow_iff (F : Rounding K) (x : K) : 2 ^ 1024 ≤ F.rnd x ↔ overflowAt ≤ x := by
  have ht : F.rnd overflowAt = 2 ^ 1024 := by
    have := F.tie (2 ^ 53 - 1) 971 (by norm_num) (by norm_num) (by norm_num) (Or.inl (by norm_num))
    have e1 : (((2 ^ 53 - 1 : Int) : K) + 1 / 2) * 2 ^ (971 : Int) = overflowAt := by
      unfold overflowAt; norm_num
    rw [e1] at this
    rw [this]; norm_num
  constructor
  · intro h
    by_contra hc
    rw [not_le] at hc
    refine absurd h (not_le.2 (F.lt_of_nearer (p := ((2 ^ 53 - 1 : Int) : K) * 2 ^ (971 : Int))
      ⟨_, _, by norm_num, by norm_num, rfl⟩ ?_ (hc.trans_le (le_of_eq ?_))))
    · norm_num
    · unfold overflowAt; norm_num
  · intro h
    rw [← ht]; exact F.mono h

theorem rnd_abs (F : Rounding K) (x : K) : |F.rnd x| = F.rnd |x| := by
  rcases le_or_gt 0 x with h | h
  · rw [abs_of_nonneg h, abs_of_nonneg (F.nonneg h)]
  · rw [abs_of_neg h, F.rnd_neg, abs_of_nonpos]
    have := F.nonneg (neg_nonneg.2 h.le)
    rw [F.rnd_neg] at this
    linarith

/-- Exactly when a number can be converted to a float. -/
theorem toFloat_iff (F : Rounding K) (x : K) :
    toFloat F x = if |x| < overflowAt then .ok (F.rnd x) else .error .overflow := by
  unfold toFloat
  rw [rnd_abs, ]
  by_cases h : |x| < overflowAt
  · rw [if_pos h, if_neg fun hc => absurd ((rnd_overflow_iff F _).1 hc) (not_le.2 h)]
  · rw [if_neg h, if_pos ((rnd_overflow_iff F _).2 (not_lt.1 h))]
end

theorem factorial_170 : ((Nat.factorial 170 : Nat) : ℝ) < overflowAt := by
  have h : Nat.factorial 170 + 2 ^ 970 < 2 ^ 1024 := by decide +kernel
  have h2 : ((Nat.factorial 170 + 2 ^ 970 : Nat) : ℝ) < ((2 ^ 1024 : Nat) : ℝ) := by exact_mod_cast h
  unfold overflowAt
  push_cast at h2
  linarith

theorem factorial_171 : overflowAt ≤ ((Nat.factorial 171 : Nat) : ℝ) := by
  have h : 2 ^ 1024 ≤ Nat.factorial 171 := by decide +kernel
  have h2 : ((2 ^ 1024 : Nat) : ℝ) ≤ ((Nat.factorial 171 : Nat) : ℝ) := by exact_mod_cast h
  unfold overflowAt
  push_cast at h2 ⊢
  have : (0 : ℝ) < 2 ^ 970 := by positivity
  linarith

theorem factorial_float_iff (x : Nat) : |((x.factorial : Nat) : ℝ)| < overflowAt ↔ x ≤ 170 := by
  rw [abs_of_nonneg (Nat.cast_nonneg _)]
  constructor
  · intro h
    by_contra hc
    have h1 : Nat.factorial 171 ≤ x.factorial := Nat.factorial_le (by omega)
    have h2 : ((Nat.factorial 171 : Nat) : ℝ) ≤ ((x.factorial : Nat) : ℝ) := by exact_mod_cast h1
    linarith [factorial_171]
  · intro h
    have h1 : x.factorial ≤ Nat.factorial 170 := Nat.factorial_le h
    have h2 : ((x.factorial : Nat) : ℝ) ≤ ((Nat.factorial 170 : Nat) : ℝ) := by exact_mod_cast h1
    linarith [factorial_170]

theorem one_lt_overflowAt : (1 : ℝ) < overflowAt := by unfold overflowAt; norm_num

/-- The exponential of a negative number can always be converted. -/
theorem exp_float (F : Rounding ℝ) (mu : ℝ) (h : 0 ≤ mu) :
    toFloat F (Real.exp (F.rnd (-1 * mu))) = .ok (F.rnd (Real.exp (F.rnd (-1 * mu)))) := by
  have h1 : F.rnd (-1 * mu) ≤ 0 := F.le_of_le isDouble_zero (by linarith)
  have h2 : Real.exp (F.rnd (-1 * mu)) ≤ 1 := Real.exp_le_one_iff.2 h1
  rw [toFloat_iff, if_pos]
  rw [abs_of_pos (Real.exp_pos _)]
  linarith [one_lt_overflowAt]

/-- **C23 (when `poisson` raises).** For `mu >= 0`, `poisson(x, mu)` raises `OverflowError` if and
only if `x > 170` or `mu ** x` is too large for a float; otherwise it is this float. -/
theorem C23_overflow_iff (F : Rounding ℝ) (x : Nat) (mu : ℝ) (h : 0 ≤ mu) :
    poissonF F x mu = if x ≤ 170 ∧ mu ^ x < overflowAt then
      .ok (F.rnd (F.rnd (F.rnd (mu ^ x) * F.rnd (Real.exp (F.rnd (-1 * mu)))) /
        F.rnd (x.factorial : ℝ)))
    else .error .overflow := by
  unfold poissonF
  rw [exp_float F mu h, toFloat_iff F (mu ^ x), toFloat_iff F (x.factorial : ℝ),
    abs_of_nonneg (pow_nonneg h x)]
  by_cases h1 : mu ^ x < overflowAt
  · rw [if_pos h1]
    by_cases h2 : x ≤ 170
    · rw [if_pos ((factorial_float_iff x).2 h2)]
      simp only [h1, h2, and_self, if_true]; rfl
    · rw [if_neg (fun hc => h2 ((factorial_float_iff x).1 hc))]
      simp only [h2, false_and, if_false]; rfl
  · rw [if_neg h1]
    simp only [h1, and_false, if_false]; rfl

/-- **C23 is violated (large `x`).** `poisson(x, mu)` is no probability but an exception for every
`x` above 170. -/
theorem C23_large_violated (F : Rounding ℝ) (x : Nat) (mu : ℝ) (h : 0 ≤ mu) (hx : 170 < x) :
    poissonF F x mu = .error .overflow := by
  rw [C23_overflow_iff F x mu h, if_neg (by omega)]

/-- **C23 (floats, never negative).** -/
theorem C23_nonneg_partial (F : Rounding ℝ) (x : Nat) (mu v : ℝ) (h : 0 ≤ mu)
    (hv : poissonF F x mu = .ok v) : 0 ≤ v := by
  rw [C23_overflow_iff F x mu h] at hv
  split at hv
  · cases hv
    refine F.nonneg (div_nonneg (F.nonneg (mul_nonneg (F.nonneg (pow_nonneg h x))
      (F.nonneg (Real.exp_pos _).le))) (F.nonneg (Nat.cast_nonneg _)))
  · cases hv

theorem exp_tiny {a : ℝ} {n : Nat} (hn : 760 ≤ n) (ha : a ≤ -(n : ℝ)) :
    Real.exp a < 2 ^ (-1075 : Int) := by
  have h1 : Real.exp a ≤ Real.exp (-(760 : ℝ)) := by
    apply Real.exp_le_exp.2
    have : (760 : ℝ) ≤ n := by exact_mod_cast hn
    linarith
  refine h1.trans_lt ?_
  have h2 : (2.7182818283 : ℝ) ^ 760 < Real.exp 1 ^ 760 :=
    pow_lt_pow_left₀ Real.exp_one_gt_d9 (by norm_num) (by norm_num)
  have h3 : Real.exp (-(760 : ℝ)) = (Real.exp 1 ^ 760)⁻¹ := by
    rw [Real.exp_neg, ← Real.exp_nat_mul]; norm_num
  have h4 : (2 : ℝ) ^ 1075 < 2.7182818283 ^ 760 := by norm_num
  rw [h3, show (2 : ℝ) ^ (-1075 : Int) = (2 ^ 1075)⁻¹ by rw [zpow_neg]; norm_cast]
  exact inv_strictAnti₀ (by positivity) (h4.trans h2)

/-- **C23 is violated (underflow).** `poisson(x, mu)` is `0.0`, not positive, for every whole
`mu` from 760 to `2^53` where it does not raise. -/
theorem C23_underflow_violated (F : Rounding ℝ) (x mu : Nat) (h1 : 760 ≤ mu) (h2 : mu ≤ 2 ^ 53)
    (hx : x ≤ 170) (hp : (mu : ℝ) ^ x < overflowAt) : poissonF F x mu = .ok 0 := by
  rw [C23_overflow_iff F x mu (Nat.cast_nonneg _), if_pos ⟨hx, hp⟩]
  have hd : IsDouble (-1 * (mu : ℝ)) := by
    have := isDouble_int (K := ℝ) (-(mu : Int)) (by rw [abs_neg, abs_of_nonneg] <;> omega)
    push_cast at this
    rwa [neg_one_mul]
  rw [F.rnd_double hd, F.underflow (Real.exp_pos _).le
    (exp_tiny h1 (by rw [neg_one_mul])), mul_zero, F.rnd_zero, zero_div, F.rnd_zero]

/-- `poisson(5, 800)`. -/
example (F : Rounding ℝ) : poissonF F 5 800 = .ok 0 := by
  have := C23_underflow_violated F 5 800 (by norm_num) (by norm_num) (by norm_num)
    (by unfold overflowAt; norm_num)
  exact_mod_cast this

/-- `gaussian` at whole numbers with the default mean and deviation. -/
theorem gaussianF_standard (F : Rounding ℝ) (x : Nat) (hx : x ≤ 2 ^ 26) :
    gaussianF F x 0 1 = .ok (F.rnd (F.rnd (Real.exp (-((x : ℝ) ^ 2) / 2)) *
      F.rnd (1 / F.rnd (Real.sqrt (F.rnd (2 * F.rnd Real.pi)))))) := by
  have hxd : IsDouble (x : ℝ) := by
    have := isDouble_int (K := ℝ) (x : Int) (by rw [abs_of_nonneg] <;> omega)
    exact_mod_cast this
  have hsq : x ^ 2 ≤ 2 ^ 52 := by
    calc x ^ 2 ≤ (2 ^ 26) ^ 2 := Nat.pow_le_pow_left hx 2
      _ = 2 ^ 52 := by norm_num
  have hx2 : IsDouble ((x : ℝ) ^ 2) := by
    have := isDouble_int (K := ℝ) ((x ^ 2 : Nat) : Int) (by rw [abs_of_nonneg] <;> omega)
    exact_mod_cast this
  have hx3 : IsDouble (-((x : ℝ) ^ 2) / 2) := by
    refine ⟨-((x ^ 2 : Nat) : Int), -1, by rw [abs_neg, abs_of_nonneg] <;> omega, by norm_num, ?_⟩
    rw [zpow_neg, zpow_one]; push_cast; ring
  unfold gaussianF
  rw [if_neg one_ne_zero, sub_zero, F.rnd_double hxd, div_one, F.rnd_double hxd, toFloat_iff, if_pos]
  · change Except.ok _ = _
    rw [F.rnd_double hx2, show -1 * (x : ℝ) ^ 2 / 2 = -((x : ℝ) ^ 2) / 2 by ring, F.rnd_double hx3,
      mul_one, F.rnd_rnd]
  · rw [abs_of_nonneg (by positivity)]
    have h : ((x ^ 2 : Nat) : ℝ) ≤ ((2 ^ 52 : Nat) : ℝ) := by exact_mod_cast hsq
    push_cast at h
    have : (2 : ℝ) ^ 52 < overflowAt := by unfold overflowAt; norm_num
    linarith

/-- **C23 is violated (underflow of `gaussian`).** `gaussian(x)` is `0.0` from `x = 39` on. -/
theorem C23_gaussian_underflow_violated (F : Rounding ℝ) (x : Nat) (h1 : 39 ≤ x) (h2 : x ≤ 2 ^ 26) :
    gaussianF F x 0 1 = .ok 0 := by
  rw [gaussianF_standard F x h2]
  have h3 : (39 : ℝ) ≤ x := by exact_mod_cast h1
  rw [F.underflow (Real.exp_pos _).le (exp_tiny (n := 760) le_rfl ?_), zero_mul, F.rnd_zero]
  push_cast
  nlinarith

/-! ### Accuracy -/

/-- Two rounding errors, as factors. -/
theorem rnd_factor (F : Rounding ℝ) {x : ℝ} (h : 2 ^ (-1022 : Int) ≤ x) :
    (1 - 1 / 2 ^ 53) * x ≤ F.rnd x ∧ F.rnd x ≤ (1 + 1 / 2 ^ 53) * x := by
  have h0 : 0 < x := (two_zpow_pos _).trans_le h
  have := abs_le.1 (F.rel_error (x := x) (by rwa [abs_of_pos h0]))
  rw [abs_of_pos h0] at this
  constructor <;> linarith [this.1, this.2]

theorem exp_708 {mu : ℝ} (h : mu ≤ 708) : (2 : ℝ) ^ (-1022 : Int) ≤ Real.exp (-1 * mu) := by
  have h1 : Real.exp (-(708 : ℝ)) ≤ Real.exp (-1 * mu) := Real.exp_le_exp.2 (by linarith)
  refine le_trans ?_ h1
  have h2 : Real.exp 1 ^ 708 < (2.7182818286 : ℝ) ^ 708 :=
    pow_lt_pow_left₀ Real.exp_one_lt_d9 (Real.exp_pos _).le (by norm_num)
  have h3 : Real.exp (-(708 : ℝ)) = (Real.exp 1 ^ 708)⁻¹ := by
    rw [Real.exp_neg, ← Real.exp_nat_mul]; norm_num
  have h4 : (2.7182818286 : ℝ) ^ 708 < 2 ^ 1022 := by norm_num
  rw [h3, show (2 : ℝ) ^ (-1022 : Int) = (2 ^ 1022)⁻¹ by rw [zpow_neg]; norm_cast]
  exact inv_anti₀ (by positivity) (h2.trans h4).le

/-- **C23 (accuracy).** Where nothing overflows or underflows, the float that `poisson` returns is the
probability of the Poisson distribution to within a relative error of `2^-50`. -/
theorem C23_accuracy_partial (F : Rounding ℝ) (x : Nat) (mu : ℝ) (hd : IsDouble mu) (h0 : 0 ≤ mu)
    (h1 : mu ≤ 708) (hx : x ≤ 170) (hp : mu ^ x < overflowAt)
    (hP : 2 ^ (-1020 : Int) ≤ poisson x mu) :
    ∃ v, poissonF F x mu = .ok v ∧ |v - poisson x mu| ≤ poisson x mu / 2 ^ 50 := by
  rw [C23_overflow_iff F x mu h0, if_pos ⟨hx, hp⟩]
  refine ⟨_, rfl, ?_⟩
  have hneg : IsDouble (-1 * mu) := by rw [neg_one_mul]; exact hd.neg
  rw [F.rnd_double hneg]
  have hf1 : (1 : ℝ) ≤ x.factorial := by exact_mod_cast Nat.factorial_pos x
  have hE0 := Real.exp_pos (-1 * mu)
  have hE1 : Real.exp (-1 * mu) ≤ 1 := Real.exp_le_one_iff.2 (by linarith)
  have hP0 : 0 < poisson x mu := (two_zpow_pos _).trans_le hP
  have ePf : poisson x mu * x.factorial = mu ^ x * Real.exp (-1 * mu) := by
    unfold poisson; field_simp
  have hpE : poisson x mu ≤ mu ^ x * Real.exp (-1 * mu) := by
    rw [← ePf]; exact le_mul_of_one_le_right hP0.le hf1
  have hpE0 : 0 < mu ^ x * Real.exp (-1 * mu) := hP0.trans_le hpE
  have hp0 : 0 < mu ^ x := (mul_pos_iff_of_pos_right hE0).1 hpE0
  have hpp : poisson x mu ≤ mu ^ x := hpE.trans (mul_le_of_le_one_right hp0.le hE1)
  have c1 : (2 : ℝ) ^ (-1022 : Int) = 2 ^ (-1020 : Int) / 4 := by
    rw [show (-1022 : Int) = -1020 - 2 by norm_num, zpow_sub₀ (by norm_num)]; norm_num
  have cz := two_zpow_pos (K := ℝ) (-1020)
  generalize (2 : ℝ) ^ (-1020 : Int) = z at c1 cz hP
  have A := rnd_factor F (x := mu ^ x) (by rw [c1]; linarith)
  have B := rnd_factor F (exp_708 h1)
  have C := rnd_factor F (x := (x.factorial : ℝ)) (le_trans (zpow_le_one_of_nonpos₀ (by norm_num)
    (by norm_num)) hf1)
  generalize mu ^ x = p at *
  generalize Real.exp (-1 * mu) = E at *
  generalize (x.factorial : ℝ) = f at *
  generalize poisson x mu = P at *
  generalize hp' : F.rnd p = p' at *
  generalize hE' : F.rnd E = E' at *
  generalize hf' : F.rnd f = f' at *
  have hlo : (0 : ℝ) < 1 - 1 / 2 ^ 53 := by norm_num
  have hp'0 : 0 < p' := lt_of_lt_of_le (mul_pos hlo hp0) A.1
  have hE'0 : 0 < E' := lt_of_lt_of_le (mul_pos hlo hE0) B.1
  have hf0 : 0 < f := by linarith
  have hf'0 : 0 < f' := lt_of_lt_of_le (mul_pos hlo hf0) C.1
  -- the product
  have q1 : (1 - 1 / 2 ^ 53) ^ 2 * (p * E) ≤ p' * E' := by
    have := mul_le_mul A.1 B.1 (mul_pos hlo hE0).le hp'0.le
    calc (1 - 1 / 2 ^ 53 : ℝ) ^ 2 * (p * E) = (1 - 1 / 2 ^ 53) * p * ((1 - 1 / 2 ^ 53) * E) := by ring
      _ ≤ _ := this
  have q2 : p' * E' ≤ (1 + 1 / 2 ^ 53) ^ 2 * (p * E) := by
    have := mul_le_mul A.2 B.2 hE'0.le (by positivity)
    calc p' * E' ≤ (1 + 1 / 2 ^ 53) * p * ((1 + 1 / 2 ^ 53) * E) := this
      _ = _ := by ring
  have c2 : (1 / 2 : ℝ) ≤ (1 - 1 / 2 ^ 53) ^ 2 := by norm_num
  have Q := rnd_factor F (x := p' * E') (by
    rw [c1]
    have : 1 / 2 * (p * E) ≤ (1 - 1 / 2 ^ 53) ^ 2 * (p * E) :=
      mul_le_mul_of_nonneg_right c2 hpE0.le
    linarith)
  generalize hq' : F.rnd (p' * E') = q' at *
  have q3 : (1 - 1 / 2 ^ 53) ^ 3 * (p * E) ≤ q' := by
    have := mul_le_mul_of_nonneg_left q1 hlo.le
    calc (1 - 1 / 2 ^ 53 : ℝ) ^ 3 * (p * E) = (1 - 1 / 2 ^ 53) * ((1 - 1 / 2 ^ 53) ^ 2 * (p * E)) := by
          ring
      _ ≤ _ := this.trans Q.1
  have q4 : q' ≤ (1 + 1 / 2 ^ 53) ^ 3 * (p * E) := by
    have := mul_le_mul_of_nonneg_left q2 (by norm_num : (0 : ℝ) ≤ 1 + 1 / 2 ^ 53)
    calc q' ≤ _ := Q.2.trans this
      _ = _ := by ring
  have hq'0 : 0 < q' := lt_of_lt_of_le (mul_pos (pow_pos hlo 3) hpE0) q3
  -- the quotient
  have r1 : (1 - 1 / 2 ^ 53) ^ 4 * P ≤ q' / f' := by
    rw [le_div_iff₀ hf'0]
    calc (1 - 1 / 2 ^ 53 : ℝ) ^ 4 * P * f' ≤ (1 - 1 / 2 ^ 53) ^ 4 * P * ((1 + 1 / 2 ^ 53) * f) :=
          mul_le_mul_of_nonneg_left C.2 (mul_nonneg (pow_nonneg hlo.le 4) hP0.le)
      _ = ((1 - 1 / 2 ^ 53) * (1 + 1 / 2 ^ 53)) * ((1 - 1 / 2 ^ 53) ^ 3 * (P * f)) := by ring
      _ ≤ 1 * ((1 - 1 / 2 ^ 53) ^ 3 * (P * f)) :=
          mul_le_mul_of_nonneg_right (by norm_num)
            (mul_nonneg (pow_nonneg hlo.le 3) (mul_pos hP0 hf0).le)
      _ ≤ q' := by rw [one_mul, ePf]; exact q3
  have r2 : q' / f' ≤ (1 + 1 / 2 ^ 53) ^ 3 * (1 + 1 / 2 ^ 52) * P := by
    rw [div_le_iff₀ hf'0]
    calc q' ≤ (1 + 1 / 2 ^ 53) ^ 3 * (P * f) := by rw [ePf]; exact q4
      _ = (1 + 1 / 2 ^ 53) ^ 3 * P * (1 * f) := by ring
      _ ≤ (1 + 1 / 2 ^ 53) ^ 3 * P * (((1 + 1 / 2 ^ 52) * (1 - 1 / 2 ^ 53)) * f) :=
          mul_le_mul_of_nonneg_left (mul_le_mul_of_nonneg_right (by norm_num) hf0.le)
            (by positivity)
      _ = (1 + 1 / 2 ^ 53) ^ 3 * (1 + 1 / 2 ^ 52) * P * ((1 - 1 / 2 ^ 53) * f) := by ring
      _ ≤ _ := mul_le_mul_of_nonneg_left C.1 (by positivity)
  have c4 : (1 / 2 : ℝ) ≤ (1 - 1 / 2 ^ 53) ^ 4 := by norm_num
  have Z := rnd_factor F (x := q' / f') (by
    rw [c1]
    have : 1 / 2 * P ≤ (1 - 1 / 2 ^ 53) ^ 4 * P := mul_le_mul_of_nonneg_right c4 hP0.le
    linarith)
  rw [abs_le]
  constructor
  · have h5 := mul_le_mul_of_nonneg_left r1 hlo.le
    have h6 : (1 - 1 / 2 ^ 50) * P ≤ (1 - 1 / 2 ^ 53) * ((1 - 1 / 2 ^ 53) ^ 4 * P) := by
      rw [← mul_assoc]
      exact mul_le_mul_of_nonneg_right (by norm_num) hP0.le
    linarith [Z.1]
  · have h5 := mul_le_mul_of_nonneg_left r2 (by norm_num : (0 : ℝ) ≤ 1 + 1 / 2 ^ 53)
    have h6 : (1 + 1 / 2 ^ 53) * ((1 + 1 / 2 ^ 53) ^ 3 * (1 + 1 / 2 ^ 52) * P) ≤
        (1 + 1 / 2 ^ 50) * P := by
      rw [← mul_assoc]
      exact mul_le_mul_of_nonneg_right (by norm_num) hP0.le
    linarith [Z.2]

/-! ### The factories -/

theorem clamp_floor (x f : ℝ) : clamp x (some f) none = max f x := by
  unfold clamp
  simp only
  split_ifs with h
  · exact (max_eq_left h.le).symm
  · exact (max_eq_right (not_lt.1 h)).symm

theorem mapM_ok_iff {β γ : Type} (f : β → Py γ) (l : List β) (r : List γ) :
    l.mapM f = .ok r ↔ List.Forall₂ (fun a b => f a = .ok b) l r := by
  induction l generalizing r with
  | nil =>
    constructor
    · intro h; cases h; exact .nil
    · intro h; cases h; rfl
  | cons a l ih =>
    rw [List.mapM_cons]
    cases ha : f a with
    | error e =>
      constructor
      · intro h; cases h
      · intro h; cases h with
        | cons h1 _ => rw [ha] at h1; cases h1
    | ok b =>
      cases hl : l.mapM f with
      | error e =>
        constructor
        · intro h; cases h
        · intro h; cases h with
          | cons _ h2 => rw [(ih _).2 h2] at hl; cases hl
      | ok r' =>
        have h2 := (ih r').1 hl
        constructor
        · intro h; cases h; exact .cons ha h2
        · intro h; cases h with
          | cons h1 h3 =>
            rw [ha] at h1; cases h1
            have := (ih _).2 h3
            rw [hl] at this; cases this
            rfl

theorem mapM_error {β γ : Type} (f : β → Py γ) (l : List β) (e : Err) (h : l.mapM f = .error e) :
    ∃ a ∈ l, f a = .error e := by
  induction l with
  | nil => cases h
  | cons a l ih =>
    rw [List.mapM_cons] at h
    cases ha : f a with
    | error e' =>
      rw [ha] at h; cases h; exact ⟨a, by simp, ha⟩
    | ok b =>
      rw [ha] at h
      cases hl : l.mapM f with
      | error e' =>
        rw [hl] at h; cases h
        obtain ⟨a', h1, h2⟩ := ih hl
        exact ⟨a', by simp [h1], h2⟩
      | ok r => rw [hl] at h; cases h

theorem floorWeights_ok_iff (pdf : Nat → Py ℝ) (n : Nat) (floor : ℝ) (ws : List ℝ) :
    floorWeights pdf n floor = .ok ws ↔
      ws.length = n ∧ ∀ i < n, ∃ v, pdf (i + 1) = .ok v ∧ ws.getD i 0 = max floor v := by
  unfold floorWeights
  rw [mapM_ok_iff, List.forall₂_iff_get]
  simp only [List.length_range, List.get_eq_getElem, List.getElem_range]
  have key : ∀ (i : Nat) (w : ℝ), ((do let v ← pdf (i + 1); return clamp v (some floor) none) =
      (Except.ok w : Py ℝ)) ↔ ∃ v, pdf (i + 1) = .ok v ∧ w = max floor v := by
    intro i w
    cases hv : pdf (i + 1) with
    | error e =>
      constructor
      · intro h; cases h
      · rintro ⟨v, h, _⟩; cases h
    | ok v =>
      constructor
      · intro h
        change Except.ok _ = _ at h
        rw [clamp_floor] at h
        cases h
        exact ⟨v, rfl, rfl⟩
      · rintro ⟨v', h, rfl⟩
        cases h
        change Except.ok _ = _
        rw [clamp_floor]
  constructor
  · rintro ⟨h1, h2⟩
    refine ⟨h1.symm, fun i hi => ?_⟩
    have := (key i _).1 (h2 i hi (h1 ▸ hi))
    rwa [List.getD_eq_getElem _ _ (h1 ▸ hi)]
  · rintro ⟨h1, h2⟩
    refine ⟨h1.symm, fun i hi hi' => (key i _).2 ?_⟩
    have := h2 i hi
    rwa [List.getD_eq_getElem _ _ hi'] at this

theorem floorWeights_error (pdf : Nat → Py ℝ) (n : Nat) (floor : ℝ) (e : Err)
    (h : floorWeights pdf n floor = .error e) : ∃ i < n, pdf (i + 1) = .error e := by
  obtain ⟨i, hi, h2⟩ := mapM_error _ _ _ h
  refine ⟨i, List.mem_range.1 hi, ?_⟩
  cases hv : pdf (i + 1) with
  | error e' => rw [hv] at h2; cases h2; rfl
  | ok v => rw [hv] at h2; cases h2

/-- **C24 (weights).** If there are weights, there is one per item: the larger of the floor and the
density at the item's one-based position, as computed. -/
theorem C24_weights (F : Rounding ℝ) (n : Nat) (mu sigma floor : ℝ) (ws : List ℝ) :
    (poissonWeights F n mu floor = .ok ws ↔ ws.length = n ∧ ∀ i < n, ∃ v,
      poissonF F (i + 1) mu = .ok v ∧ ws.getD i 0 = max floor v) ∧
    (gaussianWeights F n mu sigma floor = .ok ws ↔ ws.length = n ∧ ∀ i < n, ∃ v,
      gaussianF F ((i + 1 : Nat) : ℝ) mu sigma = .ok v ∧ ws.getD i 0 = max floor v) :=
  ⟨floorWeights_ok_iff _ n floor ws, floorWeights_ok_iff _ n floor ws⟩

/-- **C24 (exactly when `poisson_choice` has weights).** For `mu >= 0` the weights can be computed if
and only if there are at most 170 items and `mu ** len(items)` is no larger than a float can be;
otherwise `OverflowError` is raised. -/
theorem C24_poisson_iff (F : Rounding ℝ) (n : Nat) (mu floor : ℝ) (h : 0 ≤ mu) :
    ((∃ ws, poissonWeights F n mu floor = .ok ws) ↔ n ≤ 170 ∧ mu ^ n < overflowAt) ∧
    ((¬ ∃ ws, poissonWeights F n mu floor = .ok ws) →
      poissonWeights F n mu floor = .error .overflow) := by
  have hmono : ∀ i < n, mu ^ n < overflowAt → mu ^ (i + 1) < overflowAt := by
    intro i hi hn
    rcases le_or_gt mu 1 with h1 | h1
    · exact lt_of_le_of_lt (pow_le_one₀ h h1) one_lt_overflowAt
    · exact lt_of_le_of_lt (pow_le_pow_right₀ h1.le hi) hn
  refine ⟨⟨?_, ?_⟩, ?_⟩
  · rintro ⟨ws, hw⟩
    obtain ⟨h1, h2⟩ := (floorWeights_ok_iff _ _ _ _).1 hw
    rcases Nat.eq_zero_or_pos n with rfl | hn
    · exact ⟨by omega, by simpa using one_lt_overflowAt⟩
    · obtain ⟨v, hv, _⟩ := h2 (n - 1) (by omega)
      rw [Nat.sub_add_cancel hn, C23_overflow_iff F n mu h] at hv
      by_contra hc
      rw [if_neg hc] at hv
      cases hv
  · rintro ⟨hn, hp⟩
    rcases hw : poissonWeights F n mu floor with e | ws
    · exfalso
      obtain ⟨i, hi, he⟩ := floorWeights_error _ _ _ _ hw
      rw [C23_overflow_iff F _ mu h, if_pos ⟨by omega, hmono i hi hp⟩] at he
      cases he
    · exact ⟨ws, rfl⟩
  · intro hno
    rcases hw : poissonWeights F n mu floor with e | ws
    · obtain ⟨i, hi, he⟩ := floorWeights_error _ _ _ _ hw
      rw [C23_overflow_iff F _ mu h] at he
      split at he
      · cases he
      · cases he; rfl
    · exact absurd ⟨ws, hw⟩ hno

theorem floorWeights_pos (pdf : Nat → Py ℝ) (n : Nat) (floor : ℝ) (hf : 0 < floor) (ws : List ℝ)
    (h : floorWeights pdf n floor = .ok ws) : ws.length = n ∧ ∀ w ∈ ws, 0 < w := by
  obtain ⟨h1, h2⟩ := (floorWeights_ok_iff _ _ _ _).1 h
  refine ⟨h1, fun w hw => ?_⟩
  obtain ⟨i, hi, rfl⟩ := List.getElem_of_mem hw
  obtain ⟨v, _, h4⟩ := h2 i (h1 ▸ hi)
  rw [List.getD_eq_getElem _ _ hi] at h4
  rw [h4]
  exact lt_max_of_lt_left hf

variable {α : Type} [PyHash α] {R : Rng ℝ}

/-- **C24 (construction).** With a positive floor, at most 170 items and a power that fits a float,
`poisson_choice` succeeds with or without replacement; it never divides by zero.  (The only possible
exception is the `ValueError` of a uniform draw of exactly `0.0` in the initial shuffle without
replacement.) -/
theorem C24_poisson_choice_partial (F : Rounding ℝ) (items : List α) (hne : items ≠ [])
    (mu floor : ℝ) (hm : 0 ≤ mu) (hf : 0 < floor) (hn : items.length ≤ 170)
    (hp : mu ^ items.length < overflowAt) (replace roac : Bool) (seed : Option Int) (ent : Nat) :
    (∃ ws st ent', poissonWeights F items.length mu floor = .ok ws ∧
      poissonChoice (R := R) F items mu floor replace roac seed ent = (.ok st, ent') ∧
      st.weights = some ws) ∨
    (replace = false ∧ roac = false ∧ ∃ ent',
      poissonChoice (R := R) F items mu floor replace roac seed ent =
        (.error .valueError, ent')) := by
  obtain ⟨ws, hw⟩ := (C24_poisson_iff F items.length mu floor hm).1.2 ⟨hn, hp⟩
  obtain ⟨hl, hpos⟩ := floorWeights_pos _ _ _ hf _ hw
  have e : poissonChoice (R := R) F items mu floor replace roac seed ent =
      Choice.init items (some ws) replace roac seed none ent := by
    unfold poissonChoice; rw [hw]; rfl
  rw [e]
  rcases Choice.init_positive (R := R) items hne ws hl hpos replace roac seed ent with
    ⟨st, ent', h1, h2⟩ | h
  · exact .inl ⟨ws, st, ent', hw, h1, h2⟩
  · exact .inr h

omit [PyHash α] in
/-- **C24 is violated (many items).** `poisson_choice` over more than 170 items always raises
`OverflowError`, whatever the mean and the floor: the floor that is meant for "a large number of
items" does not help. -/
theorem C24_many_items_violated (F : Rounding ℝ) (items : List α) (h : 170 < items.length)
    (mu floor : ℝ) (hm : 0 ≤ mu) (replace roac : Bool) (seed : Option Int) (ent : Nat) :
    poissonChoice (R := R) F items mu floor replace roac seed ent = (.error .overflow, ent) := by
  have hw : poissonWeights F items.length mu floor = .error .overflow :=
    (C24_poisson_iff F items.length mu floor hm).2 fun hc =>
      absurd ((C24_poisson_iff F items.length mu floor hm).1.1 hc).1 (by omega)
  unfold poissonChoice
  rw [hw]; rfl

/-- **C24 (construction, gaussian).** With a positive floor `gaussian_choice` succeeds whenever its
weights can be computed. -/
theorem C24_gaussian_choice_partial (F : Rounding ℝ) (items : List α) (hne : items ≠ [])
    (mu sigma floor : ℝ) (hf : 0 < floor) (ws : List ℝ)
    (hw : gaussianWeights F items.length mu sigma floor = .ok ws) (replace roac : Bool)
    (seed : Option Int) (ent : Nat) :
    (∃ st ent', gaussianChoice (R := R) F items mu sigma floor replace roac seed ent =
      (.ok st, ent') ∧ st.weights = some ws) ∨
    (replace = false ∧ roac = false ∧ ∃ ent',
      gaussianChoice (R := R) F items mu sigma floor replace roac seed ent =
        (.error .valueError, ent')) := by
  obtain ⟨hl, hpos⟩ := floorWeights_pos _ _ _ hf _ hw
  have e : gaussianChoice (R := R) F items mu sigma floor replace roac seed ent =
      Choice.init items (some ws) replace roac seed none ent := by
    unfold gaussianChoice; rw [hw]; rfl
  rw [e]
  exact Choice.init_positive (R := R) items hne ws hl hpos replace roac seed ent

/-- **C24 (gaussian weights).** They can be computed if and only if the deviation is not zero and no
squared deviate is too large for a float. -/
theorem C24_gaussian_iff (F : Rounding ℝ) (n : Nat) (mu sigma floor : ℝ) :
    (∃ ws, gaussianWeights F n mu sigma floor = .ok ws) ↔ ∀ i < n, sigma ≠ 0 ∧
      F.rnd (F.rnd (((i + 1 : Nat) : ℝ) - mu) / sigma) ^ 2 < overflowAt := by
  have key : ∀ x : ℝ, (∃ v, gaussianF F x mu sigma = .ok v) ↔ sigma ≠ 0 ∧
      F.rnd (F.rnd (x - mu) / sigma) ^ 2 < overflowAt := by
    intro x
    unfold gaussianF
    by_cases hs : sigma = 0
    · rw [if_pos hs]
      constructor
      · rintro ⟨v, hv⟩; cases hv
      · rintro ⟨h, _⟩; exact absurd hs h
    · rw [if_neg hs, toFloat_iff, abs_of_nonneg (sq_nonneg _)]
      by_cases hz : F.rnd (F.rnd (x - mu) / sigma) ^ 2 < overflowAt
      · rw [if_pos hz]
        exact ⟨fun _ => ⟨hs, hz⟩, fun _ => ⟨_, rfl⟩⟩
      · rw [if_neg hz]
        constructor
        · rintro ⟨v, hv⟩; cases hv
        · rintro ⟨_, h⟩; exact absurd h hz
  constructor
  · rintro ⟨ws, hw⟩ i hi
    obtain ⟨_, h2⟩ := (floorWeights_ok_iff _ _ _ _).1 hw
    obtain ⟨v, hv, _⟩ := h2 i hi
    exact (key _).1 ⟨v, hv⟩
  · intro h
    rcases hw : gaussianWeights F n mu sigma floor with e | ws
    · obtain ⟨i, hi, he⟩ := floorWeights_error _ _ _ _ hw
      obtain ⟨v, hv⟩ := (key _).2 (h i hi)
      rw [hv] at he; cases he
    · exact ⟨ws, rfl⟩

/-- **C24 (selectable).** With a positive floor every item can be emitted: its share of the unit
interval is not empty. -/
theorem C24_selectable (pdf : Nat → Py ℝ) (n : Nat) (floor : ℝ) (hf : 0 < floor) (ws : List ℝ)
    (h : floorWeights pdf n floor = .ok ws) (i : Nat) (hi : i < n) :
    (ws.take i).sum < (ws.take (i + 1)).sum := by
  obtain ⟨hl, hpos⟩ := floorWeights_pos _ _ _ hf _ h
  rw [take_succ_sum _ i (by omega)]
  have hm : ws.getD i 0 ∈ ws := by
    rw [List.getD_eq_getElem _ _ (by omega)]; exact List.getElem_mem _
  have := hpos _ hm
  linarith

/-! ### Without replacement -/

open Choice in
omit [PyHash α] in
/-- Constructing a weighted `Choice` without replacement raises if and only if one of the
`len(items)` first draws is exactly `0.0` or one of the weights is zero. -/
theorem init_without_replacement_iff (items : List α) (hne : items ≠ []) (ws : List ℝ)
    (hl : ws.length = items.length) (seed : Option Int) (ent : Nat) :
    ∃ (g g1 : R.G) (us : List ℝ), (∀ s, seed = some s → g = R.ofSeed s) ∧
      R.rands items.length g = (.ok us, g1) ∧
      ((∃ x, (Choice.init (R := R) items (some ws) false false seed none ent).1 = .error x) ↔
        ((0 : ℝ) ∈ us ∨ (0 : ℝ) ∈ ws)) := by
  have hpos : 0 < items.length := List.length_pos_of_ne_nil hne
  have htr : truthy (some ws) = true := by
    cases ws with
    | nil => exact absurd (List.length_eq_zero_iff.1 hl.symm) hne
    | cons a l => rfl
  have hto : allWeights items (some ws) false = .ok (some ws, some (accumulate ws)) := by
    unfold allWeights
    simp only
    rw [if_neg (by simp [hl])]; rfl
  unfold Choice.init
  have htr' : truthy (none : Option (List ℝ)) = false := rfl
  rw [if_neg (by simpa using hne), if_neg (by simp [htr'])]
  simp only [htr, htr', hto, if_true]
  generalize hst : ChoiceSt.mk items (some ws) (some (accumulate ws)) (false || false) false
    ([] : List α) none (items.length : Int) seed (R.ofSeed 0) = st0
  obtain ⟨g, e, hg, hr⟩ := reset_run (st0, ent)
  obtain ⟨us, g1, hus, -, -⟩ := rands_spec R items.length g
  refine ⟨g, g1, us, fun s hs => (hg s (by rw [← hst]; exact hs)).1, hus, ?_⟩
  have hb : st0.replace = false := by rw [← hst]; rfl
  have hit : st0.items = items := by rw [← hst]
  have hsw : shufWeights ({ st0 with rng := g }) = ws := by
    rw [← hst]
    unfold shufWeights
    simp only
    cases ws with
    | nil => cases htr
    | cons a l => rfl
  rw [hr, if_neg (by simp [hb]), globalShuffle_run]
  simp only [hsw]
  simp only [hit]
  rw [← fullShuffle_iff (R := R) items.length hpos ws hl g g1 us hus]
  rcases weightedShuffle R items.length ws none g with ⟨x | ps, g'⟩
  · exact ⟨fun _ => ⟨x, rfl⟩, fun _ => ⟨x, rfl⟩⟩
  · constructor
    · rintro ⟨x, hx⟩; cases hx
    · rintro ⟨x, hx⟩; cases hx

omit [PyHash α] in
/-- **C78 (part that holds).** `gaussian_choice` and `poisson_choice` without a floor and without
replacement: the construction raises exactly when a draw is `0.0` or a weight has become zero. -/
theorem C78_without_replacement_partial (F : Rounding ℝ) (items : List α) (hne : items ≠ [])
    (mu sigma : ℝ) (ws : List ℝ) (seed : Option Int) (ent : Nat) :
    ∃ (g g1 : R.G) (us : List ℝ), (∀ s, seed = some s → g = R.ofSeed s) ∧
      R.rands items.length g = (.ok us, g1) ∧
      (poissonWeights F items.length mu 0 = .ok ws →
        ((∃ x, (poissonChoice (R := R) F items mu 0 false false seed ent).1 = .error x) ↔
          ((0 : ℝ) ∈ us ∨ (0 : ℝ) ∈ ws))) ∧
      (gaussianWeights F items.length mu sigma 0 = .ok ws →
        ((∃ x, (gaussianChoice (R := R) F items mu sigma 0 false false seed ent).1 = .error x) ↔
          ((0 : ℝ) ∈ us ∨ (0 : ℝ) ∈ ws))) := by
  by_cases hl : ws.length = items.length
  · obtain ⟨g, g1, us, h1, h2, h3⟩ :=
      init_without_replacement_iff (R := R) items hne ws hl seed ent
    refine ⟨g, g1, us, h1, h2, fun hw => ?_, fun hw => ?_⟩
    · rw [← h3]; unfold poissonChoice; rw [hw]; rfl
    · rw [← h3]; unfold gaussianChoice; rw [hw]; rfl
  · obtain ⟨g, g1, us, h1, h2, -⟩ := init_without_replacement_iff (R := R) items hne
      (List.replicate items.length 0) (by simp) seed ent
    refine ⟨g, g1, us, h1, h2, fun hw => ?_, fun hw => ?_⟩
    · exact absurd ((floorWeights_ok_iff _ _ _ _).1 hw).1 hl
    · exact absurd ((floorWeights_ok_iff _ _ _ _).1 hw).1 hl

omit [PyHash α] in
/-- **C78 is violated.** `gaussian_choice(items, replace=False)` with the default mean, deviation and
floor raises for every list of 39 items or more, whatever the seed: the weights of the tail have
become zero. -/
theorem C78_gaussian_violated (F : Rounding ℝ) (items : List α) (h1 : 39 ≤ items.length)
    (h2 : items.length ≤ 2 ^ 26) (seed : Option Int) (ent : Nat) :
    ∃ x, (gaussianChoice (R := R) F items 0 1 0 false false seed ent).1 = .error x := by
  have hne : items ≠ [] := by intro h; rw [h] at h1; simp at h1
  obtain ⟨ws, hw⟩ : ∃ ws, gaussianWeights F items.length 0 1 0 = .ok ws := by
    rw [C24_gaussian_iff]
    intro i hi
    refine ⟨one_ne_zero, ?_⟩
    by_contra hc
    have := gaussianF_standard F (i + 1) (by omega)
    unfold gaussianF at this
    rw [if_neg one_ne_zero, toFloat_iff, abs_of_nonneg (sq_nonneg _), if_neg hc] at this
    cases this
  obtain ⟨g, g1, us, -, -, -, h4⟩ :=
    C78_without_replacement_partial (R := R) F items hne 0 1 ws seed ent
  refine (h4 hw).2 (.inr ?_)
  obtain ⟨hl, h5⟩ := (floorWeights_ok_iff _ _ _ _).1 hw
  obtain ⟨v, hv, h6⟩ := h5 38 (by omega)
  rw [C23_gaussian_underflow_violated F 39 (by norm_num) (by norm_num)] at hv
  cases hv
  rw [List.getD_eq_getElem _ _ (by omega), max_self] at h6
  rw [← h6]
  exact List.getElem_mem _

/-- `poisson(2, 3)` is computed with an error of at most `2^-50`. -/
example (F : Rounding ℝ) : ∃ v, poissonF F 2 3 = .ok v ∧
    |v - poisson 2 3| ≤ poisson 2 3 / 2 ^ 50 := by
  refine C23_accuracy_partial F 2 3 ⟨3, 0, by norm_num, by norm_num, by norm_num⟩ (by norm_num)
    (by norm_num) (by norm_num) (by unfold overflowAt; norm_num) ?_
  unfold poisson
  have h1 : (2.7182818286 : ℝ)⁻¹ ≤ Real.exp (-1) := by
    rw [Real.exp_neg]; exact inv_anti₀ (Real.exp_pos _) Real.exp_one_lt_d9.le
  have h2 : Real.exp (-1 * 3) = Real.exp (-1) ^ 3 := by
    rw [← Real.exp_nat_mul]; norm_num
  have h3 : ((2.7182818286 : ℝ)⁻¹) ^ 3 ≤ Real.exp (-1) ^ 3 := pow_le_pow_left₀ (by norm_num) h1 3
  rw [h2]
  have h4 : (2 : ℝ) ^ (-1020 : Int) ≤ 2 ^ (-10 : Int) := zpow_le_zpow_right₀ (by norm_num) (by norm_num)
  have h5 : (2 : ℝ) ^ (-10 : Int) ≤ ((2.7182818286 : ℝ)⁻¹) ^ 3 := by norm_num
  have h6 : (3 : ℝ) ^ 2 * Real.exp (-1) ^ 3 / ((Nat.factorial 2 : Nat) : ℝ) =
      9 / 2 * Real.exp (-1) ^ 3 := by norm_num [Nat.factorial]; ring
  rw [h6]
  have h7 : (0 : ℝ) < Real.exp (-1) ^ 3 := by positivity
  linarith

/-- Five items, mean 2: the power and the factorials fit. -/
example (F : Rounding ℝ) : ∃ ws, poissonWeights F 5 2 (1 / 10) = .ok ws ∧ ws.length = 5 ∧
    ∀ w ∈ ws, 0 < w := by
  obtain ⟨ws, hw⟩ := (C24_poisson_iff F 5 2 (1 / 10) (by norm_num)).1.2
    ⟨by norm_num, by unfold overflowAt; norm_num⟩
  exact ⟨ws, hw, floorWeights_pos _ _ _ (by norm_num) _ hw⟩

end Fauxdoc
