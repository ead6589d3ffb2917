import Verif.Model.DtStep
import Verif.Proofs.Double
import Verif.Props.DtRange4
import Mathlib.Algebra.Order.Round
import Mathlib.Tactic.NormNum
import Mathlib.Tactic.Linarith
import Mathlib.Tactic.FieldSimp
/-
**C99** A fractional step of `dtrange` is a number of microseconds as near to it as half a microsecond.
-/
namespace Fauxdoc

theorem intPart_int (n : Int) : intPart n = n := by unfold intPart; split <;> simp

theorem intPart_spec (x : ℚ) :
    (0 ≤ x → (0 : ℚ) ≤ intPart x ∧ (intPart x : ℚ) ≤ x ∧ x < intPart x + 1) ∧
    (x < 0 → (intPart x : ℚ) ≤ 0 ∧ x ≤ intPart x ∧ (intPart x : ℚ) - 1 < x) := by
  unfold intPart
  constructor
  · intro h
    rw [if_pos h]
    exact ⟨by exact_mod_cast Int.floor_nonneg.2 h, Int.floor_le x, Int.lt_floor_add_one x⟩
  · intro h
    rw [if_neg (by linarith)]
    refine ⟨?_, Int.le_ceil x, by have := Int.ceil_lt_add_one x; linarith⟩
    have : ⌈x⌉ ≤ 0 := Int.ceil_le.2 (by simpa using h.le)
    exact_mod_cast this

theorem frac_lt (x : ℚ) : |x - intPart x| < 1 := by
  obtain ⟨h1, h2⟩ := intPart_spec x
  rw [abs_lt]
  by_cases h : 0 ≤ x
  · have := h1 h; constructor <;> linarith
  · have := h2 (by linarith); constructor <;> linarith

theorem roundAway_near (x : ℚ) : |(roundAway x : ℚ) - x| ≤ 1 / 2 := by
  unfold roundAway
  rw [abs_le]
  split
  · have a := Int.floor_le (x + 1 / 2)
    have b := Int.lt_floor_add_one (x + 1 / 2)
    constructor <;> linarith
  · have a := Int.le_ceil (x - 1 / 2)
    have b := Int.ceil_lt_add_one (x - 1 / 2)
    constructor <;> linarith

theorem int_eq_of_near {a b : Int} (h : |(a : ℚ) - b| < 1) : a = b := by
  have : |a - b| < 1 := by
    have : |((a - b : Int) : ℚ)| < 1 := by push_cast; exact h
    exact_mod_cast this
  rw [abs_lt] at this
  omega

theorem roundEven_unique {n : Int} {y : ℚ} (h : |(n : ℚ) - y| < 1 / 2) : roundEven y = n := by
  obtain ⟨h1, h2⟩ := roundEven_near y
  apply int_eq_of_near
  have := h2 n
  rw [show (roundEven y : ℚ) - n = ((roundEven y : ℚ) - y) - ((n : ℚ) - y) by ring]
  exact (abs_sub _ _).trans_lt (by linarith)

theorem half_cases {left : ℚ} (hl : |left| < 1) {w : Int} (h : |(w : ℚ) - left| = 1 / 2) :
    left = 1 / 2 ∨ left = -1 / 2 := by
  rw [abs_lt] at hl
  rcases (abs_eq (by norm_num)).1 h with h | h
  · have hw : (w : ℚ) = left + 1 / 2 := by linarith
    have h1 : (-1 : ℚ) < w := by linarith
    have h2 : (w : ℚ) < 2 := by linarith
    have h1' : -1 < w := by exact_mod_cast h1
    have h2' : w < 2 := by exact_mod_cast h2
    have : w = 0 ∨ w = 1 := by omega
    rcases this with rfl | rfl
    · right; push_cast at hw; linarith
    · left; push_cast at hw; linarith
  · have hw : (w : ℚ) = left - 1 / 2 := by linarith
    have h1 : (-2 : ℚ) < w := by linarith
    have h2 : (w : ℚ) < 1 := by linarith
    have h1' : -2 < w := by exact_mod_cast h1
    have h2' : w < 1 := by exact_mod_cast h2
    have : w = 0 ∨ w = -1 := by omega
    rcases this with rfl | rfl
    · left; push_cast at hw; linarith
    · right; push_cast at hw; linarith

/-- The end of `delta_new` rounds to the nearest microsecond, halves to the even one. -/
theorem addLeftover_eq (n : Int) {left : ℚ} (hl : |left| < 1) :
    addLeftover n left = roundEven ((n : ℚ) + left) := by
  have hr := roundAway_near left
  unfold addLeftover
  dsimp only
  by_cases h : |(roundAway left : ℚ) - left| = 1 / 2
  · rw [if_pos h]
    rcases half_cases hl h with rfl | rfl
    · rw [roundEven_tie]
      rcases Int.emod_two_eq_zero_or_one n with e | e
      · rw [e, if_pos rfl]
        have : roundAway ((1 / 2 + ((0 : Int) : ℚ)) * (1 / 2)) = 0 := by
          unfold roundAway; norm_num
        rw [this]; omega
      · rw [e, if_neg (by decide)]
        have : roundAway ((1 / 2 + ((1 : Int) : ℚ)) * (1 / 2)) = 1 := by
          unfold roundAway; norm_num
        rw [this]; omega
    · have e' : (n : ℚ) + -1 / 2 = ((n - 1 : Int) : ℚ) + 1 / 2 := by push_cast; ring
      rw [e', roundEven_tie]
      rcases Int.emod_two_eq_zero_or_one n with e | e
      · rw [e, if_neg (by omega)]
        have : roundAway ((-1 / 2 + ((0 : Int) : ℚ)) * (1 / 2)) = 0 := by
          unfold roundAway; norm_num
        rw [this]; omega
      · rw [e, if_pos (by omega)]
        have : roundAway ((-1 / 2 + ((1 : Int) : ℚ)) * (1 / 2)) = 0 := by
          unfold roundAway; norm_num
        rw [this]; omega
  · rw [if_neg h]
    refine (roundEven_unique ?_).symm
    push_cast
    rw [show (n : ℚ) + (roundAway left : ℚ) - (n + left) = (roundAway left : ℚ) - left by ring]
    exact lt_of_le_of_ne hr h

theorem floatUnits_eq (F : Rounding ℚ) (k : Int) (x : ℚ) :
    floatUnits F k x = roundEven ((intPart x : ℚ) * k + F.rnd (k * (x - intPart x))) := by
  unfold floatUnits
  dsimp only
  by_cases h : x - intPart x = 0
  · rw [if_pos h, h, mul_zero, F.rnd_zero, add_zero]
    refine (roundEven_unique ?_).symm
    push_cast
    simp
  · rw [if_neg h, addLeftover_eq _ (frac_lt _)]
    congr 1
    push_cast
    ring

/-- All units of `timedelta` are shorter than `2^40` microseconds. -/
theorem tdUnit_bounds {u : String} {k : Int} (h : tdUnit u = some k) : 1 ≤ k ∧ k < 2 ^ 40 := by
  unfold tdUnit at h
  split at h <;> cases h <;> norm_num [DAY]

theorem rnd_small (F : Rounding ℚ) {y : ℚ} (h : |y| ≤ 2 ^ 40) : |F.rnd y - y| ≤ 1 / 2 ^ 13 := by
  by_cases hn : (2 : ℚ) ^ (-1022 : Int) ≤ |y|
  · refine (F.rel_error hn).trans ?_
    rw [div_le_div_iff₀ (by positivity) (by positivity)]
    nlinarith
  · have := F.nearest y 0 isDouble_zero
    rw [zero_sub, abs_neg] at this
    refine this.trans ((not_le.1 hn).le.trans ?_)
    rw [show (1 : ℚ) / 2 ^ 13 = 2 ^ (-13 : Int) by norm_num]
    exact zpow_le_zpow_right₀ (by norm_num) (by norm_num)

theorem floatUnits_near (F : Rounding ℚ) {u : String} {k : Int} (hk : tdUnit u = some k) (x : ℚ) :
    |(floatUnits F k x : ℚ) - x * k| ≤ 1 / 2 + 1 / 2 ^ 13 := by
  obtain ⟨k1, k2⟩ := tdUnit_bounds hk
  have hk0 : (0 : ℚ) < k := by exact_mod_cast (by omega : 0 < k)
  have hk2 : (k : ℚ) ≤ 2 ^ 40 := by exact_mod_cast k2.le
  rw [floatUnits_eq]
  have hf := frac_lt x
  have hy : |(k : ℚ) * (x - intPart x)| ≤ 2 ^ 40 := by
    rw [abs_mul, abs_of_pos hk0]
    nlinarith [abs_nonneg (x - intPart x)]
  have h1 := (roundEven_near ((intPart x : ℚ) * k + F.rnd (k * (x - intPart x)))).1
  have h2 := rnd_small F hy
  rw [abs_le] at *
  constructor <;> linarith [h1.1, h1.2, h2.1, h2.2]

theorem roundEven_mono {y z : ℚ} (h : y ≤ z) : roundEven y ≤ roundEven z := by
  by_contra hc
  have hc' : roundEven z + 1 ≤ roundEven y := by omega
  have hq : (roundEven z : ℚ) + 1 ≤ roundEven y := by exact_mod_cast hc'
  have h1 := abs_le.1 (roundEven_near y).1
  have h2 := abs_le.1 (roundEven_near z).1
  have : y = z := by linarith
  rw [this] at hc
  omega

theorem dtrangeF_eq (F : Rounding ℚ) (iso : IsoParsers) {ua ub : UserDate} {a b : DT}
    (ha : parseUserDate iso ua = .ok a) (hb : parseUserDate iso ub = .ok b)
    (ht : a.sameType b = true) {u : String} {k : Int} (hu : tdUnit u = some k) (x : ℚ) :
    dtrangeF F iso ua ub (.fin x) (some u) =
      dtrange iso ua ub (floatUnits F k x) (some "microseconds") := by
  have e : tdUnit "microseconds" = some 1 := rfl
  simp [dtrangeF, dtrange, ha, hb, ht, stepTdF, stepTd, hu, e]

/-- **C99.** A range asked for with a float as step is the range asked for with a whole number of
microseconds that differs from the float by at most half a microsecond, apart from an error of
`2^-13` microseconds that comes from rounding to doubles. -/
theorem C99_near (F : Rounding ℚ) (iso : IsoParsers) {ua ub : UserDate} {a b : DT}
    (ha : parseUserDate iso ua = .ok a) (hb : parseUserDate iso ub = .ok b)
    (ht : a.sameType b = true) {u : String} {k : Int} (hu : tdUnit u = some k) (x : ℚ) :
    ∃ m : Int, |(m : ℚ) - x * k| ≤ 1 / 2 + 1 / 2 ^ 13 ∧
      dtrangeF F iso ua ub (.fin x) (some u) = dtrange iso ua ub m (some "microseconds") :=
  ⟨_, floatUnits_near F hu x, dtrangeF_eq F iso ha hb ht hu x⟩

/-- **C99 (whole).** A float that is a whole number means the same as the int. -/
theorem C99_whole (F : Rounding ℚ) (iso : IsoParsers) (ua ub : UserDate) (n : Int)
    (unit : Option String) : dtrangeF F iso ua ub (.fin n) unit = dtrange iso ua ub n unit := by
  have e : ∀ u, stepTdF F u (.fin n) = stepTd u n := by
    intro u
    unfold stepTdF stepTd
    cases tdUnit u with
    | none => rfl
    | some k =>
      have : floatUnits F k n = n * k := by
        unfold floatUnits
        dsimp only
        rw [intPart_int, if_pos (sub_self _)]
      simp only [this]
  unfold dtrangeF dtrange
  simp only [e]

/-- **C99 (intended).** Who wants `m` microseconds and writes them as a decimal number of some other
unit, such as `0.1` seconds, gives the double nearest to it; up to 71 years the step is then exactly
`m` microseconds. -/
theorem C99_intended (F : Rounding ℚ) (iso : IsoParsers) {ua ub : UserDate} {a b : DT}
    (ha : parseUserDate iso ua = .ok a) (hb : parseUserDate iso ub = .ok b)
    (ht : a.sameType b = true) {u : String} {k : Int} (hu : tdUnit u = some k) (m : Int)
    (hm : |m| ≤ 2 ^ 51) :
    dtrangeF F iso ua ub (.fin (F.rnd ((m : ℚ) / k))) (some u) =
      dtrange iso ua ub m (some "microseconds") := by
  rw [dtrangeF_eq F iso ha hb ht hu]
  congr 1
  obtain ⟨k1, k2⟩ := tdUnit_bounds hu
  have hk0 : (0 : ℚ) < k := by exact_mod_cast (by omega : 0 < k)
  have hk2 : (k : ℚ) ≤ 2 ^ 40 := by exact_mod_cast k2.le
  have near := floatUnits_near F hu (F.rnd ((m : ℚ) / k))
  have hx : |F.rnd ((m : ℚ) / k) * k - m| ≤ 1 / 4 := by
    by_cases h0 : m = 0
    · subst h0; norm_num
    have hm1 : (1 : ℚ) ≤ |(m : ℚ)| := by
      have : 1 ≤ |m| := Int.one_le_abs h0
      exact_mod_cast this
    have hm2 : |(m : ℚ)| ≤ 2 ^ 51 := by exact_mod_cast hm
    have hq : |(m : ℚ) / k| = |(m : ℚ)| / k := by rw [abs_div, abs_of_pos hk0]
    have hn : (2 : ℚ) ^ (-1022 : Int) ≤ |(m : ℚ) / k| := by
      rw [hq, le_div_iff₀ hk0]
      have h40 : (2 : ℚ) ^ (-1022 : Int) * 2 ^ 40 ≤ 1 := by
        rw [show (2 : ℚ) ^ 40 = 2 ^ (40 : Int) by norm_num, ← zpow_add₀ (by norm_num)]
        exact zpow_le_one_of_nonpos₀ (by norm_num) (by norm_num)
      have := mul_le_mul_of_nonneg_left hk2 (two_zpow_pos (K := ℚ) (-1022)).le
      linarith
    have := F.rel_error hn
    rw [hq] at this
    have e : F.rnd ((m : ℚ) / k) * k - m = (F.rnd ((m : ℚ) / k) - (m : ℚ) / k) * k := by
      field_simp
    rw [e, abs_mul, abs_of_pos hk0]
    calc |F.rnd ((m : ℚ) / k) - (m : ℚ) / k| * k ≤ |(m : ℚ)| / k / 2 ^ 53 * k :=
          mul_le_mul_of_nonneg_right this hk0.le
      _ = |(m : ℚ)| / 2 ^ 53 := by field_simp
      _ ≤ 1 / 4 := by rw [div_le_div_iff₀ (by positivity) (by norm_num)]; linarith
  apply int_eq_of_near
  rw [abs_le] at near hx
  rw [abs_lt]
  constructor <;> linarith [near.1, near.2, hx.1, hx.2]

/-- **C99 (order).** A larger step is never fewer microseconds. -/
theorem C99_mono (F : Rounding ℚ) {u : String} {k : Int} (hu : tdUnit u = some k) {x y : ℚ}
    (h : x ≤ y) : floatUnits F k x ≤ floatUnits F k y := by
  obtain ⟨k1, k2⟩ := tdUnit_bounds hu
  have hk0 : (0 : ℚ) < k := by exact_mod_cast (by omega : 0 < k)
  have dk : IsDouble (k : ℚ) := isDouble_int k (by rw [abs_of_pos (by omega)]; omega)
  rw [floatUnits_eq, floatUnits_eq]
  apply roundEven_mono
  have up : ∀ z : ℚ, (0 ≤ z → 0 ≤ F.rnd (k * (z - intPart z)) ∧ F.rnd (k * (z - intPart z)) ≤ k) ∧
      (z < 0 → F.rnd (k * (z - intPart z)) ≤ 0 ∧ -(k : ℚ) ≤ F.rnd (k * (z - intPart z))) := by
    intro z
    obtain ⟨h1, h2⟩ := intPart_spec z
    constructor
    · intro hz
      obtain ⟨-, a, b⟩ := h1 hz
      exact ⟨F.nonneg (mul_nonneg hk0.le (by linarith)), F.le_of_le dk (by nlinarith)⟩
    · intro hz
      obtain ⟨-, a, b⟩ := h2 hz
      exact ⟨F.le_of_le isDouble_zero (by nlinarith), F.ge_of_ge dk.neg (by nlinarith)⟩
  have mono : intPart x ≤ intPart y := by
    unfold intPart
    by_cases hx : 0 ≤ x
    · rw [if_pos hx, if_pos (hx.trans h)]; exact Int.floor_le_floor h
    · rw [if_neg hx]
      by_cases hy : 0 ≤ y
      · rw [if_pos hy]
        have : ⌈x⌉ ≤ 0 := Int.ceil_le.2 (by push_cast; linarith)
        exact this.trans (Int.floor_nonneg.2 hy)
      · rw [if_neg hy]; exact Int.ceil_le_ceil h
  rcases mono.eq_or_lt with e | lt
  · rw [← e]
    have : F.rnd (k * (x - intPart x)) ≤ F.rnd (k * (y - intPart x)) :=
      F.mono (mul_le_mul_of_nonneg_left (by linarith) hk0.le)
    linarith
  · have lt' : (intPart x : ℚ) + 1 ≤ intPart y := by exact_mod_cast lt
    have m1 : ((intPart x : ℚ) + 1) * k ≤ intPart y * k := mul_le_mul_of_nonneg_right lt' hk0.le
    by_cases hx : 0 ≤ x
    · have a := (up x).1 hx
      have b := (up y).1 (hx.trans h)
      linarith [a.1, a.2, b.1, b.2]
    · have a := (up x).2 (by linarith)
      by_cases hy : 0 ≤ y
      · have b := (up y).1 hy
        linarith [a.1, a.2, b.1, b.2]
      · have b := (up y).2 (by linarith)
        linarith [a.1, a.2, b.1, b.2]

/-- **C99 (default).** Without `step_unit` a float counts days for dates and seconds otherwise. -/
theorem C99_default (F : Rounding ℚ) (iso : IsoParsers) {ua : UserDate} (ub : UserDate) {a : DT}
    (ha : parseUserDate iso ua = .ok a) (x : FloatArg) :
    (∀ o, a = .date o → dtrangeF F iso ua ub x none = dtrangeF F iso ua ub x (some "days")) ∧
    (∀ u, a = .time u ∨ a = .datetime u →
      dtrangeF F iso ua ub x none = dtrangeF F iso ua ub x (some "seconds")) := by
  constructor
  · rintro o rfl
    simp [dtrangeF, ha, defaultUnit]
  · rintro u (rfl | rfl) <;> simp [dtrangeF, ha, defaultUnit]

/-- **C99 (refused).** Infinity, NaN and an unknown unit are refused, and so is a step of less than half
a microsecond, like a step of zero. -/
theorem C99_refused (F : Rounding ℚ) (iso : IsoParsers) {ua ub : UserDate} {a b : DT}
    (ha : parseUserDate iso ua = .ok a) (hb : parseUserDate iso ub = .ok b) (hva : a.Valid)
    (ht : a.sameType b = true) {u : String} :
    (∀ x, tdUnit u = none → dtrangeF F iso ua ub x (some u) = .error .valueError) ∧
    ∀ k, tdUnit u = some k →
      dtrangeF F iso ua ub .inf (some u) = .error .overflow ∧
      dtrangeF F iso ua ub .nan (some u) = .error .valueError ∧
      ∀ x : ℚ, |x * k| < 1 / 2 - 1 / 2 ^ 13 →
        dtrangeF F iso ua ub (.fin x) (some u) = .error .zeroDivision := by
  refine ⟨fun x hu => ?_, fun k hu => ⟨?_, ?_, fun x hx => ?_⟩⟩
  · simp [dtrangeF, ha, hb, stepTdF, hu]
  · simp [dtrangeF, ha, hb, ht, stepTdF, hu]
  · simp [dtrangeF, ha, hb, stepTdF, hu]
  · have h0 : floatUnits F k x = 0 := by
      apply int_eq_of_near
      have near := floatUnits_near F hu x
      rw [abs_le] at near
      rw [abs_lt] at hx ⊢
      push_cast
      constructor <;> linarith [near.1, near.2, hx.1, hx.2]
    rw [dtrangeF_eq F iso ha hb ht hu, h0]
    exact C67_zero_step iso ha hb hva ht (u := "microseconds") (k := 1) rfl

/-- **C99 (the error occurs).** With 4338204186364117 / 2^52 weeks, a double, `timedelta` takes the
farther of the two microseconds around it: the summand `2^-13` cannot be left out. -/
theorem C99_not_nearest : ∃ x : ℚ, IsDouble x ∧ 1 / 2 < |(floatUnits (rounding ℚ) (7 * DAY) x : ℚ) - x * (7 * DAY : Int)| :=
  ⟨4338204186364117 / 4503599627370496, ⟨4338204186364117, -52, by norm_num, by norm_num, by norm_num⟩,
    by decide +kernel⟩

/-! Non-vacuity: 0.1 seconds, half an hour, and 0.1 microseconds. -/
example : (rounding ℚ).rnd (((100000 : Int) : ℚ) / (1000000 : Int)) = 3602879701896397 / 36028797018963968 ∧
    dtrangeF (rounding ℚ) ⟨fun _ => none, fun _ => none, fun _ => none⟩ (.dt (.time 0)) (.dt (.time 300000))
      (.fin (3602879701896397 / 36028797018963968)) = .ok ⟨.time 0, 3, 100000⟩ := by decide +kernel
example : dtrangeF (rounding ℚ) ⟨fun _ => none, fun _ => none, fun _ => none⟩ (.dt (.datetime DAY))
      (.dt (.datetime (2 * DAY))) (.fin (1 / 2)) (some "hours") = .ok ⟨.datetime DAY, 48, 1800000000⟩ := by
  decide +kernel
example : |(1 / 10 : ℚ) * (1 : Int)| < 1 / 2 - 1 / 2 ^ 13 ∧ tdUnit "microseconds" = some 1 := by
  constructor
  · norm_num [abs_of_pos]
  · rfl

end Fauxdoc
