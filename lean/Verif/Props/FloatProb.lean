import Verif.Props.ChoiceFloat
import Mathlib.Data.Finset.Card
import Mathlib.Algebra.Order.Floor.Semiring
/-
What rounding does to probabilities (C79), and exactly when `chance(p)` fails (C11).

`random()` returns one of the `2^53` numbers `j / 2^53`, all equally likely.  A probability is thus a
number of draws divided by `2^53`.
-/
namespace Fauxdoc
variable {K : Type} [Field K] [LinearOrder K] [IsStrictOrderedRing K]

/-! ### `chance` for all arguments -/

/-- Doubles between `2^53` and `2^54` are even integers. -/
theorem IsDouble.even_form {a : K} (hd : IsDouble a) (h1 : 2 ^ 53 ≤ a) (h2 : a < 2 ^ 54) :
    ∃ k : Int, 2 ^ 52 ≤ k ∧ k < 2 ^ 53 ∧ a = (k : K) * 2 := by
  rcases eq_or_lt_of_le h1 with rfl | h1
  · exact ⟨2 ^ 52, le_rfl, by norm_num, by norm_num⟩
  obtain ⟨m, e, m0, m1, -, ha⟩ := hd.normal_form
    (lt_trans (lt_trans (zpow_lt_one_of_neg₀ (by norm_num) (by norm_num))
      (by norm_num : (1 : K) < 2 ^ 53)) h1)
  have hp := two_zpow_pos (K := K) e
  have hm1 : (m : K) ≤ 2 ^ 53 := by exact_mod_cast m1
  have hm0 : (2 : K) ^ 52 < m := by exact_mod_cast m0
  have e1 : 1 ≤ e := by
    by_contra hc
    have h3 : (2 : K) ^ e ≤ 1 := zpow_le_one_of_nonpos₀ (by norm_num) (by omega)
    have h4 : (m : K) * 2 ^ e ≤ 2 ^ 53 * 1 := mul_le_mul hm1 h3 hp.le (by positivity)
    rw [← ha] at h4
    linarith
  have e2 : e ≤ 1 := by
    by_contra hc
    have h3 : (2 : K) ^ (2 : Int) ≤ 2 ^ e := zpow_le_zpow_right₀ (by norm_num) (by omega)
    have h4 : (2 : K) ^ 52 * 2 ^ (2 : Int) ≤ m * 2 ^ e :=
      mul_le_mul hm0.le h3 (by positivity) (by linarith [pow_pos (two_pos (α := K)) 52])
    rw [← ha] at h4
    norm_num at h4 h2
    linarith
  obtain rfl : e = 1 := by omega
  rw [zpow_one] at ha
  refine ⟨m, m0.le, ?_, ha⟩
  by_contra hc
  obtain rfl : m = 2 ^ 53 := by omega
  rw [ha] at h2
  norm_num at h2

/-- Doubles from `2^54` on are multiples of four. -/
theorem IsDouble.four_dvd {a : K} (hd : IsDouble a) (h : 2 ^ 54 ≤ a) : ∃ m : Int, a = 4 * (m : K) := by
  obtain ⟨m, e, m0, m1, -, ha⟩ := hd.normal_form
    (lt_of_lt_of_le (lt_trans (zpow_lt_one_of_neg₀ (by norm_num) (by norm_num))
      (by norm_num : (1 : K) < 2 ^ 54)) h)
  have hp := two_zpow_pos (K := K) e
  have hm1 : (m : K) ≤ 2 ^ 53 := by exact_mod_cast m1
  have e1 : 1 ≤ e := by
    by_contra hc
    have h3 : (2 : K) ^ e ≤ 1 := zpow_le_one_of_nonpos₀ (by norm_num) (by omega)
    have h4 : (m : K) * 2 ^ e ≤ 2 ^ 53 * 1 := mul_le_mul hm1 h3 hp.le (by positivity)
    rw [← ha] at h4
    have : (2 : K) ^ 53 * 1 < 2 ^ 54 := by norm_num
    linarith
  by_cases he : e = 1
  · subst he
    rw [zpow_one] at ha
    have h5 : (2 : K) ^ 53 ≤ m := by
      rw [ha, show (2 : K) ^ 54 = 2 ^ 53 * 2 by norm_num] at h
      exact le_of_mul_le_mul_right h (by norm_num)
    have h6 : (2 : Int) ^ 53 ≤ m := by exact_mod_cast h5
    obtain rfl : m = 2 ^ 53 := by omega
    exact ⟨2 ^ 52, by rw [ha]; norm_num⟩
  · obtain ⟨d, hd⟩ := Int.eq_ofNat_of_zero_le (by omega : 0 ≤ e - 2)
    refine ⟨m * 2 ^ d, ?_⟩
    rw [ha, show e = (d : Int) + 2 by omega, zpow_add₀ (by norm_num), zpow_natCast]
    push_cast
    norm_num
    ring

/-- **C11 (all arguments).** In binary64 arithmetic `chance(p)` raises `ValueError` if and only if
`p` is a multiple of four above `2^53` or not above `-2^53`; for every other double `p` each value
is `True` exactly when its draw is below `p`. -/
theorem C11_float_iff [FloorRing K] (F : Rounding K) (R : Rng K) (hR : R.Draws53) (p : K)
    (hd : IsDouble p) (k : Nat) (g : R.G) :
    (((p ≤ -2 ^ 53 ∨ 2 ^ 53 < p) ∧ ∃ m : Int, p = 4 * (m : K)) →
      chanceFl R F.rnd p k g = (.error .valueError, g)) ∧
    (¬ ((p ≤ -2 ^ 53 ∨ 2 ^ 53 < p) ∧ ∃ m : Int, p = 4 * (m : K)) →
      ∃ us g', R.rands k g = (.ok us, g') ∧ us.length = k ∧ (∀ u ∈ us, 0 ≤ u ∧ u < 1) ∧
        chanceFl R F.rnd p k g = (.ok (us.map fun u => decide (u < p)), g')) := by
  obtain ⟨us, g', hr, hl, hu⟩ := draws53_rands hR k g
  have hus : ∀ u ∈ us, 0 ≤ u ∧ u < 1 := fun u h => ⟨(draw53 (hu u h)).1, (draw53 (hu u h)).2.1⟩
  rcases le_or_gt (2 ^ 54) |p| with hbig | hsmall
  · refine ⟨fun _ => C11_large_violated F R p hd hbig k g, fun hc => absurd ⟨?_, ?_⟩ hc⟩
    · have : (2 : K) ^ 53 < 2 ^ 54 := by norm_num
      rcases le_abs'.1 hbig with h | h
      · left; linarith
      · right; linarith
    · rcases le_or_gt 0 p with h | h
      · rw [abs_of_nonneg h] at hbig
        exact hd.four_dvd hbig
      · rw [abs_of_neg h] at hbig
        obtain ⟨m, hm⟩ := hd.neg.four_dvd hbig
        exact ⟨-m, by push_cast; linarith⟩
  by_cases hmid : p ≤ -2 ^ 53 ∨ 2 ^ 53 < p
  · -- the total is either 0 or 2
    have total : ∀ j : Int, (p = (j : K) * 2) →
        F.rnd (p + F.rnd (1 - p)) = if j % 2 = 0 then 0 else 2 := by
      intro j hj
      have h2 : IsDouble (2 : K) := by exact_mod_cast isDouble_int (K := K) 2 (by norm_num)
      rcases hmid with hm | hm
      · have hlt : -(2 : K) ^ 54 < p := (abs_lt.1 hsmall).1
        have j1 : j ≤ -2 ^ 52 := by
          have : (j : K) ≤ -2 ^ 52 := by
            rw [hj] at hm
            have : (-2 ^ 53 : K) = -2 ^ 52 * 2 := by norm_num
            rw [this] at hm
            exact le_of_mul_le_mul_right hm (by norm_num)
          exact_mod_cast this
        have j2 : -2 ^ 53 < j := by
          have : (-2 ^ 53 : K) < j := by
            rw [hj] at hlt
            have : (-2 ^ 54 : K) = -2 ^ 53 * 2 := by norm_num
            rw [this] at hlt
            exact lt_of_mul_lt_mul_right hlt (by norm_num)
          exact_mod_cast this
        have ht := F.tie (-j) 1 (by omega) (by omega) (by norm_num) (Or.inl (by omega))
        have e1 : (((-j : Int) : K) + 1 / 2) * 2 ^ (1 : Int) = 1 - p := by
          rw [hj, zpow_one]; push_cast; ring
        rw [e1, zpow_one] at ht
        rw [ht]
        by_cases hj2 : j % 2 = 0
        · rw [if_pos (by omega), if_pos hj2, hj]
          push_cast
          rw [neg_mul, add_neg_cancel, F.rnd_zero]
        · rw [if_neg (by omega), if_neg hj2, hj]
          push_cast
          rw [show (j : K) * 2 + (-(j : K) + 1) * 2 = 2 by ring, F.rnd_double h2]
      · have hlt : p < (2 : K) ^ 54 := (abs_lt.1 hsmall).2
        have j1 : 2 ^ 52 < j := by
          have : (2 ^ 52 : K) < j := by
            rw [hj] at hm
            have : (2 ^ 53 : K) = 2 ^ 52 * 2 := by norm_num
            rw [this] at hm
            exact lt_of_mul_lt_mul_right hm (by norm_num)
          exact_mod_cast this
        have j2 : j < 2 ^ 53 := by
          have : (j : K) < 2 ^ 53 := by
            rw [hj] at hlt
            have : (2 ^ 54 : K) = 2 ^ 53 * 2 := by norm_num
            rw [this] at hlt
            exact lt_of_mul_lt_mul_right hlt (by norm_num)
          exact_mod_cast this
        have ht := F.tie (j - 1) 1 (by omega) (by omega) (by norm_num) (Or.inl (by omega))
        have e1 : (((j - 1 : Int) : K) + 1 / 2) * 2 ^ (1 : Int) = -(1 - p) := by
          rw [hj, zpow_one]; push_cast; ring
        rw [e1, zpow_one, F.rnd_neg] at ht
        rw [← neg_neg (F.rnd (1 - p)), ht]
        by_cases hj2 : j % 2 = 0
        · rw [if_neg (by omega), if_pos hj2, hj, sub_add_cancel, add_neg_cancel, F.rnd_zero]
        · rw [if_pos (by omega), if_neg hj2, hj]
          push_cast
          rw [show (j : K) * 2 + -(((j : K) - 1) * 2) = 2 by ring, F.rnd_double h2]
    obtain ⟨j, hj⟩ : ∃ j : Int, p = (j : K) * 2 := by
      rcases hmid with hm | hm
      · obtain ⟨j, -, -, hj⟩ := hd.neg.even_form (by linarith) (by linarith [(abs_lt.1 hsmall).1])
        exact ⟨-j, by push_cast; linarith⟩
      · obtain ⟨j, -, -, hj⟩ := hd.even_form hm.le (abs_lt.1 hsmall).2
        exact ⟨j, hj⟩
    have hiff : (∃ m : Int, p = 4 * (m : K)) ↔ j % 2 = 0 := by
      constructor
      · rintro ⟨m, hm⟩
        have h1 : (j : K) = ((2 * m : Int) : K) := by push_cast; linarith
        have : j = 2 * m := by exact_mod_cast h1
        omega
      · intro h
        refine ⟨j / 2, ?_⟩
        have h1 : j = 2 * (j / 2) := by omega
        have h2 : (j : K) = 2 * ((j / 2 : Int) : K) := by exact_mod_cast congrArg (Int.cast (R := K)) h1
        rw [hj, h2]; ring
    have hrun := chanceFl_run R F.rnd p k g us g' hr
    rw [total j hj] at hrun
    constructor
    · rintro ⟨-, h4⟩
      rw [hrun, if_pos (hiff.1 h4), F.rnd_zero, if_pos le_rfl]
    · intro hc
      have hj2 : ¬ j % 2 = 0 := fun h => hc ⟨hmid, hiff.2 h⟩
      have h2 : IsDouble (2 : K) := by exact_mod_cast isDouble_int (K := K) 2 (by norm_num)
      refine ⟨us, g', hr, hl, hus, ?_⟩
      rw [hrun, if_neg hj2, F.rnd_double h2, if_neg (by norm_num)]
      congr 2
      refine List.map_congr_left fun u hu' => ?_
      have hb := hus u hu'
      rcases hmid with hm | hm
      · have hn := F.nonneg (mul_nonneg hb.1 (by norm_num : (0 : K) ≤ 2))
        have : (0 : K) < 2 ^ 53 := by positivity
        rw [decide_eq_false (by linarith), decide_eq_false (by linarith)]
      · have hle := F.le_of_le h2 (by linarith [hb.2] : u * 2 ≤ 2)
        have : (2 : K) < 2 ^ 53 := by norm_num
        rw [decide_eq_true (by linarith), decide_eq_true (by linarith)]
  · refine ⟨fun h => absurd h.1 hmid, fun _ => ?_⟩
    rw [not_or, not_le, not_lt] at hmid
    refine C11_float_partial F R hR p hd ?_ hmid.2 k g
    by_contra hc
    rw [not_le] at hc
    have hgap := hd.neg.gap (m := 2 ^ 53 - 1) (e := 0) (by norm_num) (by norm_num; linarith)
    norm_num at hgap
    linarith [hmid.1]

/-! ### Errors of a single rounding -/

section Errors
variable [FloorRing K]

/-- Up to a normal number `T` the error is at most `T / 2^53`, also for subnormal numbers. -/
theorem Rounding.abs_error (F : Rounding K) {x T : K} (h0 : 0 ≤ x) (hx : x ≤ T)
    (hT : 2 ^ (-1022 : Int) ≤ T) : |F.rnd x - x| ≤ T / 2 ^ 53 := by
  rcases le_or_gt (2 ^ (-1022 : Int)) x with h | h
  · have := F.rel_error (x := x) (by rwa [abs_of_nonneg h0])
    rw [abs_of_nonneg h0] at this
    exact this.trans (div_le_div_of_nonneg_right hx (by positivity))
  · have hp := two_zpow_pos (K := K) (-1074)
    have e1 : (2 : K) ^ (-1022 : Int) = 2 ^ 52 * 2 ^ (-1074 : Int) := by
      rw [show (2 : K) ^ 52 = 2 ^ (52 : Int) by norm_cast, ← zpow_add₀ (by norm_num)]
      norm_num
    have hz : 0 ≤ x / 2 ^ (-1074 : Int) := by positivity
    have hz2 : x / 2 ^ (-1074 : Int) < 2 ^ 53 := by
      rw [div_lt_iff₀ hp]
      rw [e1] at h
      generalize (2 : K) ^ (-1074 : Int) = q at *
      nlinarith
    have hd : IsDouble ((roundEven (x / 2 ^ (-1074 : Int)) : K) * 2 ^ (-1074 : Int)) :=
      ⟨_, _, roundEven_abs_le hz hz2, le_rfl, rfl⟩
    refine (F.nearest x _ hd).trans ?_
    have e2 : (roundEven (x / 2 ^ (-1074 : Int)) : K) * 2 ^ (-1074 : Int) - x =
        ((roundEven (x / 2 ^ (-1074 : Int)) : K) - x / 2 ^ (-1074 : Int)) * 2 ^ (-1074 : Int) := by
      field_simp
    rw [e2, abs_mul, abs_of_pos hp]
    refine (mul_le_mul_of_nonneg_right (roundEven_near _).1 hp.le).trans ?_
    rw [le_div_iff₀ (by positivity)]
    refine le_trans (le_of_eq ?_) hT
    rw [e1]
    ring

/-- The same for a number that is rounded to at most `T`. -/
theorem Rounding.abs_error' (F : Rounding K) {x T : K} (h0 : 0 ≤ x) (hd : IsDouble T)
    (hx : F.rnd x ≤ T) (hT : 2 ^ (-1022 : Int) < T) : |F.rnd x - x| ≤ T / 2 ^ 53 := by
  rcases le_or_gt x T with h | h
  · exact F.abs_error h0 h hT.le
  have hr : F.rnd x = T := le_antisymm hx (F.ge_of_ge hd h.le)
  obtain ⟨D, hD, h1, h2⟩ : ∃ D : K, IsDouble D ∧ T < D ∧ D - T ≤ 2 * (T / 2 ^ 53) := by
    obtain ⟨m, e, m0, m1, he, hm⟩ := hd.normal_form hT
    have hp := two_zpow_pos (K := K) e
    have hm0 : (2 : K) ^ 52 < m := by exact_mod_cast m0
    by_cases hc : m = 2 ^ 53
    · refine ⟨((2 ^ 52 + 1 : Int) : K) * 2 ^ (e + 1), ⟨_, _, by norm_num, by omega, rfl⟩, ?_, ?_⟩
      · rw [hm, hc, zpow_add₀ (by norm_num), zpow_one]; push_cast
        generalize (2 : K) ^ e = q at *
        nlinarith
      · rw [hm, hc, zpow_add₀ (by norm_num), zpow_one]; push_cast
        apply le_of_eq; field_simp; ring
    · refine ⟨((m + 1 : Int) : K) * 2 ^ e, ⟨_, _, ?_, he, rfl⟩, ?_, ?_⟩
      · rw [abs_of_nonneg (by omega)]; omega
      · rw [hm]; push_cast; linarith
      · rw [hm]; push_cast
        have : 2 * ((m : K) * 2 ^ e / 2 ^ 53) = (m / 2 ^ 52) * 2 ^ e := by field_simp
        rw [this, add_mul, add_sub_cancel_left]
        refine mul_le_mul_of_nonneg_right ?_ hp.le
        rw [one_le_div (by positivity)]; exact hm0.le
  rcases le_or_gt D x with h3 | h3
  · have := F.ge_of_ge hD h3; linarith
  · have h4 := F.nearest x D hD
    rw [hr] at h4 ⊢
    rw [abs_of_neg (by linarith), abs_of_pos (by linarith)] at h4
    rw [abs_of_neg (by linarith)]
    linarith

end Errors

/-! ### Counting draws -/

/-- The part of the `2^53` equally likely values of `random()` for which `P` holds. -/
def drawsWith (P : K → Prop) [DecidablePred P] : K :=
  (((Finset.range (2 ^ 53)).filter fun j : Nat => P ((j : K) / 2 ^ 53)).card : K) / 2 ^ 53

section Count
variable [FloorRing K]

/-- The draws with `fl (u * T) < C`. -/
theorem draws_below (F : Rounding K) {C T : K} (hC : IsDouble C) (hC0 : 0 ≤ C) (hCT : C ≤ T)
    (hT : 2 ^ (-1022 : Int) < T) :
    |drawsWith (fun u : K => F.rnd (u * T) < C) - C / T| ≤ 1 / 2 ^ 53 := by
  have hT0 : 0 < T := (two_zpow_pos _).trans hT
  set c : K := C / T * 2 ^ 53 with hc
  have hc0 : 0 ≤ c := by positivity
  have hcN : ⌈c⌉₊ ≤ 2 ^ 53 := by
    refine Nat.ceil_le.2 ?_
    have : C / T ≤ 1 := (div_le_one hT0).2 hCT
    push_cast
    rw [hc]
    nlinarith [pow_pos (two_pos (α := K)) 53]
  -- u T < C iff j < c
  have hj : ∀ j : K, j / 2 ^ 53 * T < C ↔ j < c := by
    intro j
    rw [hc, ← div_lt_iff₀ (by positivity), lt_div_iff₀ hT0]
  have hup : ((Finset.range (2 ^ 53)).filter fun j : Nat => F.rnd ((j : K) / 2 ^ 53 * T) < C) ⊆
      Finset.range ⌈c⌉₊ := by
    intro j hjm
    rw [Finset.mem_filter] at hjm
    rw [Finset.mem_range, Nat.lt_ceil, ← hj]
    by_contra hcon
    exact absurd (F.ge_of_ge hC (not_lt.1 hcon)) (not_le.2 hjm.2)
  have hlo : Finset.range (⌈c⌉₊ - 1) ⊆
      ((Finset.range (2 ^ 53)).filter fun j : Nat => F.rnd ((j : K) / 2 ^ 53 * T) < C) := by
    intro j hjm
    rw [Finset.mem_range] at hjm
    have h1 : j + 1 < ⌈c⌉₊ := by omega
    have h2 := (hj _).2 (Nat.lt_ceil.1 h1)
    rw [Finset.mem_filter, Finset.mem_range]
    refine ⟨by omega, ?_⟩
    have h3 : (0 : K) ≤ (j : K) / 2 ^ 53 * T := by positivity
    have h4 : ((j + 1 : Nat) : K) / 2 ^ 53 * T = (j : K) / 2 ^ 53 * T + T / 2 ^ 53 := by
      push_cast; ring
    rw [h4] at h2
    have h5 : (0 : K) < T / 2 ^ 53 := by positivity
    have h6 := (abs_le.1 (F.abs_error h3 (by linarith) hT.le)).2
    linarith
  have c1 := Finset.card_le_card hup
  have c2 := Finset.card_le_card hlo
  rw [Finset.card_range] at c1 c2
  have d1 : ((((Finset.range (2 ^ 53)).filter
      fun j : Nat => F.rnd ((j : K) / 2 ^ 53 * T) < C).card : Nat) : K) ≤ (⌈c⌉₊ : K) := by
    exact_mod_cast c1
  have d2 : (⌈c⌉₊ : K) ≤ ((((Finset.range (2 ^ 53)).filter
      fun j : Nat => F.rnd ((j : K) / 2 ^ 53 * T) < C).card : Nat) : K) + 1 := by
    have : ⌈c⌉₊ ≤ ((Finset.range (2 ^ 53)).filter
      fun j : Nat => F.rnd ((j : K) / 2 ^ 53 * T) < C).card + 1 := by omega
    exact_mod_cast this
  have d3 := Nat.le_ceil c
  have d4 := Nat.ceil_lt_add_one hc0
  have e1 : C / T = c / 2 ^ 53 := by rw [hc]; field_simp
  unfold drawsWith
  rw [e1, ← sub_div, abs_div, abs_of_pos (by positivity : (0 : K) < 2 ^ 53)]
  refine div_le_div_of_nonneg_right ?_ (by positivity)
  rw [abs_le]
  constructor <;> linarith

omit [LinearOrder K] [IsStrictOrderedRing K] [FloorRing K] in
theorem drawsWith_congr {P Q : K → Prop} [DecidablePred P] [DecidablePred Q]
    (h : ∀ j < 2 ^ 53, P (((j : Nat) : K) / 2 ^ 53) ↔ Q ((j : K) / 2 ^ 53)) :
    drawsWith P = drawsWith Q := by
  have := Finset.filter_congr (s := Finset.range (2 ^ 53)) fun j hj => h j (Finset.mem_range.1 hj)
  unfold drawsWith
  rw [this]

omit [IsStrictOrderedRing K] [FloorRing K] in
theorem card_between (s : Finset Nat) (f : Nat → K) {A B : K} (h : A ≤ B) :
    ((s.filter fun j => A ≤ f j ∧ f j < B).card : K) =
      ((s.filter fun j => f j < B).card : K) - ((s.filter fun j => f j < A).card : K) := by
  have hsub : (s.filter fun j => f j < A) ⊆ (s.filter fun j => f j < B) := by
    intro j hj
    rw [Finset.mem_filter] at hj ⊢
    exact ⟨hj.1, hj.2.trans_le h⟩
  have heq : (s.filter fun j => A ≤ f j ∧ f j < B) =
      (s.filter fun j => f j < B) \ (s.filter fun j => f j < A) := by
    ext j
    simp only [Finset.mem_filter, Finset.mem_sdiff, not_and, not_lt]
    tauto
  rw [heq, Finset.card_sdiff_of_subset hsub, Nat.cast_sub (Finset.card_le_card hsub)]

omit [IsStrictOrderedRing K] [FloorRing K] in
/-- The draws between two bounds are those below the upper without those below the lower one. -/
theorem draws_between (f : K → K) {A B : K} (h : A ≤ B) :
    drawsWith (fun u => A ≤ f u ∧ f u < B) =
      drawsWith (fun u => f u < B) - drawsWith (fun u => f u < A) := by
  unfold drawsWith
  rw [← sub_div]
  exact congrArg (· / 2 ^ 53)
    (card_between (Finset.range (2 ^ 53)) (fun j : Nat => f ((j : K) / 2 ^ 53)) h)

/-- The probability of falling between two doubles, compared with exact arithmetic. -/
theorem draws_interval (F : Rounding K) {A B T : K} (hA : IsDouble A) (hB : IsDouble B)
    (hA0 : 0 ≤ A) (hAB : A ≤ B) (hBT : B ≤ T) (hT : 2 ^ (-1022 : Int) < T) :
    |drawsWith (fun u : K => A ≤ F.rnd (u * T) ∧ F.rnd (u * T) < B) - (B - A) / T| ≤ 2 / 2 ^ 53 := by
  rw [draws_between _ hAB]
  have h1 := abs_le.1 (draws_below F hB (hA0.trans hAB) hBT hT)
  have h2 := abs_le.1 (draws_below F hA hA0 (hAB.trans hBT) hT)
  rw [abs_le, sub_div]
  have e : (2 : K) / 2 ^ 53 = 1 / 2 ^ 53 + 1 / 2 ^ 53 := by ring
  rw [e]
  constructor <;> linarith [h1.1, h1.2, h2.1, h2.2]

/-! ### Without weights -/

/-- **C79 (without weights).** In a list of up to `2^53` items each one is picked by a fraction of
the possible draws that differs from `1/n` by at most `2^-52`. -/
theorem C79_uniform (F : Rounding K) (n : Nat) (hn : n ≤ 2 ^ 53) (i : Nat) (hi : i < n) :
    |drawsWith (fun u : K => uniformPickFl F.rnd n u = i) - 1 / (n : K)| ≤ 2 / 2 ^ 53 := by
  have hd : ∀ m : Nat, m ≤ n → IsDouble (m : K) := fun m hm => by
    exact_mod_cast isDouble_int (K := K) (m : Int) (by rw [abs_of_nonneg] <;> omega)
  have h1n : (1 : K) ≤ n := by exact_mod_cast (by omega : 1 ≤ n)
  have hT : (2 : K) ^ (-1022 : Int) < n :=
    lt_of_lt_of_le (zpow_lt_one_of_neg₀ (by norm_num) (by norm_num)) h1n
  have hk := draws_interval F (A := ((i : Nat) : K)) (B := ((i + 1 : Nat) : K)) (T := n)
    (hd _ hi.le) (hd _ hi) (by positivity) (by push_cast; linarith) (by exact_mod_cast hi) hT
  have e1 : (((i + 1 : Nat) : K) - i) = 1 := by push_cast; ring
  rw [e1] at hk
  rw [drawsWith_congr (Q := fun u : K => (i : K) ≤ F.rnd (u * n) ∧ F.rnd (u * n) < ((i + 1 : Nat) : K))]
  · exact hk
  intro j _
  unfold uniformPickFl
  rw [F.rnd_double (hd n le_rfl)]
  have h0 : 0 ≤ ⌊F.rnd ((j : K) / 2 ^ 53 * n)⌋ := Int.floor_nonneg.2 (F.nonneg (by positivity))
  have : ⌊F.rnd ((j : K) / 2 ^ 53 * n)⌋.toNat = i ↔ ⌊F.rnd ((j : K) / 2 ^ 53 * n)⌋ = (i : Int) := by
    omega
  rw [this, Int.floor_eq_iff]
  push_cast
  rfl

/-! ### With weights -/

omit [FloorRing K] in
theorem accumulateFl_mono (F : Rounding K) (ws : List K) (h0 : ∀ w ∈ ws, 0 ≤ w)
    (hd : ∀ w ∈ ws, IsDouble w) {i j : Nat} (hij : i ≤ j) (hj : j < ws.length) :
    (accumulateFl F.rnd ws).getD i 0 ≤ (accumulateFl F.rnd ws).getD j 0 := by
  induction j, hij using Nat.le_induction with
  | base => exact le_rfl
  | succ j hij ih =>
    refine (ih (by omega)).trans ?_
    rw [accumulateFl_step _ _ _ hj]
    refine F.ge_of_ge (accumulateFl_double F ws hd j (by omega)) ?_
    have : ws.getD (j + 1) 0 ∈ ws := by
      rw [List.getD_eq_getElem _ _ hj]; exact List.getElem_mem _
    linarith [h0 _ this]

omit [LinearOrder K] [IsStrictOrderedRing K] [FloorRing K] in
theorem accumulateFl_zero (fl : K → K) (ws : List K) :
    (accumulateFl fl ws).getD 0 0 = ws.getD 0 0 := by cases ws <;> rfl

omit [FloorRing K] in
/-- Which draws select position `i`. -/
theorem pickFl_iff (F : Rounding K) (ws : List K) (h0 : ∀ w ∈ ws, 0 ≤ w)
    (hd : ∀ w ∈ ws, IsDouble w) (ht : 2 ^ (-1022 : Int) < (accumulateFl F.rnd ws).getLastD 0)
    (u : K) (hu : u ≤ 1 - 1 / 2 ^ 53) (i : Nat) (hi : i < ws.length) :
    choicesPickFl F.rnd (accumulateFl F.rnd ws) u = i ↔
      (i = 0 ∨ (accumulateFl F.rnd ws).getD (i - 1) 0 ≤
        F.rnd (u * (accumulateFl F.rnd ws).getLastD 0)) ∧
      F.rnd (u * (accumulateFl F.rnd ws).getLastD 0) < (accumulateFl F.rnd ws).getD i 0 := by
  have hlast : IsDouble ((accumulateFl F.rnd ws).getLastD 0) := by
    have := accumulateFl_double F ws hd (ws.length - 1) (by omega)
    rw [List.getLastD_eq_getLast?, List.getLast?_eq_getElem?, accumulateFl_length,
      ← List.getD_eq_getElem?_getD]
    exact this
  have hrl := F.rnd_double hlast
  have hx := scaled_lt F _ u (by rwa [hrl]) hu
  have hc : accumulateFl F.rnd ws ≠ [] := by
    intro h; rw [← List.length_eq_zero_iff, accumulateFl_length] at h; omega
  obtain ⟨i1, i2, i3⟩ := bisect_below _ _ hc hx
  unfold choicesPickFl
  rw [accumulateFl_length] at i1 i2 i3 ⊢
  rw [hrl] at i1 i2 i3 ⊢
  generalize bisect (accumulateFl F.rnd ws)
    (F.rnd (u * (accumulateFl F.rnd ws).getLastD 0)) (ws.length - 1) = b at *
  constructor
  · rintro rfl; exact ⟨i2, i3⟩
  · rintro ⟨a1, a2⟩
    by_contra hne
    rcases lt_or_gt_of_ne hne with h | h
    · rcases a1 with a1 | a1
      · omega
      · have := accumulateFl_mono F ws h0 hd (i := b) (j := i - 1) (by omega) (by omega)
        linarith
    · rcases i2 with i2 | i2
      · omega
      · have := accumulateFl_mono F ws h0 hd (i := i) (j := b - 1) (by omega) (by omega)
        linarith

/-- **C79 (weights).** Weights that are doubles, none negative, with a normal float total: item `i`
of `n` is picked by a fraction of the possible draws that differs from `weights[i] / sum(weights)`,
computed exactly, by at most `(n + 2) / 2^53`. -/
theorem C79_weighted (F : Rounding K) (ws : List K) (h0 : ∀ w ∈ ws, 0 ≤ w)
    (hd : ∀ w ∈ ws, IsDouble w) (ht : 2 ^ (-1022 : Int) < (accumulateFl F.rnd ws).getLastD 0)
    (i : Nat) (hi : i < ws.length) :
    |drawsWith (fun u : K => choicesPickFl F.rnd (accumulateFl F.rnd ws) u = i) -
      ws.getD i 0 / ws.sum| ≤ ((ws.length : K) + 2) / 2 ^ 53 := by
  have hne : ws ≠ [] := by rintro rfl; simp at hi
  set cum := accumulateFl F.rnd ws with hcum
  set T := cum.getLastD 0 with hTdef
  have hTlast : T = cum.getD (ws.length - 1) 0 := by
    rw [hTdef, List.getLastD_eq_getLast?, List.getLast?_eq_getElem?, accumulateFl_length,
      ← List.getD_eq_getElem?_getD]
  have hT0 : 0 < T := (two_zpow_pos _).trans ht
  have hcd : ∀ j < ws.length, IsDouble (cum.getD j 0) := accumulateFl_double F ws hd
  have hle : ∀ j < ws.length, cum.getD j 0 ≤ T := fun j hj => by
    rw [hTlast]; exact accumulateFl_mono F ws h0 hd (by omega) (by omega)
  have hw0 : ∀ j < ws.length, 0 ≤ ws.getD j 0 := fun j hj => by
    rw [List.getD_eq_getElem _ _ hj]; exact h0 _ (List.getElem_mem _)
  have hc0 : ∀ j < ws.length, 0 ≤ cum.getD j 0 := fun j hj => by
    refine le_trans ?_ (accumulateFl_mono F ws h0 hd (Nat.zero_le j) hj)
    rw [accumulateFl_zero]; exact hw0 0 (by omega)
  have hTd : IsDouble T := by rw [hTlast]; exact hcd _ (by omega)
  -- one step of the running sum
  have hstep : ∀ j, j + 1 < ws.length →
      |cum.getD (j + 1) 0 - (cum.getD j 0 + ws.getD (j + 1) 0)| ≤ T / 2 ^ 53 := by
    intro j hj
    have hs := accumulateFl_step F.rnd ws j hj
    rw [← hcum] at hs
    rw [hs]
    refine F.abs_error' (add_nonneg (hc0 j (by omega)) (hw0 _ hj)) hTd ?_ ht
    rw [← hs]; exact hle _ hj
  -- the total
  have htot : ∀ j < ws.length, |cum.getD j 0 - (ws.take (j + 1)).sum| ≤ j * (T / 2 ^ 53) := by
    intro j
    induction j with
    | zero =>
      intro hj
      rw [hcum, accumulateFl_zero]
      cases ws with
      | nil => simp at hj
      | cons w ws => simp
    | succ j ih =>
      intro hj
      have h1 := abs_le.1 (ih (by omega))
      have h2 := abs_le.1 (hstep j hj)
      have h3 : (ws.take (j + 1 + 1)).sum = (ws.take (j + 1)).sum + ws.getD (j + 1) 0 :=
        take_succ_sum _ _ hj
      rw [abs_le, h3]
      push_cast
      constructor <;> linarith [h1.1, h1.2, h2.1, h2.2]
  have hTW := htot (ws.length - 1) (by omega)
  rw [← hTlast, show ws.length - 1 + 1 = ws.length by omega, List.take_length] at hTW
  have hlen : ((ws.length - 1 : Nat) : K) = (ws.length : K) - 1 := by
    rw [Nat.cast_sub (by omega)]; simp
  rw [hlen] at hTW
  set W := ws.sum with hW
  have hwW : ws.getD i 0 ≤ W := by
    rw [List.getD_eq_getElem _ _ hi]
    exact List.single_le_sum h0 _ (List.getElem_mem _)
  have hW0 : 0 < W := by
    have h := (C10_float F ws hne h0 hd ht 0 le_rfl (by norm_num))
    refine h.2.trans_le ?_
    rw [List.getD_eq_getElem _ _ h.1]
    exact List.single_le_sum h0 _ (List.getElem_mem _)
  have hEps : (0 : K) < 1 / 2 ^ 53 := by positivity
  -- the selecting draws
  have hsel : |drawsWith (fun u : K => choicesPickFl F.rnd cum u = i) - ws.getD i 0 / T| ≤
      3 / 2 ^ 53 := by
    have hrange : ∀ j < 2 ^ 53, ((j : Nat) : K) / 2 ^ 53 ≤ 1 - 1 / 2 ^ 53 := fun j hj =>
      (draw53 ⟨j, hj, rfl⟩).2.2.1
    rcases Nat.eq_zero_or_pos i with rfl | hpos
    · have hk := draws_below F (hcd 0 hi) (hc0 0 hi) (hle 0 hi) ht
      have e : drawsWith (fun u : K => choicesPickFl F.rnd cum u = 0) =
          drawsWith (fun u : K => F.rnd (u * T) < cum.getD 0 0) := by
        refine drawsWith_congr fun j hj => ?_
        rw [pickFl_iff F ws h0 hd ht _ (hrange j hj) 0 hi]
        simp [hTdef, hcum]
      rw [e]
      have e2 : cum.getD 0 0 = ws.getD 0 0 := accumulateFl_zero _ _
      rw [e2] at hk ⊢
      exact hk.trans (div_le_div_of_nonneg_right (by norm_num) (by positivity))
    · obtain ⟨j, rfl⟩ : ∃ j, i = j + 1 := ⟨i - 1, by omega⟩
      have hk := draws_interval F (hcd j (by omega)) (hcd (j + 1) hi) (hc0 j (by omega))
        (accumulateFl_mono F ws h0 hd (by omega) hi) (hle (j + 1) hi) ht
      have e : drawsWith (fun u : K => choicesPickFl F.rnd cum u = j + 1) =
          drawsWith (fun u : K => cum.getD j 0 ≤ F.rnd (u * T) ∧
            F.rnd (u * T) < cum.getD (j + 1) 0) := by
        refine drawsWith_congr fun l hl => ?_
        rw [pickFl_iff F ws h0 hd ht _ (hrange l hl) (j + 1) hi]
        simp [hTdef, hcum]
      rw [e]
      have h2 : |(cum.getD (j + 1) 0 - cum.getD j 0) / T - ws.getD (j + 1) 0 / T| ≤ 1 / 2 ^ 53 := by
        rw [← sub_div, abs_div, abs_of_pos hT0, div_le_iff₀ hT0]
        have := hstep j hi
        rw [show cum.getD (j + 1) 0 - cum.getD j 0 - ws.getD (j + 1) 0 =
          cum.getD (j + 1) 0 - (cum.getD j 0 + ws.getD (j + 1) 0) by ring]
        refine this.trans (le_of_eq (by ring))
      have a1 := abs_le.1 hk
      have a2 := abs_le.1 h2
      rw [abs_le, show (3 : K) / 2 ^ 53 = 2 / 2 ^ 53 + 1 / 2 ^ 53 by ring]
      constructor <;> linarith [a1.1, a1.2, a2.1, a2.2]
  have hshare : |ws.getD i 0 / T - ws.getD i 0 / W| ≤ ((ws.length : K) - 1) / 2 ^ 53 := by
    have e : ws.getD i 0 / T - ws.getD i 0 / W = ws.getD i 0 / W * ((W - T) / T) := by
      field_simp
    have b1 : 0 ≤ ws.getD i 0 / W := div_nonneg (hw0 i hi) hW0.le
    have b2 : ws.getD i 0 / W ≤ 1 := (div_le_one hW0).2 hwW
    have b3 : |(W - T) / T| ≤ ((ws.length : K) - 1) / 2 ^ 53 := by
      rw [abs_div, abs_of_pos hT0, div_le_iff₀ hT0, abs_sub_comm]
      refine hTW.trans (le_of_eq (by ring))
    rw [e, abs_mul, abs_of_nonneg b1]
    calc ws.getD i 0 / W * |(W - T) / T| ≤ 1 * |(W - T) / T| :=
          mul_le_mul_of_nonneg_right b2 (abs_nonneg _)
      _ = |(W - T) / T| := one_mul _
      _ ≤ _ := b3
  have a1 := abs_le.1 hsel
  have a2 := abs_le.1 hshare
  rw [abs_le, show ((ws.length : K) + 2) / 2 ^ 53 = 3 / 2 ^ 53 + ((ws.length : K) - 1) / 2 ^ 53 by
    ring]
  constructor <;> linarith [a1.1, a1.2, a2.1, a2.2]

/-! ### `chance` -/

/-- **C79 (chance).** For a probability `p` the values `True` of `chance(p)` come from exactly
`⌈p * 2^53⌉` of the `2^53` possible draws: from a fraction `p` of them if `p` is a multiple of
`2^-53`, and never from a fraction smaller than `p` or larger than `p + 2^-53`. -/
theorem C79_chance (F : Rounding K) (p : K) (hd : IsDouble p) (h0 : 0 ≤ p) (h1 : p ≤ 1) :
    drawsWith (fun u : K => choicesPickFl F.rnd (accumulateFl F.rnd [p, F.rnd (1 - p)]) u = 0) =
      (⌈p * 2 ^ 53⌉₊ : K) / 2 ^ 53 := by
  have hset : ((Finset.range (2 ^ 53)).filter fun j : Nat =>
      choicesPickFl F.rnd (accumulateFl F.rnd [p, F.rnd (1 - p)]) ((j : K) / 2 ^ 53) = 0) =
      Finset.range ⌈p * 2 ^ 53⌉₊ := by
    ext j
    rw [Finset.mem_filter, Finset.mem_range, Finset.mem_range, Nat.lt_ceil]
    have hN : j < 2 ^ 53 → ((j : K) / 2 ^ 53 < p ↔ (j : K) < p * 2 ^ 53) := fun _ =>
      div_lt_iff₀ (by positivity)
    have hp : j < 2 ^ 53 → (choicesPickFl F.rnd (accumulateFl F.rnd [p, F.rnd (1 - p)])
        ((j : K) / 2 ^ 53) = 0 ↔ (j : K) / 2 ^ 53 < p) := by
      intro hj
      simp only [accumulateFl, accumulateFlFrom]
      rw [pickFl_two, chance_total F p hd h0 (h1.trans (by norm_num)), F.rnd_double isDouble_one,
        mul_one, F.rnd_double (draw53 ⟨j, hj, rfl⟩).2.2.2]
      split <;> simp_all
    constructor
    · rintro ⟨a, b⟩
      exact (hN a).1 ((hp a).1 b)
    · intro a
      have hj : j < 2 ^ 53 := by
        have h3 : p * 2 ^ 53 ≤ 2 ^ 53 := mul_le_of_le_one_left (by positivity) h1
        have : (j : K) < ((2 ^ 53 : Nat) : K) := by push_cast; linarith
        exact_mod_cast this
      exact ⟨hj, (hp hj).2 ((hN hj).2 a)⟩
  unfold drawsWith
  rw [hset, Finset.card_range]

end Count

/-! ### Concrete cases -/

/-- `chance(0.75)` is `True` for exactly three quarters of the draws. -/
example : drawsWith (fun u : ℚ => choicesPickFl (rounding ℚ).rnd
    (accumulateFl (rounding ℚ).rnd [3 / 4, (rounding ℚ).rnd (1 - 3 / 4)]) u = 0) = 3 / 4 := by
  rw [C79_chance (rounding ℚ) (3 / 4) ⟨3, -2, by norm_num, by norm_num, by norm_num⟩ (by norm_num)
    (by norm_num)]
  have : ⌈(3 / 4 * 2 ^ 53 : ℚ)⌉₊ = 3 * 2 ^ 51 := by
    rw [show (3 / 4 * 2 ^ 53 : ℚ) = ((3 * 2 ^ 51 : Nat) : ℚ) by norm_num, Nat.ceil_natCast]
  rw [this]; norm_num

/-- Ten items: each comes with probability 1/10, up to `2^-52`. -/
example : |drawsWith (fun u : ℚ => uniformPickFl (rounding ℚ).rnd 10 u = 3) - 1 / 10| ≤ 2 / 2 ^ 53 :=
  mod_cast C79_uniform (K := ℚ) (rounding ℚ) 10 (by norm_num) 3 (by norm_num)

/-- Weights 1, 2, 4. -/
example : |drawsWith (fun u : ℚ => choicesPickFl (rounding ℚ).rnd
    (accumulateFl (rounding ℚ).rnd [1, 2, 4]) u = 1) - 2 / 7| ≤ 5 / 2 ^ 53 := by
  have h := C79_weighted (K := ℚ) (rounding ℚ) [1, 2, 4] (by simp) (by
      intro w hw
      simp only [List.mem_cons, List.not_mem_nil, or_false] at hw
      rcases hw with rfl | rfl | rfl
      · exact isDouble_one
      · exact ⟨2, 0, by norm_num⟩
      · exact ⟨4, 0, by norm_num⟩)
    (by
      have : (accumulateFl (rounding ℚ).rnd [1, 2, 4]).getLastD 0 = 7 := by decide +kernel
      rw [this]
      exact lt_of_lt_of_le (zpow_lt_one_of_neg₀ (by norm_num) (by norm_num)) (by norm_num))
    1 (by simp)
  norm_num at h ⊢
  exact h

/-- `2^53 + 2` is no multiple of four: `chance` works; `2^53 + 4` makes it fail. -/
example (g : halfRng.G) :
    (∃ us g', chanceFl halfRng (rounding ℚ).rnd (2 ^ 53 + 2) 2 g = (.ok us, g')) ∧
    chanceFl halfRng (rounding ℚ).rnd (2 ^ 53 + 4) 2 g = (.error .valueError, g) := by
  constructor
  · obtain ⟨us, g', -, -, -, h⟩ := (C11_float_iff (rounding ℚ) halfRng halfRng_draws (2 ^ 53 + 2)
      ⟨2 ^ 52 + 1, 1, by norm_num, by norm_num, by norm_num⟩ 2 g).2 (by
        rintro ⟨-, m, hm⟩
        have : (2 ^ 53 + 2 : Int) = 4 * m := by exact_mod_cast hm
        omega)
    exact ⟨_, _, h⟩
  · exact (C11_float_iff (rounding ℚ) halfRng halfRng_draws (2 ^ 53 + 4)
      ⟨2 ^ 52 + 2, 1, by norm_num, by norm_num, by norm_num⟩ 2 g).1
        ⟨Or.inr (by norm_num), 2 ^ 51 + 1, by norm_num⟩

end Fauxdoc
