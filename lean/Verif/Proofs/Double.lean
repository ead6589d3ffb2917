import Verif.Py.Double
import Mathlib.Algebra.Order.Ring.Abs
import Mathlib.Tactic.Linarith
import Mathlib.Tactic.Ring
import Mathlib.Tactic.FieldSimp
import Mathlib.Tactic.NormNum
import Mathlib.Tactic.Positivity
/-
Facts about doubles and rounding, for every rounding function that satisfies the IEEE laws, and a
function that does.
-/
namespace Fauxdoc

variable {K : Type} [Field K] [LinearOrder K] [IsStrictOrderedRing K]

theorem two_zpow_pos (e : Int) : (0 : K) < 2 ^ e := zpow_pos (by norm_num) e

omit [LinearOrder K] [IsStrictOrderedRing K] in
theorem isDouble_int (m : Int) (h : |m| ≤ 2 ^ 53) : IsDouble (m : K) :=
  ⟨m, 0, h, by norm_num, by simp⟩

omit [LinearOrder K] [IsStrictOrderedRing K] in
theorem isDouble_zero : IsDouble (0 : K) := by simpa using isDouble_int (K := K) 0 (by norm_num)

omit [LinearOrder K] [IsStrictOrderedRing K] in
theorem isDouble_one : IsDouble (1 : K) := by simpa using isDouble_int (K := K) 1 (by norm_num)

omit [LinearOrder K] [IsStrictOrderedRing K] in
theorem IsDouble.neg {x : K} (h : IsDouble x) : IsDouble (-x) := by
  obtain ⟨m, e, h1, h2, h3⟩ := h
  exact ⟨-m, e, by rwa [abs_neg], h2, by rw [h3]; push_cast; ring⟩

/-- A positive double is `m * 2^e` with `0 < m`. -/
theorem IsDouble.pos_form {x : K} (h : IsDouble x) (hx : 0 < x) :
    ∃ m e : Int, 0 < m ∧ m ≤ 2 ^ 53 ∧ -1074 ≤ e ∧ x = (m : K) * 2 ^ e := by
  obtain ⟨m, e, h1, h2, h3⟩ := h
  refine ⟨m, e, ?_, (abs_le.1 h1).2, h2, h3⟩
  rw [h3] at hx
  have : (0 : K) < m := (mul_pos_iff_of_pos_right (two_zpow_pos e)).1 hx
  exact_mod_cast this

/-- A double above the least normal number is `m * 2^e` with `2^52 < m ≤ 2^53`. -/
theorem IsDouble.normal_form {x : K} (h : IsDouble x) (hx : 2 ^ (-1022 : Int) < x) :
    ∃ m e : Int, 2 ^ 52 < m ∧ m ≤ 2 ^ 53 ∧ -1074 ≤ e ∧ x = (m : K) * 2 ^ e := by
  obtain ⟨m, e, h0, h1, h2, h3⟩ := h.pos_form ((two_zpow_pos _).trans hx)
  -- double m until it is large enough; the exponent cannot reach its minimum before
  have key : ∀ d : Nat, ∀ m e : Int, (2 ^ 52 - m).toNat ≤ d → 0 < m → m ≤ 2 ^ 53 → -1074 ≤ e →
      x = (m : K) * 2 ^ e → ∃ m e : Int, 2 ^ 52 < m ∧ m ≤ 2 ^ 53 ∧ -1074 ≤ e ∧
        x = (m : K) * 2 ^ e := by
    intro d
    induction d with
    | zero =>
      intro m e hd h0 h1 h2 h3
      by_cases hm : 2 ^ 52 < m
      · exact ⟨m, e, hm, h1, h2, h3⟩
      · have hm' : m = 2 ^ 52 := by omega
        have he : -1074 < e := by
          rcases lt_or_eq_of_le h2 with h | h
          · exact h
          · exfalso
            rw [h3, hm', ← h] at hx
            have e1 : (2 : K) ^ (-1022 : Int) = 2 ^ (52 : Int) * 2 ^ (-1074 : Int) := by
              rw [← zpow_add₀ (by norm_num)]; norm_num
            rw [e1] at hx
            push_cast at hx
            exact lt_irrefl _ (by exact_mod_cast hx)
        refine ⟨2 * m, e - 1, by omega, by omega, by omega, ?_⟩
        rw [h3, zpow_sub₀ (by norm_num)]; push_cast; field_simp
    | succ d ih =>
      intro m e hd h0 h1 h2 h3
      by_cases hm : 2 ^ 52 < m
      · exact ⟨m, e, hm, h1, h2, h3⟩
      · have he : -1074 < e := by
          rcases lt_or_eq_of_le h2 with h | h
          · exact h
          · exfalso
            rw [h3, ← h] at hx
            have e1 : (2 : K) ^ (-1022 : Int) = 2 ^ (52 : Int) * 2 ^ (-1074 : Int) := by
              rw [← zpow_add₀ (by norm_num)]; norm_num
            rw [e1] at hx
            have h4 := lt_of_mul_lt_mul_right hx (two_zpow_pos _).le
            have h5 : (2 : Int) ^ 52 < m := by exact_mod_cast h4
            omega
        refine ih (2 * m) (e - 1) (by omega) (by omega) (by omega) (by omega) ?_
        rw [h3, zpow_sub₀ (by norm_num)]; push_cast; field_simp
  exact key _ m e le_rfl h0 h1 h2 h3

/-- There is no double strictly between `m * 2^e` and `(m+1) * 2^e` once `m` has 53 bits. -/
theorem IsDouble.gap {y : K} (hy : IsDouble y) {m e : Int} (hm : 2 ^ 52 ≤ m)
    (h : (m : K) * 2 ^ e < y) : ((m + 1 : Int) : K) * 2 ^ e ≤ y := by
  obtain ⟨m', e', h1, h2, rfl⟩ := hy
  have hp := two_zpow_pos (K := K) e
  rcases le_or_gt e e' with hee | hee
  · obtain ⟨d, hd⟩ := Int.eq_ofNat_of_zero_le (sub_nonneg.2 hee)
    have e1 : (m' : K) * 2 ^ e' = ((m' * 2 ^ d : Int) : K) * 2 ^ e := by
      have e1 : e' = (d : Int) + e := by omega
      rw [e1, zpow_add₀ (by norm_num)]; push_cast; rw [zpow_natCast]; ring
    rw [e1] at h ⊢
    have h3 := lt_of_mul_lt_mul_right h hp.le
    have h4 : m < m' * 2 ^ d := by exact_mod_cast h3
    have h5 : ((m + 1 : Int) : K) ≤ ((m' * 2 ^ d : Int) : K) := by exact_mod_cast h4
    exact mul_le_mul_of_nonneg_right h5 hp.le
  · exfalso
    have h3 : (m' : K) ≤ 2 ^ 53 := by
      have := (abs_le.1 h1).2
      exact_mod_cast this
    have h4 : (2 : K) ^ 53 * 2 ^ e' = 2 ^ (53 + e') := by
      rw [zpow_add₀ (by norm_num)]; norm_num
    have h5 : (2 : K) ^ 52 * 2 ^ e = 2 ^ (52 + e) := by
      rw [zpow_add₀ (by norm_num)]; norm_num
    have h6 : (2 : K) ^ 52 ≤ m := by exact_mod_cast hm
    have h7 := mul_le_mul_of_nonneg_right h3 (two_zpow_pos (K := K) e').le
    have h8 := mul_le_mul_of_nonneg_right h6 hp.le
    rw [h4] at h7
    rw [h5] at h8
    have h9 : (2 : K) ^ (53 + e') ≤ 2 ^ (52 + e) := zpow_le_zpow_right₀ (by norm_num) (by omega)
    linarith

namespace Rounding

variable (F : Rounding K)

/-- A double is left alone. -/
theorem rnd_double {x : K} (h : IsDouble x) : F.rnd x = x := by
  have := F.nearest x x h
  rw [sub_self, abs_zero] at this
  exact sub_eq_zero.1 (abs_eq_zero.1 (le_antisymm this (abs_nonneg _)))

@[simp] theorem rnd_rnd (x : K) : F.rnd (F.rnd x) = F.rnd x := F.rnd_double (F.isDouble x)

@[simp] theorem rnd_zero : F.rnd 0 = 0 := F.rnd_double isDouble_zero

@[simp] theorem rnd_one : F.rnd 1 = 1 := F.rnd_double isDouble_one

/-- Rounding is monotone. -/
theorem mono {x y : K} (h : x ≤ y) : F.rnd x ≤ F.rnd y := by
  rcases eq_or_lt_of_le h with rfl | h
  · exact le_rfl
  by_contra hc
  rw [not_le] at hc
  have h1 := F.nearest x _ (F.isDouble y)
  have h2 := F.nearest y _ (F.isDouble x)
  rcases abs_cases (F.rnd x - x) with ⟨a, _⟩ | ⟨a, _⟩ <;>
  rcases abs_cases (F.rnd y - x) with ⟨b, _⟩ | ⟨b, _⟩ <;>
  rcases abs_cases (F.rnd x - y) with ⟨c, _⟩ | ⟨c, _⟩ <;>
  rcases abs_cases (F.rnd y - y) with ⟨d, _⟩ | ⟨d, _⟩ <;>
  rw [a, b] at h1 <;> rw [c, d] at h2 <;> linarith

theorem le_of_le {x y : K} (hy : IsDouble y) (h : x ≤ y) : F.rnd x ≤ y :=
  (F.mono h).trans (F.rnd_double hy).le

theorem ge_of_ge {x y : K} (hy : IsDouble y) (h : y ≤ x) : y ≤ F.rnd x :=
  (F.rnd_double hy).ge.trans (F.mono h)

theorem nonneg {x : K} (h : 0 ≤ x) : 0 ≤ F.rnd x := F.ge_of_ge isDouble_zero h

/-- A double below the rounded value is below the value itself. -/
theorem lt_of_lt_rnd {x y : K} (hx : IsDouble x) (h : x < F.rnd y) : x < y := by
  by_contra hc
  exact absurd (F.le_of_le hx (not_lt.1 hc)) (not_le.2 h)

/-- A value strictly nearer to `p` than to `t`, both doubles, is not rounded to `t` or beyond. -/
theorem lt_of_nearer {x p t : K} (hp : IsDouble p) (hpt : p < t) (h : x < (p + t) / 2) :
    F.rnd x < t := by
  by_contra hc
  rw [not_lt] at hc
  have h1 := F.nearest x p hp
  rcases abs_cases (F.rnd x - x) with ⟨a, _⟩ | ⟨a, _⟩ <;>
  rcases abs_cases (p - x) with ⟨b, _⟩ | ⟨b, _⟩ <;> rw [a, b] at h1 <;> linarith

/-- A random number times a normal total stays below the total even after rounding. -/
theorem mul_lt {t u : K} (ht : IsDouble t) (hn : 2 ^ (-1022 : Int) < t)
    (hu : u ≤ 1 - 1 / 2 ^ 53) : F.rnd (u * t) < t := by
  obtain ⟨m, e, h1, h2, h3, h4⟩ := ht.normal_form hn
  have hp := two_zpow_pos (K := K) e
  refine F.lt_of_nearer (p := ((m - 1 : Int) : K) * 2 ^ e) ⟨m - 1, e, ?_, h3, rfl⟩ ?_ ?_
  · rw [abs_le]; constructor <;> omega
  · rw [h4]; push_cast
    have : (0:K) < 2 ^ e := hp
    nlinarith
  · have h5 : u * t ≤ (1 - 1 / 2 ^ 53) * t :=
      mul_le_mul_of_nonneg_right hu ((two_zpow_pos _).trans hn).le
    refine h5.trans_lt ?_
    have hm : (2 : K) ^ 52 < m := by exact_mod_cast h1
    rw [h4]; push_cast
    have h6 : (1 - 1 / 2 ^ 53) * (m : K) < ((m - 1) + m) / 2 := by
      have : (1:K) / 2 ^ 53 * m > 1 / 2 := by
        have e1 : (1:K) / 2 = 1 / 2 ^ 53 * 2 ^ 52 := by norm_num
        rw [e1]
        exact mul_lt_mul_of_pos_left hm (by positivity)
      linarith
    have := mul_lt_mul_of_pos_right h6 hp
    linarith

end Rounding

section Exists
variable [FloorRing K]

theorem roundEven_near (y : K) : |(roundEven y : K) - y| ≤ 1 / 2 ∧
    ∀ n : Int, |(roundEven y : K) - y| ≤ |(n : K) - y| := by
  have h0 := Int.floor_le y
  have h1 := Int.lt_floor_add_one y
  have h2 : ∀ n : Int, (n : K) ≤ ⌊y⌋ ∨ (⌊y⌋ : K) + 1 ≤ n := by
    intro n
    rcases le_or_gt n ⌊y⌋ with h | h
    · left; exact_mod_cast h
    · right; exact_mod_cast h
  have fin : ∀ z : K, (z = ⌊y⌋ ∧ y - ⌊y⌋ ≤ 1 / 2 ∨ z = ⌊y⌋ + 1 ∧ 1 / 2 ≤ y - ⌊y⌋) →
      |z - y| ≤ 1 / 2 ∧ ∀ n : Int, |z - y| ≤ |(n : K) - y| := by
    rintro z (⟨rfl, h⟩ | ⟨rfl, h⟩)
    · refine ⟨abs_le.2 ⟨by linarith, by linarith⟩, fun n => ?_⟩
      rw [abs_of_nonpos (by linarith)]
      rcases h2 n with h3 | h3
      · rw [abs_of_nonpos (by linarith)]; linarith
      · rw [abs_of_nonneg (by linarith)]; linarith
    · refine ⟨abs_le.2 ⟨by linarith, by linarith⟩, fun n => ?_⟩
      rw [abs_of_nonneg (by linarith)]
      rcases h2 n with h3 | h3
      · rw [abs_of_nonpos (by linarith)]; linarith
      · rw [abs_of_nonneg (by linarith)]; linarith
  apply fin
  unfold roundEven
  dsimp only
  split
  · left; exact ⟨rfl, by linarith⟩
  · split
    · right; exact ⟨by push_cast; rfl, by linarith⟩
    · split
      · left; exact ⟨rfl, by linarith⟩
      · right; exact ⟨by push_cast; rfl, by linarith⟩

theorem roundEven_tie (k : Int) :
    roundEven ((k : K) + 1 / 2) = if k % 2 = 0 then k else k + 1 := by
  have hf : ⌊(k : K) + 1 / 2⌋ = k := by
    rw [Int.floor_eq_iff]; constructor <;> norm_num
  unfold roundEven
  rw [hf]
  simp

omit [IsStrictOrderedRing K] in
theorem roundEven_nonneg {y : K} (h : 0 ≤ y) : 0 ≤ roundEven y := by
  have := Int.floor_nonneg.2 h
  unfold roundEven; dsimp only
  repeat' split
  all_goals omega

omit [IsStrictOrderedRing K] in
theorem lastExp_neg (x : K) : lastExp (-x) = lastExp x := by unfold lastExp; rw [abs_neg]

omit [IsStrictOrderedRing K] in
theorem lastExp_ge (x : K) : -1074 ≤ lastExp x := le_max_right _ _

theorem lastExp_lt (x : K) : |x| / 2 ^ lastExp x < 2 ^ 53 := by
  have hp := two_zpow_pos (K := K) (lastExp x)
  rw [div_lt_iff₀ hp]
  have h := Int.lt_zpow_succ_log_self (b := 2) (by norm_num) |x|
  refine h.trans_le ?_
  have e1 : (2 : K) ^ 53 * 2 ^ lastExp x = 2 ^ (53 + lastExp x) := by
    rw [zpow_add₀ (by norm_num)]; norm_num
  rw [e1]
  have : Int.log 2 |x| - 52 ≤ lastExp x := le_max_left _ _
  exact_mod_cast zpow_le_zpow_right₀ (by norm_num : (1:K) ≤ 2) (by omega)

theorem roundEven_abs_le {y : K} (h : 0 ≤ y) (h' : y < 2 ^ 53) : |roundEven y| ≤ 2 ^ 53 := by
  rw [abs_of_nonneg (roundEven_nonneg h)]
  have h1 := (abs_le.1 (roundEven_near y).1).2
  have h2 : (roundEven y : K) < ((2 ^ 53 + 1 : Int) : K) := by push_cast; linarith
  have h3 : roundEven y < 2 ^ 53 + 1 := by exact_mod_cast h2
  omega

theorem roundDouble_neg (x : K) : roundDouble (-x) = -roundDouble x := by
  unfold roundDouble
  rw [lastExp_neg, abs_neg]
  rcases lt_trichotomy x 0 with h | rfl | h
  · rw [if_neg (by linarith), if_pos h, neg_neg]
  · simp [roundEven]
  · rw [if_pos (by linarith), if_neg (by linarith)]

/-- The positive half of `nearest`. -/
theorem roundDouble_nearest_pos {x : K} (hx : 0 < x) (y : K) (hy : IsDouble y) :
    |roundDouble x - x| ≤ |y - x| := by
  unfold roundDouble
  rw [if_neg (by linarith), abs_of_pos hx]
  set e := lastExp x with he
  have hp := two_zpow_pos (K := K) e
  have hxe : x = x / 2 ^ e * 2 ^ e := by field_simp
  have scale : ∀ z : K, |z * 2 ^ e - x| = |z - x / 2 ^ e| * 2 ^ e := by
    intro z
    rw [show z * 2 ^ e - x = (z - x / 2 ^ e) * 2 ^ e by rw [sub_mul, ← hxe], abs_mul,
      abs_of_pos hp]
  obtain ⟨m, e', h1, h2, rfl⟩ := hy
  rw [scale]
  rcases le_or_gt e e' with hee | hee
  · -- a multiple of the last bit
    obtain ⟨d, hd⟩ := Int.eq_ofNat_of_zero_le (sub_nonneg.2 hee)
    have : (m : K) * 2 ^ e' = ((m * 2 ^ d : Int) : K) * 2 ^ e := by
      have e1 : e' = (d : Int) + e := by omega
      rw [e1, zpow_add₀ (by norm_num)]; push_cast; rw [zpow_natCast]; ring
    rw [this, scale]
    exact mul_le_mul_of_nonneg_right ((roundEven_near _).2 _) hp.le
  · -- finer doubles all lie below
    have hlog : e = Int.log 2 x - 52 := by
      rw [he]; unfold lastExp
      rw [abs_of_pos hx]
      refine max_eq_left ?_
      by_contra hc
      have : lastExp x = -1074 := by
        unfold lastExp; rw [abs_of_pos hx]; exact max_eq_right (not_le.1 hc).le
      omega
    have hlo : (2 : K) ^ (e + 52) ≤ x := by
      have := Int.zpow_log_le_self (b := 2) (by norm_num) hx
      rw [hlog]; rw [sub_add_cancel]; exact_mod_cast this
    have hm : (m : K) * 2 ^ e' ≤ 2 ^ (e + 52) := by
      have h3 : (m : K) ≤ 2 ^ 53 := by
        have := (abs_le.1 h1).2
        exact_mod_cast this
      have h4 : (2 : K) ^ 53 * 2 ^ e' = 2 ^ (53 + e') := by
        rw [zpow_add₀ (by norm_num)]; norm_num
      refine (mul_le_mul_of_nonneg_right h3 (two_zpow_pos _).le).trans ?_
      rw [h4]
      exact zpow_le_zpow_right₀ (by norm_num) (by omega)
    have h5 : |(((2 : Int) ^ 52 : Int) : K) - x / 2 ^ e| * 2 ^ e = x - 2 ^ (e + 52) := by
      rw [← scale]
      have : (((2 : Int) ^ 52 : Int) : K) * 2 ^ e = 2 ^ (e + 52) := by
        rw [zpow_add₀ (by norm_num)]; push_cast; rw [mul_comm]; norm_num
      rw [this, abs_sub_comm, abs_of_nonneg (by linarith)]
    have h6 := mul_le_mul_of_nonneg_right ((roundEven_near (x / 2 ^ e)).2 (2 ^ 52)) hp.le
    rw [h5] at h6
    rw [abs_sub_comm ((m : K) * 2 ^ e'),
      abs_of_nonneg (by linarith : (0 : K) ≤ x - (m : K) * 2 ^ e')]
    exact h6.trans (sub_le_sub_left hm x)

/-- `roundDouble` is a rounding function: the laws can be met. -/
def rounding (K : Type) [Field K] [LinearOrder K] [IsStrictOrderedRing K] [FloorRing K] :
    Rounding K where
  rnd := roundDouble
  isDouble x := by
    rcases eq_or_ne x 0 with rfl | hx
    · simpa [roundDouble, roundEven] using isDouble_zero (K := K)
    · have h : IsDouble ((roundEven (|x| / 2 ^ lastExp x) : K) * 2 ^ lastExp x) :=
        ⟨_, _, roundEven_abs_le (by have := two_zpow_pos (K := K) (lastExp x); positivity)
          (lastExp_lt x), lastExp_ge x, rfl⟩
      unfold roundDouble
      split
      · exact h.neg
      · exact h
  nearest x y hy := by
    rcases lt_trichotomy x 0 with h | rfl | h
    · have := roundDouble_nearest_pos (neg_pos.2 h) (-y) hy.neg
      rw [roundDouble_neg] at this
      rwa [show -roundDouble x - -x = -(roundDouble x - x) by ring,
        show -y - -x = -(y - x) by ring, abs_neg, abs_neg] at this
    · simp [roundDouble, roundEven]
    · exact roundDouble_nearest_pos h y hy
  rnd_neg := roundDouble_neg
  tie k e h0 h1 h2 h3 := by
    have hp := two_zpow_pos (K := K) e
    have hk : (0 : K) ≤ k := by exact_mod_cast h0
    have hx : (0 : K) < ((k : K) + 1 / 2) * 2 ^ e := by positivity
    have hle : lastExp (((k : K) + 1 / 2) * 2 ^ e) = e := by
      unfold lastExp
      rw [abs_of_pos hx]
      have up : Int.log 2 (((k : K) + 1 / 2) * 2 ^ e) < 53 + e := by
        rw [← Int.lt_zpow_iff_log_lt (by norm_num) hx]
        have : (k : K) + 1 / 2 < 2 ^ 53 := by
          have : ((k + 1 : Int) : K) ≤ ((2 ^ 53 : Int) : K) := by exact_mod_cast h1
          push_cast at this; linarith
        have h4 := mul_lt_mul_of_pos_right this hp
        refine h4.trans_le (le_of_eq ?_)
        push_cast
        rw [zpow_add₀ (by norm_num)]; norm_num
      rcases h3 with h3 | h3
      · have lo : 52 + e ≤ Int.log 2 (((k : K) + 1 / 2) * 2 ^ e) := by
          rw [← Int.zpow_le_iff_le_log (by norm_num) hx]
          have : (2 : K) ^ 52 ≤ (k : K) + 1 / 2 := by
            have : ((2 ^ 52 : Int) : K) ≤ k := by exact_mod_cast h3
            push_cast at this; linarith
          have h4 := mul_le_mul_of_nonneg_right this hp.le
          refine le_trans (le_of_eq ?_) h4
          push_cast
          rw [zpow_add₀ (by norm_num)]; norm_num
        omega
      · omega
    unfold roundDouble
    rw [if_neg (by linarith), hle, abs_of_pos hx, mul_div_cancel_right₀ _ hp.ne', roundEven_tie]

/-- The relative error of rounding a number of normal magnitude is at most `2^-53`. -/
theorem Rounding.rel_error (F : Rounding K) {x : K} (hx : 2 ^ (-1022 : Int) ≤ |x|) :
    |F.rnd x - x| ≤ |x| / 2 ^ 53 := by
  have h0 : 0 < |x| := (two_zpow_pos _).trans_le hx
  have hlog : (-1022 : Int) ≤ Int.log 2 |x| := by
    rw [← Int.zpow_le_iff_le_log (by norm_num) h0]; exact_mod_cast hx
  have hle : lastExp x = Int.log 2 |x| - 52 := by
    unfold lastExp; exact max_eq_left (by omega)
  have hp := two_zpow_pos (K := K) (lastExp x)
  have hz : 0 ≤ |x| / 2 ^ lastExp x := by positivity
  have hd : IsDouble ((roundEven (|x| / 2 ^ lastExp x) : K) * 2 ^ lastExp x) :=
    ⟨_, _, roundEven_abs_le hz (lastExp_lt x), lastExp_ge x, rfl⟩
  have herr : abs ((roundEven (|x| / 2 ^ lastExp x) : K) * 2 ^ lastExp x - |x|) ≤ |x| / 2 ^ 53 := by
    have e1 : (roundEven (|x| / 2 ^ lastExp x) : K) * 2 ^ lastExp x - |x| =
        ((roundEven (|x| / 2 ^ lastExp x) : K) - |x| / 2 ^ lastExp x) * 2 ^ lastExp x := by
      field_simp
    rw [e1, abs_mul, abs_of_pos hp]
    refine (mul_le_mul_of_nonneg_right (roundEven_near _).1 hp.le).trans ?_
    have h1 := Int.zpow_log_le_self (b := 2) (by norm_num) h0
    have h2 : (2 : K) ^ lastExp x * 2 ^ 52 ≤ |x| := by
      refine le_trans (le_of_eq ?_) h1
      rw [hle, show (2 : K) ^ 52 = 2 ^ (52 : Int) by norm_cast, ← zpow_add₀ (by norm_num)]
      norm_num
    rw [le_div_iff₀ (by positivity)]
    have h3 : (1 : K) / 2 * 2 ^ lastExp x * 2 ^ 53 = 2 ^ lastExp x * 2 ^ 52 := by ring
    rw [h3]; exact h2
  rcases le_or_gt 0 x with h | h
  · rw [abs_of_nonneg h] at hd herr ⊢
    exact (F.nearest x _ hd).trans herr
  · have h1 := F.nearest x _ hd.neg
    rw [abs_of_neg h] at *
    refine h1.trans (le_trans (le_of_eq ?_) herr)
    rw [← abs_neg]; congr 1; ring

end Exists

/-- Below half the least positive double everything is rounded to zero. -/
theorem Rounding.underflow (F : Rounding K) {x : K} (h0 : 0 ≤ x) (h : x < 2 ^ (-1075 : Int)) :
    F.rnd x = 0 := by
  have hd : IsDouble ((2 : K) ^ (-1074 : Int)) := ⟨1, -1074, by norm_num, le_rfl, by simp⟩
  have hlt : F.rnd x < 2 ^ (-1074 : Int) := by
    refine F.lt_of_nearer isDouble_zero (two_zpow_pos _) (h.trans_le (le_of_eq ?_))
    rw [zero_add, show (-1075 : Int) = -1074 - 1 by norm_num, zpow_sub₀ (by norm_num), zpow_one]
  have hge := F.nonneg h0
  obtain ⟨m, e, h1, h2, h3⟩ := F.isDouble x
  rw [h3] at hlt hge ⊢
  have hp := two_zpow_pos (K := K) e
  have h4 : (2 : K) ^ (-1074 : Int) ≤ 2 ^ e := zpow_le_zpow_right₀ (by norm_num) h2
  have h5 : (m : K) * 2 ^ e < 1 * 2 ^ e := by linarith
  have h6 := lt_of_mul_lt_mul_right h5 hp.le
  have h7 : m < 1 := by exact_mod_cast h6
  have h8 : (0 : K) ≤ m := nonneg_of_mul_nonneg_left hge hp
  have h9 : 0 ≤ m := by exact_mod_cast h8
  have : m = 0 := by omega
  rw [this]; simp

example : roundDouble (1 / 10 + 2 / 10 : ℚ) = roundDouble (3 / 10 : ℚ) := by decide +kernel
example : roundDouble (roundDouble (1 / 10) + roundDouble (2 / 10) : ℚ) ≠ roundDouble (3 / 10 : ℚ) := by
  decide +kernel
example : roundDouble ((2:ℚ) ^ 53 + 1) = 2 ^ 53 := by decide +kernel
example : roundDouble ((2:ℚ) ^ 53 + 3) = 2 ^ 53 + 4 := by decide +kernel
example : roundDouble (1 / 2 ^ 1075 : ℚ) = 0 := by decide +kernel
example : roundDouble (3 / 2 ^ 1075 : ℚ) = 2 / 2 ^ 1074 := by decide +kernel

end Fauxdoc
