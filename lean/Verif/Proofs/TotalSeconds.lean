import Verif.Model.DtRange
import Mathlib.Tactic.Ring
import Mathlib.Tactic.Linarith
import Mathlib.Data.Int.Order.Basic
import Mathlib.Algebra.Order.Ring.Abs
/-
What the rounding of `total_seconds()` leaves of the checks in `/repo/src/fauxdoc/dtrange.py` 38-45,
139 and 145.
-/
namespace Fauxdoc

theorem roundDiv_err (a b : Nat) (hb : 0 < b) :
    2 * (roundDiv a b * b) ≤ 2 * a + b ∧ 2 * a ≤ 2 * (roundDiv a b * b) + b := by
  have h := Nat.div_add_mod a b
  have hc : a / b * b = b * (a / b) := Nat.mul_comm _ _
  unfold roundDiv
  split_ifs with h1 h2
  · omega
  · have : (a / b + 1) * b = b * (a / b) + b := by ring
    rw [this]
    have := Nat.mod_lt a hb
    omega
  · rcases Nat.mod_two_eq_zero_or_one (a / b) with h0 | h0 <;> rw [h0]
    · rw [Nat.add_zero]; omega
    · have : (a / b + 1) * b = b * (a / b) + b := by ring
      rw [this]
      omega

theorem roundDiv_ge (a b : Nat) : a / b ≤ roundDiv a b := by
  unfold roundDiv; split_ifs <;> omega

theorem roundDiv_exact (k b : Nat) (hb : 0 < b) : roundDiv (k * b) b = k := by
  unfold roundDiv
  rw [Nat.mul_mod_left, if_pos (by omega), Nat.mul_div_cancel _ hb]

theorem ulp_pos (a : Nat) : 0 < ulp a := Nat.pow_pos (by decide)

theorem ulp_le {a : Nat} {m : Nat} (h : a < 1000000 * 2 ^ (m + 53)) : ulp a ≤ 2 ^ m := by
  unfold ulp
  apply Nat.pow_le_pow_right (by decide)
  rcases Nat.eq_zero_or_pos (a / 1000000) with h0 | h0
  · rw [h0]; simp
  · have : Nat.log2 (a / 1000000) < m + 53 := by
      rw [Nat.log2_lt (by omega)]
      exact Nat.div_lt_of_lt_mul h
    omega

theorem ulp_mul_le {a : Nat} (h : 1000000 * 2 ^ 52 ≤ a) : 2 ^ 52 * ulp a ≤ a / 1000000 := by
  have hq : 2 ^ 52 ≤ a / 1000000 := (Nat.le_div_iff_mul_le (by decide)).2 (by omega)
  have hl : 52 ≤ Nat.log2 (a / 1000000) := (Nat.le_log2 (by omega)).2 hq
  unfold ulp
  rw [← Nat.pow_add, show 52 + (Nat.log2 (a / 1000000) - 52) = Nat.log2 (a / 1000000) by omega]
  exact Nat.log2_self_le (by omega)

theorem roundDiv_tie (a b : Nat) (hb : 0 < b)
    (h : 2 * |((roundDiv a b * b : Nat) : Int) - (a : Int)| = (b : Int)) : roundDiv a b % 2 = 0 := by
  have hd := Nat.div_add_mod a b
  have hm := Nat.mod_lt a hb
  have hc : a / b * b = b * (a / b) := Nat.mul_comm _ _
  have hc1 : (a / b + 1) * b = b * (a / b) + b := by ring
  unfold roundDiv at h ⊢
  split_ifs at h ⊢ with h1 h2
  · rw [hc] at h
    rcases abs_cases (((b * (a / b) : Nat) : Int) - (a : Int)) with ⟨h', _⟩ | ⟨h', _⟩ <;>
      rw [h'] at h <;> omega
  · rw [hc1] at h
    rcases abs_cases (((b * (a / b) + b : Nat) : Int) - (a : Int)) with ⟨h', _⟩ | ⟨h', _⟩ <;>
      rw [h'] at h <;> omega
  · omega

/-- The magnitude of `totalSeconds`. -/
def absSeconds (n : Nat) : Nat := roundDiv (n * SEC) (1000000 * ulp (n * SEC)) * ulp (n * SEC)

theorem totalSeconds_eq (d : Int) : totalSeconds d = d.sign * (absSeconds d.natAbs : Nat) := rfl

theorem absSeconds_err (n : Nat) :
    2 * (1000000 * absSeconds n) ≤ 2 * (n * SEC) + 1000000 * ulp (n * SEC) ∧
    2 * (n * SEC) ≤ 2 * (1000000 * absSeconds n) + 1000000 * ulp (n * SEC) := by
  have hu := ulp_pos (n * SEC)
  have h := roundDiv_err (n * SEC) (1000000 * ulp (n * SEC)) (by omega)
  have e : roundDiv (n * SEC) (1000000 * ulp (n * SEC)) * (1000000 * ulp (n * SEC)) =
      1000000 * absSeconds n := by unfold absSeconds; ring
  rwa [e] at h

theorem absSeconds_ge (n : Nat) : n * SEC / 1000000 / ulp (n * SEC) * ulp (n * SEC) ≤ absSeconds n := by
  unfold absSeconds
  rw [Nat.div_div_eq_div_mul]
  exact Nat.mul_le_mul_right _ (roundDiv_ge _ _)

theorem absSeconds_pos {n : Nat} (h : 0 < n) : 0 < absSeconds n := by
  refine Nat.lt_of_lt_of_le ?_ (absSeconds_ge n)
  have h1 : 1000000 * 2 ^ 52 ≤ n * SEC := by
    calc 1000000 * 2 ^ 52 ≤ 1 * SEC := by decide
      _ ≤ n * SEC := Nat.mul_le_mul_right _ h
  have h2 := ulp_mul_le h1
  have h3 := ulp_pos (n * SEC)
  apply Nat.mul_pos _ h3
  apply Nat.div_pos _ h3
  omega

theorem totalSeconds_pos {d : Int} : 0 < totalSeconds d ↔ 0 < d := by
  rw [totalSeconds_eq]
  rcases lt_trichotomy d 0 with h | h | h
  · rw [Int.sign_eq_neg_one_of_neg h]; constructor <;> intro h' <;> omega
  · subst h; decide
  · rw [Int.sign_eq_one_of_pos h]
    have := absSeconds_pos (n := d.natAbs) (by omega)
    constructor <;> intro <;> omega

theorem totalSeconds_neg {d : Int} : totalSeconds d < 0 ↔ d < 0 := by
  rw [totalSeconds_eq]
  rcases lt_trichotomy d 0 with h | h | h
  · rw [Int.sign_eq_neg_one_of_neg h]
    have := absSeconds_pos (n := d.natAbs) (by omega)
    constructor <;> intro <;> omega
  · subst h; decide
  · rw [Int.sign_eq_one_of_pos h]; constructor <;> intro h' <;> omega

theorem totalSeconds_natAbs (d : Int) : (totalSeconds d).natAbs = absSeconds d.natAbs := by
  rw [totalSeconds_eq, Int.natAbs_mul]
  rcases eq_or_ne d 0 with h | h
  · subst h; decide
  · rw [Int.natAbs_sign_of_ne_zero h, Nat.one_mul, Int.natAbs_natCast]

/-- Whole numbers of seconds up to `2^53` are not rounded. -/
theorem absSeconds_exact {k : Nat} (hk : k < 2 ^ 53) : absSeconds (k * 1000000) = k * SEC := by
  have hu : ulp (k * 1000000 * SEC) ≤ 2 ^ 72 := by
    apply ulp_le
    calc k * 1000000 * SEC < 2 ^ 53 * 1000000 * SEC := by
          apply Nat.mul_lt_mul_of_pos_right _ (by decide); omega
      _ = 1000000 * 2 ^ (72 + 53) := by decide
  obtain ⟨c, hc⟩ : ulp (k * 1000000 * SEC) ∣ SEC := by
    unfold ulp at hu ⊢
    exact Nat.pow_dvd_pow _ ((Nat.pow_le_pow_iff_right (by decide)).1 hu)
  unfold absSeconds
  generalize ulp (k * 1000000 * SEC) = u at hc hu
  have hu0 : 0 < u := by
    rcases Nat.eq_zero_or_pos u with h | h
    · subst h; rw [Nat.zero_mul] at hc; cases hc
    · exact h
  have e : k * 1000000 * SEC = k * c * (1000000 * u) := by rw [hc]; ring
  rw [e, roundDiv_exact _ _ (by omega), hc]
  ring

theorem totalSeconds_exact {k : Int} (hk : k.natAbs < 2 ^ 53) :
    totalSeconds (k * 1000000) = k * SEC := by
  rw [totalSeconds_eq, Int.natAbs_mul, show Int.natAbs 1000000 = 1000000 from rfl,
    absSeconds_exact hk, Int.sign_mul, show Int.sign 1000000 = 1 from rfl, mul_one, Nat.cast_mul,
    ← mul_assoc, Int.sign_mul_natAbs]

/-- A day in the units of `totalSeconds`. -/
theorem totalSeconds_day (d : Int) :
    86400 * (SEC : Int) ≤ ((totalSeconds d).natAbs : Int) ↔ DAY ≤ (d.natAbs : Int) := by
  rw [totalSeconds_natAbs]
  generalize d.natAbs = n
  have hS : (SEC : Int) = 4722366482869645213696 := by decide
  constructor
  · intro h
    by_contra hn
    have hn : (n : Int) < DAY := by omega
    have hn' : n ≤ 86399999999 := by simp only [DAY] at hn; omega
    have hlt : n * SEC < 1000000 * 2 ^ (36 + 53) := by
      calc n * SEC ≤ 86399999999 * SEC := Nat.mul_le_mul_right _ hn'
        _ < _ := by decide
    have hu := ulp_le hlt
    have he := (absSeconds_err n).1
    have hm : n * SEC ≤ 86399999999 * SEC := Nat.mul_le_mul_right _ hn'
    simp only [SEC] at *
    omega
  · intro h
    have hn : 86400000000 ≤ n := by simp only [DAY] at h; omega
    have hge := absSeconds_ge n
    have hq : 86400 * SEC ≤ n * SEC / 1000000 := by
      rw [Nat.le_div_iff_mul_le (by decide)]
      calc 86400 * SEC * 1000000 = 86400000000 * SEC := by decide
        _ ≤ n * SEC := Nat.mul_le_mul_right _ hn
    have h52 : 2 ^ 52 * ulp (n * SEC) ≤ n * SEC / 1000000 := by
      apply ulp_mul_le
      calc 1000000 * 2 ^ 52 ≤ 86400000000 * SEC := by decide
        _ ≤ n * SEC := Nat.mul_le_mul_right _ hn
    have hu0 := ulp_pos (n * SEC)
    have hgoal : 86400 * SEC ≤ n * SEC / 1000000 / ulp (n * SEC) * ulp (n * SEC) := by
      by_cases hle : Nat.log2 (n * SEC / 1000000) - 52 ≤ 72
      · have hdv : ulp (n * SEC) ∣ 86400 * SEC := by
          unfold ulp SEC
          exact Dvd.dvd.mul_left (Nat.pow_dvd_pow _ hle) _
        obtain ⟨c, hc⟩ := hdv
        rw [hc, mul_comm]
        apply Nat.mul_le_mul_right
        rw [Nat.le_div_iff_mul_le hu0, mul_comm, ← hc]
        exact hq
      · have : 2 ^ 73 ≤ ulp (n * SEC) := Nat.pow_le_pow_right (by decide) (by omega)
        have h1 : 2 ^ 52 ≤ n * SEC / 1000000 / ulp (n * SEC) := by
          rw [Nat.le_div_iff_mul_le hu0]; exact h52
        calc 86400 * SEC ≤ 2 ^ 52 * 2 ^ 73 := by decide
          _ ≤ _ := Nat.mul_le_mul h1 this
    omega

/-- Whole days, as a timedelta, are accepted. -/
theorem totalSeconds_of_dvd {d : Int} (h : DAY ∣ d) (ht : tdValid d) :
    Int.fmod (totalSeconds d) (86400 * SEC) = 0 := by
  obtain ⟨k, rfl⟩ := h
  have e : DAY * k = (86400 * k) * 1000000 := by unfold DAY; ring
  have hk : (86400 * k).natAbs < 2 ^ 53 := by
    simp only [tdValid, DAY] at ht; omega
  rw [e, totalSeconds_exact hk]
  apply Int.fmod_eq_zero_of_dvd
  exact ⟨k, by ring⟩

/-- Below `2^34` seconds (544 years) only whole days are accepted. -/
theorem dvd_of_totalSeconds {d : Int} (hd : d.natAbs < 2 ^ 34 * 1000000)
    (h : Int.fmod (totalSeconds d) (86400 * SEC) = 0) : DAY ∣ d := by
  obtain ⟨k, hk⟩ := Int.dvd_of_fmod_eq_zero h
  have hk' : 86400 * SEC ∣ absSeconds d.natAbs := by
    rw [← totalSeconds_natAbs, hk, Int.natAbs_mul]
    exact ⟨_, rfl⟩
  rw [← Int.dvd_natAbs]
  generalize d.natAbs = n at *
  obtain ⟨c, hc⟩ := hk'
  obtain ⟨h1, h2⟩ := absSeconds_err n
  have hu : ulp (n * SEC) ≤ 2 ^ 53 := by
    apply ulp_le
    calc n * SEC < 2 ^ 34 * 1000000 * SEC := Nat.mul_lt_mul_of_pos_right hd (by decide)
      _ = 1000000 * 2 ^ (53 + 53) := by decide
  rw [hc] at h1 h2
  have e : n = 86400000000 * c := by
    simp only [SEC] at *
    omega
  exact ⟨c, by rw [e]; unfold DAY; push_cast; ring⟩

theorem roundDiv_unique {a b c : Nat} (h1 : 2 * a < 2 * (c * b) + b) (h2 : 2 * (c * b) < 2 * a + b) :
    roundDiv a b = c := by
  have hb : 0 < b := by omega
  have h := Nat.div_add_mod a b
  have hm := Nat.mod_lt a hb
  have hc : b * (a / b) = a / b * b := Nat.mul_comm _ _
  have hlow : a / b ≤ c := by
    by_contra hn
    have : (c + 1) * b ≤ a / b * b := Nat.mul_le_mul_right _ (by omega)
    rw [Nat.add_mul, Nat.one_mul] at this
    omega
  have hhigh : c ≤ a / b + 1 := by
    by_contra hn
    have : (a / b + 1 + 1) * b ≤ c * b := Nat.mul_le_mul_right _ (by omega)
    rw [Nat.add_mul, Nat.add_mul, Nat.one_mul] at this
    omega
  unfold roundDiv
  rcases Nat.lt_or_ge c (a / b + 1) with hlt | hge
  · have e : c = a / b := by omega
    rw [← e] at h hc ⊢
    rw [if_pos (by omega)]
  · have e : c = a / b + 1 := by omega
    have e2 : c * b = a / b * b + b := by rw [e, Nat.add_mul, Nat.one_mul]
    rw [if_neg (by omega), if_pos (by omega), e]

/-- `totalSeconds` is a double nearest to the number of seconds: its magnitude is `m * 2^e` units, `m`
having 53 bits, the error is at most half of `2^e`, and if it is just half of that `m` is even. -/
theorem totalSeconds_nearest {d : Int} (hd : d ≠ 0) :
    ∃ m e : Nat, 2 ^ 52 ≤ m ∧ m ≤ 2 ^ 53 ∧ totalSeconds d = d.sign * (m * 2 ^ e : Nat) ∧
      2 * |1000000 * totalSeconds d - d * SEC| ≤ 1000000 * 2 ^ e ∧
      (2 * |1000000 * totalSeconds d - d * SEC| = 1000000 * 2 ^ e → m % 2 = 0) := by
  have hn : 0 < d.natAbs := by omega
  have hbig : 1000000 * 2 ^ 52 ≤ d.natAbs * SEC := by
    calc 1000000 * 2 ^ 52 ≤ 1 * SEC := by decide
      _ ≤ d.natAbs * SEC := Nat.mul_le_mul_right _ hn
  have hlow := ulp_mul_le hbig
  have hu0 := ulp_pos (d.natAbs * SEC)
  have hhigh : d.natAbs * SEC / 1000000 < 2 ^ 53 * ulp (d.natAbs * SEC) := by
    have hq : 2 ^ 52 ≤ d.natAbs * SEC / 1000000 := (Nat.le_div_iff_mul_le (by decide)).2 (by omega)
    have hl : 52 ≤ Nat.log2 (d.natAbs * SEC / 1000000) := (Nat.le_log2 (by omega)).2 hq
    unfold ulp
    rw [← Nat.pow_add]
    refine lt_of_lt_of_le Nat.lt_log2_self ?_
    exact Nat.pow_le_pow_right (by decide) (by omega)
  have hdiv : d.natAbs * SEC / (1000000 * ulp (d.natAbs * SEC)) =
      d.natAbs * SEC / 1000000 / ulp (d.natAbs * SEC) := (Nat.div_div_eq_div_mul _ _ _).symm
  have hm1 : 2 ^ 52 ≤ d.natAbs * SEC / (1000000 * ulp (d.natAbs * SEC)) := by
    rw [hdiv]; exact (Nat.le_div_iff_mul_le hu0).2 hlow
  have hm2 : d.natAbs * SEC / (1000000 * ulp (d.natAbs * SEC)) < 2 ^ 53 := by
    rw [hdiv]; exact (Nat.div_lt_iff_lt_mul hu0).2 hhigh
  have habs : |1000000 * totalSeconds d - d * SEC| =
      |(1000000 * absSeconds d.natAbs : Int) - (d.natAbs * SEC : Nat)| := by
    rw [totalSeconds_eq]
    rcases lt_or_gt_of_ne hd with h | h
    · rw [Int.sign_eq_neg_one_of_neg h, ← abs_neg]
      congr 1
      have : d = -(d.natAbs : Int) := by omega
      rw [Nat.cast_mul]
      nth_rewrite 2 [this]
      ring
    · rw [Int.sign_eq_one_of_pos h]
      congr 1
      have : d = (d.natAbs : Int) := by omega
      rw [Nat.cast_mul]
      nth_rewrite 2 [this]
      ring
  have herr := absSeconds_err d.natAbs
  refine ⟨roundDiv (d.natAbs * SEC) (1000000 * ulp (d.natAbs * SEC)),
    Nat.log2 (d.natAbs * SEC / 1000000) - 52, hm1.trans (roundDiv_ge _ _), ?_, rfl, ?_, ?_⟩
  · unfold roundDiv
    split_ifs
    · exact hm2.le
    · exact hm2
    · have := Nat.mod_lt (d.natAbs * SEC / (1000000 * ulp (d.natAbs * SEC))) (by decide : 2 > 0)
      omega
  · rw [habs]
    have hcast : ((ulp (d.natAbs * SEC) : Nat) : Int) = 2 ^ (Nat.log2 (d.natAbs * SEC / 1000000) - 52) := by
      unfold ulp; push_cast; rfl
    rw [← hcast]
    generalize ulp (d.natAbs * SEC) = u at *
    generalize absSeconds d.natAbs = x at *
    generalize d.natAbs * SEC = y at *
    rcases abs_cases ((1000000 * x : Int) - y) with ⟨h, _⟩ | ⟨h, _⟩ <;> rw [h] <;> omega
  · rw [habs]
    have hcast : ((ulp (d.natAbs * SEC) : Nat) : Int) = 2 ^ (Nat.log2 (d.natAbs * SEC / 1000000) - 52) := by
      unfold ulp; push_cast; rfl
    rw [← hcast]
    have hx : (1000000 * absSeconds d.natAbs : Int) =
        (roundDiv (d.natAbs * SEC) (1000000 * ulp (d.natAbs * SEC)) *
          (1000000 * ulp (d.natAbs * SEC)) : Nat) := by
      unfold absSeconds; push_cast; ring
    rw [hx]
    have hb : 0 < 1000000 * ulp (d.natAbs * SEC) := by omega
    have hbc : (1000000 * (ulp (d.natAbs * SEC) : Int)) = ((1000000 * ulp (d.natAbs * SEC) : Nat) : Int) := by
      push_cast; rfl
    rw [hbc]
    generalize 1000000 * ulp (d.natAbs * SEC) = b at *
    generalize d.natAbs * SEC = a at *
    exact roundDiv_tie a b hb

/-- The spacing of doubles between `2^e` and `2^(e+1)` seconds. -/
theorem ulp_eq {n e : Nat} (h1 : 2 ^ e * 1000000 ≤ n) (h2 : n < 2 ^ (e + 1) * 1000000) :
    ulp (n * SEC) = 2 ^ (e + 20) := by
  unfold ulp
  congr 1
  have h3 : 2 ^ (e + 72) ≤ n * SEC / 1000000 := by
    rw [Nat.le_div_iff_mul_le (by decide)]
    calc 2 ^ (e + 72) * 1000000 = 2 ^ e * 1000000 * SEC := by unfold SEC; ring
      _ ≤ n * SEC := Nat.mul_le_mul_right _ h1
  have h4 : n * SEC / 1000000 < 2 ^ (e + 73) := by
    apply Nat.div_lt_of_lt_mul
    calc n * SEC < 2 ^ (e + 1) * 1000000 * SEC := Nat.mul_lt_mul_of_pos_right h2 (by decide)
      _ = 1000000 * 2 ^ (e + 73) := by unfold SEC; ring
  have hne : n * SEC / 1000000 ≠ 0 := by
    have : 0 < 2 ^ (e + 72) := Nat.pow_pos (by decide)
    omega
  have h5 := (Nat.le_log2 hne).2 h3
  have h6 := (Nat.log2_lt hne).2 h4
  omega

theorem near_arith (p n c : Nat)
    (h1 : 2 * (1000000 * (86400 * SEC * c)) ≤ 2 * (n * SEC) + 1000000 * (p * 2 ^ 20))
    (h2 : 2 * (n * SEC) ≤ 2 * (1000000 * (86400 * SEC * c)) + 1000000 * (p * 2 ^ 20))
    (e1 : (n - c * 86400000000) * 2 ^ 53 ≠ 1000000 * p)
    (e2 : (c * 86400000000 - n) * 2 ^ 53 ≠ 1000000 * p) :
    n * 2 ^ 53 < c * 86400000000 * 2 ^ 53 + 1000000 * p ∧
      c * 86400000000 * 2 ^ 53 < n * 2 ^ 53 + 1000000 * p := by
  have hS : SEC = 2 ^ 52 * 2 ^ 20 := by decide
  have k1 : c * 86400000000 * 2 ^ 53 ≤ n * 2 ^ 53 + 1000000 * p := by
    apply Nat.le_of_mul_le_mul_right (c := 2 ^ 20) _ (by decide)
    calc c * 86400000000 * 2 ^ 53 * 2 ^ 20 = 2 * (1000000 * (86400 * SEC * c)) := by rw [hS]; ring
      _ ≤ _ := h1
      _ = _ := by rw [hS]; ring
  have k2 : n * 2 ^ 53 ≤ c * 86400000000 * 2 ^ 53 + 1000000 * p := by
    apply Nat.le_of_mul_le_mul_right (c := 2 ^ 20) _ (by decide)
    calc n * 2 ^ 53 * 2 ^ 20 = 2 * (n * SEC) := by rw [hS]; ring
      _ ≤ _ := h2
      _ = _ := by rw [hS]; ring
  rw [Nat.sub_mul] at e1 e2
  have aux : ∀ x y q : Nat, y ≤ x + q → x ≤ y + q → x - y ≠ q → y - x ≠ q → x < y + q ∧ y < x + q := by
    omega
  exact aux _ _ _ k1 k2 e1 e2

theorem near_arith' (p n c : Nat) (h1 : n * 2 ^ 53 < c * 86400000000 * 2 ^ 53 + 1000000 * p)
    (h2 : c * 86400000000 * 2 ^ 53 < n * 2 ^ 53 + 1000000 * p) :
    2 * (n * SEC) < 2 * (c * 86400000000 * SEC) + 1000000 * (p * 2 ^ 20) ∧
    2 * (c * 86400000000 * SEC) < 2 * (n * SEC) + 1000000 * (p * 2 ^ 20) := by
  have hS : SEC = 4722366482869645213696 := by decide
  rw [hS]
  omega

/-- Which timedeltas have a whole number of days as far as `total_seconds()` can tell. -/
theorem totalSeconds_near {d : Int} (ht : tdValid d) {e : Nat} (h1 : 2 ^ e * 1000000 ≤ d.natAbs)
    (h2 : d.natAbs < 2 ^ (e + 1) * 1000000) :
    Int.fmod (totalSeconds d) (86400 * SEC) = 0 ↔
      ∃ k : Int, |d - k * DAY| * 2 ^ 53 < 1000000 * 2 ^ e := by
  have he : e ≤ 46 := by
    by_contra hn
    have : 2 ^ 47 ≤ 2 ^ e := Nat.pow_le_pow_right (by decide) (by omega)
    simp only [tdValid, DAY] at ht
    omega
  have hu := ulp_eq h1 h2
  have hp : 2 ^ (e + 20) = 2 ^ e * 2 ^ 20 := by ring
  have herr := absSeconds_err d.natAbs
  rw [hu, hp] at herr
  have key : (∃ k : Int, |d - k * DAY| * 2 ^ 53 < 1000000 * 2 ^ e) ↔
      ∃ c : Nat, |(d.natAbs : Int) - c * DAY| * 2 ^ 53 < 1000000 * 2 ^ e := by
    constructor
    · rintro ⟨k, hk⟩
      refine ⟨k.natAbs, lt_of_le_of_lt ?_ hk⟩
      apply mul_le_mul_of_nonneg_right _ (by positivity)
      have := abs_abs_sub_abs_le_abs_sub d (k * DAY)
      rwa [abs_mul, abs_of_pos (by decide : (0 : Int) < DAY), Int.abs_eq_natAbs d,
        Int.abs_eq_natAbs k] at this
    · rintro ⟨c, hc⟩
      rcases Int.natAbs_eq d with h | h
      · exact ⟨c, by rw [h]; exact hc⟩
      · refine ⟨-c, ?_⟩
        rw [h, show -(d.natAbs : Int) - -(c : Int) * DAY = -((d.natAbs : Int) - c * DAY) by ring,
          abs_neg]
        exact hc
  rw [key]
  have hfm : Int.fmod (totalSeconds d) (86400 * SEC) = 0 ↔ 86400 * SEC ∣ absSeconds d.natAbs := by
    rw [← totalSeconds_natAbs, ← Int.natCast_dvd_natCast, Int.dvd_natAbs]
    exact ⟨Int.dvd_of_fmod_eq_zero, Int.fmod_eq_zero_of_dvd⟩
  rw [hfm]
  have hnc : ∀ c : Nat, |(d.natAbs : Int) - c * DAY| * 2 ^ 53 < 1000000 * 2 ^ e ↔
      (d.natAbs * 2 ^ 53 < c * 86400000000 * 2 ^ 53 + 1000000 * 2 ^ e ∧
        c * 86400000000 * 2 ^ 53 < d.natAbs * 2 ^ 53 + 1000000 * 2 ^ e) := by
    intro c
    have hpe : ((2 ^ e : Nat) : Int) = 2 ^ e := by push_cast; rfl
    rw [← hpe]
    generalize 2 ^ e = p
    simp only [DAY]
    rcases abs_cases ((d.natAbs : Int) - c * 86400000000) with ⟨h, _⟩ | ⟨h, _⟩ <;> rw [h] <;> omega
  simp only [hnc]
  generalize d.natAbs = n at *
  constructor
  · rintro ⟨c, hc⟩
    refine ⟨c, ?_⟩
    rw [hc] at herr
    obtain ⟨f, hf⟩ : ∃ f, 46 = e + f := ⟨46 - e, by omega⟩
    have hne : ∀ x : Nat, x * 2 ^ 53 ≠ 1000000 * 2 ^ e := by
      intro x hx
      have e1 : 2 ^ 53 = 2 ^ 7 * (2 ^ e * 2 ^ f) := by rw [← Nat.pow_add, ← hf]; decide
      have hx' : (x * 2 ^ f * 2) * (2 ^ 6 * 2 ^ e) = 15625 * (2 ^ 6 * 2 ^ e) := by
        calc (x * 2 ^ f * 2) * (2 ^ 6 * 2 ^ e) = x * (2 ^ 7 * (2 ^ e * 2 ^ f)) := by ring
          _ = x * 2 ^ 53 := by rw [e1]
          _ = 1000000 * 2 ^ e := hx
          _ = _ := by ring
      have := Nat.eq_of_mul_eq_mul_right (by positivity) hx'
      omega
    have e1 := hne (n - c * 86400000000)
    have e2 := hne (c * 86400000000 - n)
    exact near_arith (2 ^ e) n c herr.1 herr.2 e1 e2
  · rintro ⟨c, hc⟩
    refine ⟨c, ?_⟩
    obtain ⟨f, hf⟩ : ∃ f, 52 = e + f := ⟨52 - e, by omega⟩
    have e1 : SEC = 2 ^ f * (2 ^ e * 2 ^ 20) := by
      unfold SEC
      rw [show 72 = f + (e + 20) by omega, Nat.pow_add, Nat.pow_add]
    have hr : roundDiv (n * SEC) (1000000 * (2 ^ e * 2 ^ 20)) = 86400 * c * 2 ^ f := by
      have e2 : 86400 * c * 2 ^ f * (1000000 * (2 ^ e * 2 ^ 20)) = c * 86400000000 * SEC := by
        rw [e1]; ring
      obtain ⟨a1, a2⟩ := near_arith' (2 ^ e) n c hc.1 hc.2
      exact roundDiv_unique (by rw [e2]; exact a1) (by rw [e2]; exact a2)
    unfold absSeconds
    rw [hu, hp, hr, mul_assoc, ← e1]
    ring

end Fauxdoc
