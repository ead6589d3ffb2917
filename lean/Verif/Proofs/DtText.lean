import Verif.Spec.DtText
import Mathlib.Tactic.IntervalCases
import Mathlib.Tactic.Ring
import Mathlib.Tactic.Linarith
/-
Lemmas on the texts of dates, times and timedeltas: the calendar, and what a text says.
-/
namespace Fauxdoc

/-! ### The calendar -/

/-- Days before the year `y`. -/
def dby (y : Nat) : Nat := 365 * (y - 1) + (y - 1) / 4 - (y - 1) / 100 + (y - 1) / 400

/-- Days in the year `y` before the month `m`. -/
def dbm (y m : Nat) : Nat := daysBefore m + if 2 < m ∧ LeapYear y then 1 else 0

/-- The ordinal of a day. -/
def YMD.ord (d : YMD) : Nat := dby d.year + dbm d.year d.month + d.day

theorem dby_succ (y : Nat) (hy : 1 ≤ y) :
    dby (y + 1) = dby y + 365 + if LeapYear y then 1 else 0 := by
  by_cases h : LeapYear y
  · rw [if_pos h]; unfold LeapYear at h; unfold dby; omega
  · rw [if_neg h]; unfold LeapYear at h; unfold dby; omega

theorem dby_mono {y z : Nat} (hy : 1 ≤ y) (h : y ≤ z) : dby y ≤ dby z := by
  induction z, h using Nat.le_induction with
  | base => exact le_rfl
  | succ z hz ih =>
    rw [dby_succ z (le_trans hy hz)]
    omega

theorem dbm_step (y m : Nat) (h1 : 1 ≤ m) (h2 : m < 12) :
    dbm y (m + 1) = dbm y m + monthLength y m := by
  unfold dbm monthLength
  by_cases h : LeapYear y <;> interval_cases m <;> simp [h, daysBefore]

theorem dbm_last (y : Nat) : dbm y 12 + monthLength y 12 = 365 + if LeapYear y then 1 else 0 := by
  unfold dbm monthLength
  by_cases h : LeapYear y <;> simp [h, daysBefore]

theorem dbm_mono (y : Nat) {m k : Nat} (h1 : 1 ≤ m) (h : m ≤ k) (h2 : k ≤ 12) :
    dbm y m ≤ dbm y k := by
  induction k, h using Nat.le_induction with
  | base => exact le_rfl
  | succ k hk ih =>
    have := ih (by omega)
    rw [dbm_step y k (by omega) (by omega)]
    omega

theorem dbm_one (y : Nat) : dbm y 1 = 0 := by simp [dbm, daysBefore]

theorem YMD.Proper.next {d : YMD} (h : d.Proper) : d.next.Proper ∧ d.next.ord = d.ord + 1 := by
  obtain ⟨y, m, k⟩ := d
  obtain ⟨h1, h2, h3, h4, h5⟩ := h
  dsimp only at h1 h2 h3 h4 h5
  unfold YMD.next
  dsimp only
  split
  · next h => exact ⟨⟨h1, h2, h3, by dsimp only; omega, by dsimp only; omega⟩, by simp only [YMD.ord]; omega⟩
  · next h =>
    split
    · next h' =>
      refine ⟨⟨h1, by dsimp only; omega, by dsimp only; omega, le_rfl, ?_⟩, ?_⟩
      · dsimp only [monthLength]
        repeat' split
        all_goals omega
      · simp only [YMD.ord, dbm_step y m h2 h']; omega
    · next h' =>
      obtain rfl : m = 12 := by omega
      refine ⟨⟨by dsimp only; omega, le_rfl, by dsimp only; omega, le_rfl, ?_⟩, ?_⟩
      · simp [monthLength]
      · have := dbm_last y
        simp only [YMD.ord, dby_succ y h1, dbm_one]; omega

theorem YMD.after_proper (n : Nat) : (YMD.after n).Proper ∧ (YMD.after n).ord = n + 1 := by
  induction n with
  | zero => exact ⟨⟨le_rfl, le_rfl, by decide, le_rfl, by decide⟩, by decide⟩
  | succ n ih =>
    have := ih.1.next
    exact ⟨this.1, by rw [YMD.after, this.2, ih.2]⟩

theorem dayOfYear_le {d : YMD} (h : d.Proper) :
    1 ≤ dbm d.year d.month + d.day ∧
      dbm d.year d.month + d.day ≤ 365 + if LeapYear d.year then 1 else 0 := by
  obtain ⟨h1, h2, h3, h4, h5⟩ := h
  refine ⟨by omega, ?_⟩
  rw [← dbm_last d.year]
  by_cases hm : d.month = 12
  · rw [hm] at h5 ⊢; omega
  · have e1 := dbm_step d.year d.month h2 (by omega)
    have e2 := dbm_mono d.year (m := d.month + 1) (k := 12) (by omega) (by omega) le_rfl
    omega

theorem YMD.ord_inj {d e : YMD} (hd : d.Proper) (he : e.Proper) (h : d.ord = e.ord) : d = e := by
  have year : d.year = e.year := by
    have a := dayOfYear_le hd
    have b := dayOfYear_le he
    have a' := dby_succ d.year hd.1
    have b' := dby_succ e.year he.1
    unfold YMD.ord at h
    rcases lt_trichotomy d.year e.year with hlt | heq | hgt
    · have := dby_mono (by omega) (Nat.succ_le_of_lt hlt)
      simp only [Nat.succ_eq_add_one] at this
      omega
    · exact heq
    · have := dby_mono (by omega) (Nat.succ_le_of_lt hgt)
      simp only [Nat.succ_eq_add_one] at this
      omega
  obtain ⟨y, m, k⟩ := d
  obtain ⟨y', m', k'⟩ := e
  dsimp only at year
  subst year
  obtain ⟨h1, h2, h3, h4, h5⟩ := hd
  obtain ⟨-, g2, g3, g4, g5⟩ := he
  dsimp only at h1 h2 h3 h4 h5 g2 g3 g4 g5
  simp only [YMD.ord] at h
  have month : m = m' := by
    rcases lt_trichotomy m m' with hlt | heq | hgt
    · have a := dbm_step y m h2 (by omega)
      have b := dbm_mono y (m := m + 1) (k := m') (by omega) hlt g3
      omega
    · exact heq
    · have a := dbm_step y m' g2 (by omega)
      have b := dbm_mono y (m := m' + 1) (k := m) (by omega) hgt h3
      omega
  subst month
  obtain rfl : k = k' := by omega
  rfl

/-- Month and day are right within a year. -/
theorem monthDay_spec (leap : Bool) (n : Nat) (h : n < 365 + leap.toNat) :
    let md := monthDay leap n
    1 ≤ md.1 ∧ md.1 ≤ 12 ∧ 1 ≤ md.2 ∧
      md.2 ≤ daysIn md.1 + (if md.1 = 2 ∧ leap then 1 else 0) ∧
      daysBefore md.1 + (if 2 < md.1 ∧ leap then 1 else 0) + md.2 = n + 1 := by
  cases leap
  · have : ∀ n < 365, 
      let md := monthDay false n
      1 ≤ md.1 ∧ md.1 ≤ 12 ∧ 1 ≤ md.2 ∧
        md.2 ≤ daysIn md.1 + (if md.1 = 2 ∧ false then 1 else 0) ∧
        daysBefore md.1 + (if 2 < md.1 ∧ false then 1 else 0) + md.2 = n + 1 := by decide +kernel
    exact this n h
  · have : ∀ n < 366, 
      let md := monthDay true n
      1 ≤ md.1 ∧ md.1 ≤ 12 ∧ 1 ≤ md.2 ∧
        md.2 ≤ daysIn md.1 + (if md.1 = 2 ∧ true then 1 else 0) ∧
        daysBefore md.1 + (if 2 < md.1 ∧ true then 1 else 0) + md.2 = n + 1 := by decide +kernel
    exact this n h

theorem monthLength_eq (y m : Nat) :
    monthLength y m = daysIn m + if m = 2 ∧ LeapYear y then 1 else 0 := by
  unfold monthLength
  by_cases h2 : m = 2
  · subst h2; by_cases h : LeapYear y <;> simp [h, daysIn]
  by_cases h4 : m = 4
  · subst h4; simp [daysIn]
  by_cases h6 : m = 6
  · subst h6; simp [daysIn]
  by_cases h9 : m = 9
  · subst h9; simp [daysIn]
  by_cases h11 : m = 11
  · subst h11; simp [daysIn]
  have : daysIn m = 31 := by
    unfold daysIn; split <;> first | rfl | contradiction
  simp [h2, h4, h6, h9, h11, this]

theorem ord2ymd_spec (n : Nat) : (ord2ymd (n + 1)).Proper ∧ (ord2ymd (n + 1)).ord = n + 1 := by
  unfold ord2ymd
  dsimp only
  rw [Nat.add_sub_cancel]
  generalize ha : n / 146097 = a
  generalize hb : n % 146097 / 36524 = b
  generalize hc : n % 146097 % 36524 / 1461 = c
  generalize hd : n % 146097 % 36524 % 1461 / 365 = d
  generalize he : n % 146097 % 36524 % 1461 % 365 = e
  have e0 : n = 146097 * a + 36524 * b + 1461 * c + 365 * d + e := by omega
  have b1 : b ≤ 4 := by omega
  have c1 : c ≤ 24 := by omega
  have d1 : d ≤ 4 := by omega
  have e1 : e < 365 := by omega
  have f4 : d = 4 → e = 0 := by omega
  have f100 : b = 4 → c = 0 ∧ d = 0 ∧ e = 0 := by omega
  have g4 : d = 4 → c = 24 → b = 3 := by omega
  clear ha hb hc hd he
  split
  · next h =>
    have hl : LeapYear (a * 400 + 1 + b * 100 + c * 4 + d - 1) := by
      unfold LeapYear; omega
    have hy : 1 ≤ a * 400 + 1 + b * 100 + c * 4 + d - 1 := by omega
    refine ⟨⟨hy, by dsimp only; omega, le_rfl, by dsimp only; omega, by simp [monthLength]⟩, ?_⟩
    have s := dby_succ _ hy
    rw [if_pos hl] at s
    simp only [YMD.ord, dbm, hl, daysBefore]
    rw [Nat.sub_add_cancel (by omega)] at s
    have : dby (a * 400 + 1 + b * 100 + c * 4 + d) = n + 1 := by
      unfold dby; omega
    simp
    omega
  · next h =>
    rw [not_or] at h
    set y := a * 400 + 1 + b * 100 + c * 4 + d with hy
    have hl : decide (d = 3 ∧ (c ≠ 24 ∨ b = 3)) = decide (LeapYear y) := by
      apply decide_eq_decide.2
      unfold LeapYear; omega
    rw [hl]
    obtain ⟨m1, m2, m3, m4, m5⟩ := monthDay_spec (decide (LeapYear y)) e (by omega)
    refine ⟨⟨by dsimp only; omega, m1, m2, m3, ?_⟩, ?_⟩
    · rw [monthLength_eq]
      simpa using m4
    · have hdby : dby y + e = n := by unfold dby; omega
      simp only [YMD.ord, dbm]
      simp only [decide_eq_true_eq] at m5
      omega

/-- `_ord2ymd` counts the days of the Gregorian calendar. -/
theorem ord2ymd_eq (n : Nat) : ord2ymd (n + 1) = YMD.after n :=
  YMD.ord_inj (ord2ymd_spec n).1 (YMD.after_proper n).1
    ((ord2ymd_spec n).2.trans (YMD.after_proper n).2.symm)

theorem ord2ymd_inj {m n : Nat} (hm : 1 ≤ m) (hn : 1 ≤ n) (h : ord2ymd m = ord2ymd n) : m = n := by
  obtain ⟨m, rfl⟩ := Nat.exists_eq_add_of_le' hm
  obtain ⟨n, rfl⟩ := Nat.exists_eq_add_of_le' hn
  rw [← (ord2ymd_spec m).2, ← (ord2ymd_spec n).2, h]

end Fauxdoc
