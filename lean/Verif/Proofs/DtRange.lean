import Verif.Spec.DtRange
import Verif.Proofs.TotalSeconds
import Mathlib.Tactic.Linarith
import Mathlib.Tactic.Ring
import Mathlib.Tactic.NormNum
import Mathlib.Data.List.Basic
/- Lemmas about the date/time range model. -/
namespace Fauxdoc

theorem DAY_pos : 0 < DAY := by decide

theorem fdivmod_spec (a b : Int) :
    a = b * Int.fdiv a b + Int.fmod a b ∧ (0 < b → 0 ≤ Int.fmod a b ∧ Int.fmod a b < b) ∧
      (b < 0 → b < Int.fmod a b ∧ Int.fmod a b ≤ 0) := by
  refine ⟨(Int.mul_fdiv_add_fmod a b).symm, ?_, ?_⟩
  · intro h
    exact ⟨Int.fmod_nonneg_of_pos a h, Int.fmod_lt_of_pos a h⟩
  · intro h
    have h2 : Int.fmod a b = - Int.fmod (-a) (-b) := by
      simp
    have h3 : 0 < -b := by omega
    have := Int.fmod_nonneg_of_pos (-a) h3
    have := Int.fmod_lt_of_pos (-a) h3
    omega

theorem fdiv_DAY (a : Int) : Int.fdiv a DAY = a / DAY :=
  Int.fdiv_eq_ediv_of_nonneg a (by decide)

theorem fmod_DAY (a : Int) : Int.fmod a DAY = a % DAY :=
  Int.fmod_eq_emod_of_nonneg a (by decide)

theorem rangeLen_zero_one (n : Int) : rangeLen 0 n 1 = n.toNat := by
  unfold rangeLen
  split <;> split <;> omega

@[simp] theorem DTR.indexRange_len (r : DTR) : r.indexRange.len = r.length.toNat :=
  rangeLen_zero_one _

/-- Moving `us` microseconds from `start` stays representable (the arithmetic of
`_index_to_value` raises no `OverflowError`). -/
def Reachable (start : DT) (us : Int) : Prop :=
  tdValid us ∧
  match start with
  | .date o => 1 ≤ o + us / DAY ∧ o + us / DAY ≤ MAXORD
  | .time u => DAY ≤ 35795 * DAY + u + us ∧ 35795 * DAY + u + us < (MAXORD + 1) * DAY
  | .datetime u => DAY ≤ u + us ∧ u + us < (MAXORD + 1) * DAY

instance (start : DT) (us : Int) : Decidable (Reachable start us) := by
  unfold Reachable; cases start <;> infer_instance

theorem indexToValue_eq (i : Int) (start : DT) (step : Int) :
    indexToValue i start step =
      if Reachable start (step * i) then .ok (start.plus (step * i)) else .error .overflow := by
  unfold indexToValue mkTd Reachable
  by_cases h : tdValid (step * i)
  · cases start with
    | date o =>
      simp only [h, if_true, dateAdd, fdiv_DAY, DT.plus, true_and, Py.ok_bind]
      split <;> rfl
    | time u =>
      simp only [h, if_true, datetimeAdd, fmod_DAY, DT.plus, true_and, Py.ok_bind]
      split
      · have : (35795 * DAY + u + step * i) % DAY = (u + step * i) % DAY := by
          rw [Int.add_assoc, Int.add_comm, Int.add_mul_emod_self_right]
        simp [this]
      · rfl
    | datetime u =>
      simp only [h, if_true, datetimeAdd, DT.plus, true_and, Py.ok_bind]
      split <;> rfl
  · simp only [h, if_false, false_and]; rfl

theorem DTR.getItem_eq (r : DTR) (i : Int) :
    r.getItem i =
      if -(r.length.toNat : Int) ≤ i ∧ i < r.length.toNat then
        indexToValue (if i < 0 then i + r.length.toNat else i) r.start r.step
      else .error .indexError := by
  unfold DTR.getItem PyRange.getItem
  simp only [DTR.indexRange_len]
  generalize r.length.toNat = n
  have e : ∀ j : Int, r.indexRange.start + j * r.indexRange.step = j := by
    intro j; simp [DTR.indexRange]
  by_cases h : -(n : Int) ≤ i ∧ i < n
  · rw [if_pos h, if_neg (by split <;> omega), e]; rfl
  · rw [if_neg h, if_pos (by split <;> omega)]; rfl

theorem DTR.getItem_nat (r : DTR) (i : Nat) :
    r.getItem i = if (i : Int) < r.length then indexToValue i r.start r.step
      else .error .indexError := by
  rw [DTR.getItem_eq]
  by_cases h : (i : Int) < r.length
  · rw [if_pos h, if_pos (by omega), if_neg (by omega)]
  · rw [if_neg h, if_neg (by omega)]

theorem DTR.iterFrom_eq (r : DTR) (hp : ∀ i : Nat, (i : Int) < r.length →
    Reachable r.start (r.step * i)) :
    ∀ (fuel i : Nat), r.length.toNat - i < fuel →
      r.iterFrom fuel i = .ok ((List.range (r.length.toNat - i)).map fun (k : Nat) =>
        r.start.plus (r.step * ((i + k : Nat) : Int))) := by
  intro fuel
  induction fuel with
  | zero => intro i h; omega
  | succ fuel ih =>
    intro i h
    rw [DTR.iterFrom, DTR.getItem_nat]
    by_cases hi : (i : Int) < r.length
    · rw [if_pos hi, indexToValue_eq, if_pos (hp i hi)]
      obtain ⟨m, hm⟩ : ∃ m, r.length.toNat - i = m + 1 := ⟨r.length.toNat - i - 1, by omega⟩
      have hm' : r.length.toNat - (i + 1) = m := by omega
      simp only [ih (i + 1) (by omega), hm, hm', List.range_succ_eq_map, List.map_cons,
        List.map_map]
      change Except.ok _ = _
      simp [Function.comp_def, Nat.add_assoc, Nat.add_comm 1]
    · rw [if_neg hi]
      have : r.length.toNat - i = 0 := by omega
      simp [this]

/-- The list of all values of the progression. -/
def DTR.elems (r : DTR) : List DT :=
  (List.range r.length.toNat).map fun (k : Nat) => r.start.plus (r.step * (k : Int))

theorem DTR.iter_eq (r : DTR) (hp : ∀ i : Nat, (i : Int) < r.length →
    Reachable r.start (r.step * i)) : r.iter = .ok r.elems := by
  unfold DTR.iter DTR.elems
  rw [r.iterFrom_eq hp _ 0 (by omega)]
  simp

theorem DTR.toList_eq (r : DTR) (hl : 0 ≤ r.length) (hp : ∀ i : Nat, (i : Int) < r.length →
    Reachable r.start (r.step * i)) : r.toList = .ok r.elems := by
  unfold DTR.toList DTR.len
  rw [if_neg (by omega), r.iter_eq hp]; rfl

theorem DTR.Proper.reachable {r : DTR} (h : r.Proper) (i : Nat) (hi : (i : Int) < r.length) :
    Reachable r.start (r.step * i) := by
  obtain ⟨v, hv⟩ := h.2 i hi
  rw [indexToValue_eq] at hv
  by_contra hn
  rw [if_neg hn] at hv
  cases hv

/-- Below 544 years the check of the step is exact. -/
theorem DTR.Built.whole {r : DTR} (h : r.Built) (hst : r.step.natAbs < 2 ^ 34 * 1000000) :
    r.Whole := by
  intro o hs
  have h3 := h.2.2
  rw [hs] at h3
  unfold DTR.mk' at h3
  dsimp only at h3
  split at h3
  · cases h3
  · next h => exact dvd_of_totalSeconds hst (by simpa using h)

theorem DTR.Built.time_lt {r : DTR} (h : r.Built) {u : Int} (hs : r.start = .time u) :
    (r.step.natAbs : Int) < DAY := by
  have h3 := h.2.2
  rw [hs] at h3
  unfold DTR.mk' at h3
  by_contra hn
  rw [if_pos ((totalSeconds_day _).2 (not_lt.mp hn))] at h3
  cases h3

/-- Length computed by `dtrange` from the distance `D` (dtrange.py 346-356). -/
def ceilLen (D step : Int) : Int :=
  if Int.fmod D step ≠ 0 then Int.fdiv D step + 1 else Int.fdiv D step

theorem lt_ceilLen (D step : Int) (h : step ≠ 0) (i : Int) :
    i < ceilLen D step ↔ Before step (step * i) D := by
  obtain ⟨h1, h2, h3⟩ := fdivmod_spec D step
  unfold ceilLen Before
  generalize Int.fdiv D step = q at *
  generalize Int.fmod D step = m at *
  rcases lt_or_gt_of_ne h with hneg | hpos
  · have h3 := h3 hneg
    split
    · constructor
      · intro hi
        right; refine ⟨hneg, ?_⟩
        have : step * q ≤ step * i := by nlinarith
        omega
      · rintro (⟨h, _⟩ | ⟨_, hlt⟩)
        · omega
        · by_contra hc
          have : step * i ≤ step * (q + 1) := by nlinarith
          rw [mul_add, mul_one] at this
          omega
    · constructor
      · intro hi
        right; refine ⟨hneg, ?_⟩
        have : step * (q - 1) ≤ step * i := by nlinarith
        rw [mul_sub, mul_one] at this
        omega
      · rintro (⟨h, _⟩ | ⟨_, hlt⟩)
        · omega
        · by_contra hc
          have : step * i ≤ step * q := by nlinarith
          omega
  · have h2 := h2 hpos
    split
    · constructor
      · intro hi
        left; refine ⟨hpos, ?_⟩
        have : step * i ≤ step * q := by nlinarith
        omega
      · rintro (⟨_, hlt⟩ | ⟨h, _⟩)
        · by_contra hc
          have : step * (q + 1) ≤ step * i := by nlinarith
          rw [mul_add, mul_one] at this
          omega
        · omega
    · constructor
      · intro hi
        left; refine ⟨hpos, ?_⟩
        have : step * i ≤ step * (q - 1) := by nlinarith
        rw [mul_sub, mul_one] at this
        omega
      · rintro (⟨_, hlt⟩ | ⟨h, _⟩)
        · by_contra hc
          have : step * q ≤ step * i := by nlinarith
          omega
        · omega

theorem mk'_datetime (u length step : Int) :
    DTR.mk' (.datetime u) length step = .ok ⟨.datetime u, length, step⟩ := rfl

theorem mk'_date (o length step : Int) (h : DAY ∣ step) (ht : tdValid step) :
    DTR.mk' (.date o) length step = .ok ⟨.date o, length, step⟩ := by
  unfold DTR.mk'
  rw [if_neg]
  simp [totalSeconds_of_dvd h ht]

theorem mk'_time (u length step : Int) (h : (step.natAbs : Int) < DAY) :
    DTR.mk' (.time u) length step = .ok ⟨.time u, length, step⟩ := by
  unfold DTR.mk'
  rw [if_neg (fun h' => not_le.mpr h ((totalSeconds_day _).1 h'))]

/-- `dtrange` on two dates. -/
theorem dtrangeTd_date (a b step : Int) (h0 : step ≠ 0) (hd : DAY ∣ step) (ht : tdValid step) :
    dtrangeTd (.date a) (.date b) step = .ok ⟨.date a, ceilLen ((b - a) * DAY) step, step⟩ := by
  simp only [dtrangeTd, DT.sameType, valueToIndex, tdDivmod, h0, if_false, not_true_eq_false,
    Py.ok_bind]
  exact mk'_date _ _ _ hd ht

/-- `dtrange` on two datetimes. -/
theorem dtrangeTd_datetime (a b step : Int) (h0 : step ≠ 0) :
    dtrangeTd (.datetime a) (.datetime b) step =
      .ok ⟨.datetime a, ceilLen (b - a) step, step⟩ := by
  simp only [dtrangeTd, DT.sameType, valueToIndex, tdDivmod, h0, if_false, not_true_eq_false,
    Py.ok_bind]
  exact mk'_datetime _ _ _

/-- Distance from `s` to `v` on the clock, walking in the direction of `step` (dtrange.py 37-48). -/
def clockDist (s v step : Int) : Int :=
  if v < s ∧ 0 < step then DAY + v - s
  else if v > s ∧ step < 0 then v - s - DAY
  else v - s

theorem valueToIndex_time (v s step : Int) :
    valueToIndex (.time v) (.time s) step = tdDivmod (clockDist s v step) step := by
  unfold valueToIndex clockDist
  dsimp only
  simp only [totalSeconds_pos, totalSeconds_neg]
  congr 1
  split
  · omega
  · split <;> omega

/-- `dtrange` on two different times. -/
theorem dtrangeTd_time_ne (a b step : Int) (h0 : step ≠ 0) (hs : (step.natAbs : Int) < DAY)
    (hne : a ≠ b) :
    dtrangeTd (.time a) (.time b) step =
      .ok ⟨.time a, ceilLen (clockDist a b step) step, step⟩ := by
  have hne' : DT.time a ≠ DT.time b := by intro h; cases h; exact hne rfl
  simp only [dtrangeTd, DT.sameType, valueToIndex_time, tdDivmod, h0, if_false, not_true_eq_false,
    Py.ok_bind, hne']
  exact mk'_time _ _ _ hs

/-- `dtrange` with equal times: the full clock. -/
theorem dtrangeTd_time_eq (a step : Int) (ha : (DT.time a).Valid) (h0 : step ≠ 0)
    (hs : (step.natAbs : Int) < DAY) :
    dtrangeTd (.time a) (.time a) step = .ok ⟨.time a, ceilLen DAY step, step⟩ := by
  have : datetimeAdd (35795 * DAY + a) DAY = .ok (35795 * DAY + a + DAY) := by
    simp only [DT.Valid, DAY] at ha
    unfold datetimeAdd
    rw [if_pos (by simp only [DAY, MAXORD]; omega)]
  have e : 35795 * DAY + a + DAY - (35795 * DAY + a) = DAY := by omega
  simp only [dtrangeTd, DT.sameType, this, valueToIndex, tdDivmod, h0, if_false, if_true,
    not_true_eq_false, Py.ok_bind, e]
  exact mk'_time _ _ _ hs

theorem elems_getElem? (r : DTR) (i : Nat) :
    r.elems[i]? = if (i : Int) < r.length then some (r.start.plus (r.step * i)) else none := by
  unfold DTR.elems
  rw [List.getElem?_map]
  by_cases h : (i : Int) < r.length
  · rw [if_pos h, List.getElem?_range (by omega)]; rfl
  · rw [if_neg h, List.getElem?_eq_none (by simp; omega)]; rfl

theorem plus_num_calendar (s : DT) (us : Int) (hc : s.isCalendar)
    (hd : ∀ o, s = .date o → DAY ∣ us) : (s.plus us).num = s.num + us := by
  cases s with
  | time u => cases hc
  | datetime u => rfl
  | date o =>
    obtain ⟨k, rfl⟩ := hd o rfl
    have : DAY * k / DAY = k := Int.mul_ediv_cancel_left k (by decide)
    simp only [DT.plus, DT.num, this]
    ring

end Fauxdoc
