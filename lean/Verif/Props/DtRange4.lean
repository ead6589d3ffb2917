import Verif.Props.DtRange
/-
Properties C67 and C68: how `dtrange` reads its arguments, and the `stop` attribute of ranges.
-/
namespace Fauxdoc

/-! ### C67: arguments -/

/-- `timedelta` holds -999999999 to 999999999 days and a part of a day. -/
theorem C67_timedelta (d : Int) : (∃ t, mkTd d = .ok t) ↔ -999999999 ≤ d / DAY ∧ d / DAY ≤ 999999999 := by
  have key : tdValid d ↔ -999999999 ≤ d / DAY ∧ d / DAY ≤ 999999999 := by
    simp only [tdValid, DAY]
    omega
  rw [← key]
  unfold mkTd
  split <;> simp_all

/-- **C67 (units).** A week is 7 days, a day 24 hours, an hour 60 minutes, a minute 60 seconds, a
second 1000 milliseconds or 1000000 microseconds: the results are the same, including exceptions. -/
theorem C67_units (iso : IsoParsers) (ua ub : UserDate) (n : Int) :
    dtrange iso ua ub n (some "weeks") = dtrange iso ua ub (7 * n) (some "days") ∧
    dtrange iso ua ub n (some "days") = dtrange iso ua ub (24 * n) (some "hours") ∧
    dtrange iso ua ub n (some "hours") = dtrange iso ua ub (60 * n) (some "minutes") ∧
    dtrange iso ua ub n (some "minutes") = dtrange iso ua ub (60 * n) (some "seconds") ∧
    dtrange iso ua ub n (some "seconds") = dtrange iso ua ub (1000 * n) (some "milliseconds") ∧
    dtrange iso ua ub n (some "milliseconds") = dtrange iso ua ub (1000 * n) (some "microseconds") := by
  have key : ∀ u v : String, ∀ m k : Int, stepTd u m = stepTd v k →
      dtrange iso ua ub m (some u) = dtrange iso ua ub k (some v) := by
    intro u v m k h
    unfold dtrange
    simp only [Option.getD_some, h]
  refine ⟨key _ _ _ _ ?_, key _ _ _ _ ?_, key _ _ _ _ ?_, key _ _ _ _ ?_, key _ _ _ _ ?_,
    key _ _ _ _ ?_⟩ <;>
  · simp only [stepTd, tdUnit]
    congr 1
    try simp only [DAY]
    omega

/-- **C67 (microseconds).** The smallest unit is the timedelta of that many microseconds. -/
theorem C67_microseconds (iso : IsoParsers) {ua ub : UserDate} {a b : DT}
    (ha : parseUserDate iso ua = .ok a) (hb : parseUserDate iso ub = .ok b)
    (ht : a.sameType b = true) (n : Int) :
    (-999999999 ≤ n / DAY ∧ n / DAY ≤ 999999999 →
      dtrange iso ua ub n (some "microseconds") = dtrangeTd a b n) ∧
    (¬ (-999999999 ≤ n / DAY ∧ n / DAY ≤ 999999999) →
      dtrange iso ua ub n (some "microseconds") = .error .overflow) := by
  have e : dtrange iso ua ub n (some "microseconds") = (do dtrangeTd a b (← mkTd n)) := by
    simp [dtrange, ha, hb, ht, stepTd, tdUnit]
  rw [e, ← C67_timedelta]
  unfold mkTd
  split <;> simp

/-- **C67 (default unit).** Days for dates, seconds for times and datetimes. -/
theorem C67_default (iso : IsoParsers) {ua : UserDate} (ub : UserDate) {a : DT}
    (ha : parseUserDate iso ua = .ok a) (n : Int) :
    (∀ o, a = .date o → dtrange iso ua ub n none = dtrange iso ua ub n (some "days")) ∧
    (∀ u, a = .time u ∨ a = .datetime u →
      dtrange iso ua ub n none = dtrange iso ua ub n (some "seconds")) := by
  constructor
  · rintro o rfl
    simp [dtrange, ha, defaultUnit]
  · rintro u (rfl | rfl) <;> simp [dtrange, ha, defaultUnit]

/-- What a string stands for: a date if `date.fromisoformat` accepts it, otherwise a time, otherwise a
datetime. -/
inductive Denotes (iso : IsoParsers) (s : String) : DT → Prop
  | date {o : Int} : iso.date s = some o → Denotes iso s (.date o)
  | time {u : Int} : iso.date s = none → iso.time s = some u → Denotes iso s (.time u)
  | datetime {u : Int} : iso.date s = none → iso.time s = none → iso.datetime s = some u →
      Denotes iso s (.datetime u)

theorem parse_denotes {iso : IsoParsers} {s : String} {v : DT} :
    parseUserDate iso (.str s) = .ok v ↔ Denotes iso s v := by
  unfold parseUserDate
  dsimp only
  constructor
  · intro h
    cases h1 : iso.date s with
    | some o => rw [h1] at h; cases h; exact .date h1
    | none =>
      rw [h1] at h
      cases h2 : iso.time s with
      | some u => rw [h2] at h; cases h; exact .time h1 h2
      | none =>
        rw [h2] at h
        cases h3 : iso.datetime s with
        | some u => rw [h3] at h; cases h; exact .datetime h1 h2 h3
        | none => rw [h3] at h; cases h
  · intro h
    cases h <;> simp_all

/-- **C67 (strings).** A string argument is as good as the value it stands for. -/
theorem C67_start_string (iso : IsoParsers) {s : String} {v : DT} (h : Denotes iso s v)
    (ub : UserDate) (n : Int) (unit : Option String) :
    dtrange iso (.str s) ub n unit = dtrange iso (.dt v) ub n unit := by
  unfold dtrange
  rw [parse_denotes.2 h]
  rfl

theorem C67_stop_string (iso : IsoParsers) {s : String} {v : DT} (h : Denotes iso s v)
    (ua : UserDate) (n : Int) (unit : Option String) :
    dtrange iso ua (.str s) n unit = dtrange iso ua (.dt v) n unit := by
  unfold dtrange
  rw [parse_denotes.2 h]
  rfl

/-- **C67 (refused).** A string that is none of the three, any other object, arguments of two types and
an unknown unit are refused with `ValueError`. -/
theorem C67_refused (iso : IsoParsers) (ua ub : UserDate) (n : Int) (unit : Option String) :
    (∀ s, ua = .str s → (∀ v, ¬ Denotes iso s v) → dtrange iso ua ub n unit = .error .valueError) ∧
    (∀ s a, parseUserDate iso ua = .ok a → ub = .str s → (∀ v, ¬ Denotes iso s v) →
      dtrange iso ua ub n unit = .error .valueError) ∧
    (ua = .other → dtrange iso ua ub n unit = .error .valueError) ∧
    (∀ a b, parseUserDate iso ua = .ok a → parseUserDate iso ub = .ok b → a.sameType b = false →
      dtrange iso ua ub n unit = .error .valueError) ∧
    (∀ a b u, parseUserDate iso ua = .ok a → parseUserDate iso ub = .ok b → unit = some u →
      u ∉ ["weeks", "days", "hours", "minutes", "seconds", "milliseconds", "microseconds"] →
      dtrange iso ua ub n unit = .error .valueError) := by
  have hbad : ∀ s, (∀ v, ¬ Denotes iso s v) → parseUserDate iso (.str s) = .error .valueError := by
    intro s h
    rcases hp : parseUserDate iso (.str s) with e | v
    · unfold parseUserDate at hp
      dsimp only at hp
      cases h1 : iso.date s <;> rw [h1] at hp
      · cases h2 : iso.time s <;> rw [h2] at hp
        · cases h3 : iso.datetime s <;> rw [h3] at hp
          · cases hp; rfl
          · cases hp
        · cases hp
      · cases hp
    · exact absurd (parse_denotes.1 hp) (h v)
  refine ⟨?_, ?_, ?_, ?_, ?_⟩
  · rintro s rfl h
    simp [dtrange, hbad s h]
  · rintro s a ha rfl h
    simp [dtrange, ha, hbad s h]
  · rintro rfl
    rfl
  · intro a b ha hb ht
    simp [dtrange, ha, hb, ht]
  · rintro a b u ha hb rfl hu
    have hu' : tdUnit u = none := by
      unfold tdUnit
      split <;> first | rfl | simp_all
    by_cases ht : a.sameType b = true
    · simp [dtrange, ha, hb, stepTd, hu']
    · simp [dtrange, ha, hb, ht]

/-- **C67 (zero).** A step of zero is refused, with `ZeroDivisionError` (`range` raises
`ValueError`). -/
theorem C67_zero_step (iso : IsoParsers) {ua ub : UserDate} {a b : DT}
    (ha : parseUserDate iso ua = .ok a) (hb : parseUserDate iso ub = .ok b)
    (hva : a.Valid) (ht : a.sameType b = true) {u : String} {k : Int} (hu : tdUnit u = some k) :
    dtrange iso ua ub 0 (some u) = .error .zeroDivision := by
  have h0 : tdValid 0 := by decide
  have e : dtrange iso ua ub 0 (some u) = dtrangeTd a b 0 := by
    simp [dtrange, ha, hb, ht, stepTd, hu, mkTd, h0]
  rw [e]
  cases a with
  | date o =>
    cases b <;> simp only [DT.sameType, Bool.false_eq_true] at ht
    simp [dtrangeTd, DT.sameType, valueToIndex, tdDivmod]
  | datetime o =>
    cases b <;> simp only [DT.sameType, Bool.false_eq_true] at ht
    simp [dtrangeTd, DT.sameType, valueToIndex, tdDivmod]
  | time o =>
    cases b <;> simp only [DT.sameType, Bool.false_eq_true] at ht
    rename_i o'
    by_cases hoo : o = o'
    · subst hoo
      have hr : DAY ≤ 35795 * DAY + o + DAY ∧ 35795 * DAY + o + DAY < (MAXORD + 1) * DAY := by
        simp only [DT.Valid, DAY, MAXORD] at *
        omega
      simp [dtrangeTd, DT.sameType, datetimeAdd, hr, valueToIndex, tdDivmod]
    · have : DT.time o ≠ DT.time o' := fun h => hoo (by cases h; rfl)
      simp [dtrangeTd, DT.sameType, this, valueToIndex, tdDivmod]

/-! ### C68: `stop` -/

theorem ceilLen_exact (n step : Int) (h0 : step ≠ 0) : ceilLen (step * n) step = n := by
  unfold ceilLen
  rw [Int.fdiv_eq_of_eq_mul_right h0 rfl, Int.fmod_eq_zero_of_dvd (Dvd.intro n rfl)]
  simp

/-- **C68.** `stop` of a calendar range made by `dtrange` in the direction of its step is the first
value of the progression that is not in the range: one step after the last element, not before the
`stop` argument, but less than a step behind it.  A range made from `start` and `stop` is the same
range again.  (Missing: `stop` fails if that value is beyond the calendar, `C68_overflow_violated`;
times are different, `C68_time_violated`.) -/
theorem C68_stop_partial {start stop : DT} {step : Int} (hs : start.Valid) (hv : stop.Valid)
    (hc : start.isCalendar) (ht : start.sameType stop = true) (h0 : step ≠ 0)
    (hd : WholeStep start step) (htd : tdValid step)
    (hdir : (0 < step → start.num ≤ stop.num) ∧ (step < 0 → stop.num ≤ start.num)) {r : DTR}
    (hr : dtrangeTd start stop step = .ok r) {e : DT} (he : r.stop = .ok e) :
    (e.Valid ∧ start.sameType e = true ∧ e.num = start.num + r.length * step) ∧
    (¬ Before step e.num stop.num ∧ Before step (e.num - step) stop.num) ∧
    (∃ L, r.toList = .ok L ∧ e ∉ L) ∧ dtrangeTd r.start e r.step = .ok r := by
  rw [dtrangeTd_calendar h0 hc ht hd htd] at hr
  cases hr
  have hlt := lt_ceilLen (stop.num - start.num) step h0
  have hlen : 0 ≤ ceilLen (stop.num - start.num) step := by
    have : (-1 : Int) < ceilLen (stop.num - start.num) step := by
      rw [hlt]
      rcases lt_or_gt_of_ne h0 with h | h
      · right; refine ⟨h, ?_⟩
        have := hdir.2 h; omega
      · left; refine ⟨h, ?_⟩
        have := hdir.1 h; omega
    omega
  have hreach := fun i hi => ceil_index_reachable h0 hs hv hc ht hd i hi
  generalize hn : ceilLen (stop.num - start.num) step = n at *
  unfold DTR.stop DTR.len at he
  dsimp only at he
  rw [if_neg (by omega), Py.ok_bind, indexToValue_eq] at he
  have hR : Reachable start (step * n) := by
    by_contra hR
    rw [if_neg hR] at he; cases he
  rw [if_pos hR] at he
  cases he
  have hdn : ∀ o, start = .date o → DAY ∣ step * n := fun o ho => Dvd.dvd.mul_right (hd o ho) _
  have hnum := plus_num_calendar start (step * n) hc hdn
  obtain ⟨hval, hst⟩ := plus_valid_of_reachable hR
  refine ⟨⟨hval, hst, by rw [hnum, mul_comm]⟩, ⟨?_, ?_⟩, ?_, ?_⟩
  · intro hb
    refine lt_irrefl n ((hlt n).2 ?_)
    rw [hnum] at hb
    unfold Before at hb ⊢
    omega
  · have := (hlt (n - 1)).1 (by omega)
    rw [hnum]
    rw [show step * (n - 1) = step * n - step by ring] at this
    unfold Before at this ⊢
    omega
  · refine ⟨_, DTR.toList_eq ⟨start, n, step⟩ hlen hreach, ?_⟩
    intro hm
    simp only [DTR.elems, List.mem_map, List.mem_range] at hm
    obtain ⟨k, hk, hke⟩ := hm
    have h1 := plus_num_calendar start (step * k) hc fun o ho => Dvd.dvd.mul_right (hd o ho) _
    rw [hke, hnum] at h1
    have : step * n = step * (k : Int) := by omega
    have := mul_left_cancel₀ h0 this
    omega
  · rw [dtrangeTd_calendar h0 hc hst hd htd, hnum]
    rw [show start.num + step * n - start.num = step * n by ring, ceilLen_exact n step h0]

/-- **C68 (exact).** If the step divides the distance, `stop` is the argument. -/
theorem C68_exact {start stop : DT} {step n : Int} (hs : start.Valid) (hv : stop.Valid)
    (hc : start.isCalendar) (ht : start.sameType stop = true) (h0 : step ≠ 0)
    (hd : WholeStep start step) (htd : tdValid step) (hn : 0 ≤ n) (hk : stop.num = start.num + n * step) :
    ∃ r, dtrangeTd start stop step = .ok r ∧ r.length = n ∧ r.stop = .ok stop := by
  refine ⟨_, dtrangeTd_calendar h0 hc ht hd htd, ?_⟩
  rw [hk, show start.num + n * step - start.num = step * n by ring, ceilLen_exact n step h0]
  refine ⟨rfl, ?_⟩
  unfold DTR.stop DTR.len
  dsimp only
  have hdn : ∀ o, start = .date o → DAY ∣ step * n := fun o ho => Dvd.dvd.mul_right (hd o ho) _
  have hR : Reachable start (step * n) := by
    refine reachable_between hs hv hc ht _ hdn ?_
    rw [hk, mul_comm n step]
    rcases lt_or_gt_of_ne h0 with h | h
    · right
      have := mul_nonpos_of_nonpos_of_nonneg h.le hn
      omega
    · left
      have := mul_nonneg h.le hn
      omega
  rw [if_neg (by omega), Py.ok_bind, indexToValue_eq, if_pos hR]
  have hnum := plus_num_calendar start (step * n) hc hdn
  rw [mul_comm step n, ← hk] at hnum
  rw [mul_comm step n]
  have hst := (plus_valid_of_reachable hR).2
  rw [mul_comm step n] at hst
  generalize start.plus (n * step) = v at *
  congr 1
  cases start <;> cases stop <;> simp only [DT.sameType, Bool.false_eq_true] at ht <;>
    cases v <;> simp only [DT.sameType, Bool.false_eq_true] at hst <;>
    (simp only [DT.num, DAY] at hnum ⊢; congr 1; try omega)

/-- **C68 (times).** For clock times: where the clock stands after `length` steps. -/
theorem C68_time (a step n : Int) (hn : 0 ≤ n) (ha : (DT.time a).Valid)
    (hlen : -DAY * 30000 ≤ n * step ∧ n * step ≤ DAY * 30000) :
    (DTR.mk (.time a) n step).stop = .ok (.time ((a + n * step) % DAY)) := by
  unfold DTR.stop DTR.len
  dsimp only
  have hR : Reachable (.time a) (step * n) := by
    rw [mul_comm n step] at hlen
    generalize step * n = x at *
    simp only [Reachable, tdValid, DT.Valid, DAY, MAXORD] at *
    omega
  rw [if_neg (by omega), Py.ok_bind, indexToValue_eq, if_pos hR]
  simp only [DT.plus, mul_comm]

/-- **C68 is violated** at the end of the calendar: `dtrange(date(9999, 12, 30), date.max, 2)` is a
range of one date whose `stop` (and so its `repr`) raises `OverflowError`. -/
theorem C68_overflow_violated :
    ∃ r, dtrangeTd (.date (MAXORD - 1)) (.date MAXORD) (2 * DAY) = .ok r ∧
      r.toList = .ok [.date (MAXORD - 1)] ∧ r.stop = .error .overflow :=
  ⟨⟨.date (MAXORD - 1), 1, 2 * DAY⟩, by decide, by decide, by decide⟩

/-- **C68 is violated** for times: 00:00 to 20:00 in steps of 8 hours has 3 elements and `stop`
00:00, which is in the range; 00:00 to 23:00 in steps of 7 hours has `stop` 04:00, and a range made
from that has one element instead of four. -/
theorem C68_time_violated :
    (∃ r e L, dtrangeTd (.time 0) (.time 72000000000) 28800000000 = .ok r ∧ r.stop = .ok e ∧
      r.toList = .ok L ∧ e ∈ L) ∧
    (∃ r e r', dtrangeTd (.time 0) (.time 82800000000) 25200000000 = .ok r ∧ r.stop = .ok e ∧
      dtrangeTd r.start e r.step = .ok r' ∧ r.len = .ok 4 ∧ r'.len = .ok 1) :=
  ⟨⟨⟨.time 0, 3, 28800000000⟩, .time 0, [.time 0, .time 28800000000, .time 57600000000], by decide,
    by decide, by decide, by decide⟩,
    ⟨.time 0, 4, 25200000000⟩, .time 14400000000, ⟨.time 0, 1, 25200000000⟩, by decide, by decide,
    by decide, by decide, by decide⟩

/-! ### Concrete cases -/

/-- Parsers for two strings. -/
def demoIso : IsoParsers where
  date s := if s = "2021-01-01" then some 737791 else none
  time s := if s = "04:00" then some 14400000000 else none
  datetime s := if s = "2021-01-01" then some (737791 * DAY) else none

example : Denotes demoIso "2021-01-01" (.date 737791) := .date (by decide)

example : dtrange demoIso (.str "2021-01-01") (.dt (.date 737805)) 1 (some "weeks") =
    .ok ⟨.date 737791, 2, 604800000000⟩ := by decide

example : dtrange demoIso (.str "2021-01-01") (.str "04:00") 1 none = .error .valueError := by decide

/-- 2021-01-01 to 2021-01-08 in steps of 3 days: `stop` is 2021-01-10. -/
example : (DTR.mk (.date 737791) 3 (3 * DAY)).stop = .ok (.date 737800) := by decide

end Fauxdoc
