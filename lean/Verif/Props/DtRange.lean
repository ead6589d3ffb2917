import Verif.Proofs.DtRange
/-
Properties C01-C04 and C08: construction and enumeration of date/time ranges.
-/
namespace Fauxdoc

/-! ### C01: calendar ranges enumerate the half-open progression -/

theorem reachable_between {s e : DT} (hs : s.Valid) (he : e.Valid) (hc : s.isCalendar)
    (ht : s.sameType e = true) (us : Int) (hd : ∀ o, s = .date o → DAY ∣ us)
    (hb : (s.num ≤ s.num + us ∧ s.num + us ≤ e.num) ∨ (e.num ≤ s.num + us ∧ s.num + us ≤ s.num)) :
    Reachable s us := by
  cases s with
  | time u => cases hc
  | date o =>
    cases e <;> simp only [DT.sameType, Bool.false_eq_true] at ht
    obtain ⟨k, rfl⟩ := hd o rfl
    have e1 : DAY * k / DAY = k := Int.mul_ediv_cancel_left k (by decide)
    simp only [Reachable, e1, tdValid]
    simp only [DT.Valid, DT.num, DAY, MAXORD] at *
    omega
  | datetime u =>
    cases e <;> simp only [DT.sameType, Bool.false_eq_true] at ht
    simp only [Reachable, tdValid]
    simp only [DT.Valid, DT.num, DAY, MAXORD] at *
    omega

theorem plus_valid_of_reachable {s : DT} {us : Int} (h : Reachable s us) :
    (s.plus us).Valid ∧ s.sameType (s.plus us) = true := by
  cases s with
  | time u =>
    refine ⟨⟨Int.emod_nonneg _ (by decide), Int.emod_lt_of_pos _ DAY_pos⟩, rfl⟩
  | date o => exact ⟨h.2, rfl⟩
  | datetime u => exact ⟨h.2, rfl⟩

/-- The shape of every calendar range made by the factory. -/
theorem dtrangeTd_calendar {s e : DT} {step : Int} (h0 : step ≠ 0) (hc : s.isCalendar)
    (ht : s.sameType e = true) (hd : WholeStep s step) (htd : tdValid step) :
    dtrangeTd s e step = .ok ⟨s, ceilLen (e.num - s.num) step, step⟩ := by
  cases s with
  | time u => cases hc
  | date o =>
    cases e <;> simp only [DT.sameType, Bool.false_eq_true] at ht
    rw [dtrangeTd_date _ _ _ h0 (hd o rfl) htd]
    simp only [DT.num]
    rw [← sub_mul]
  | datetime u =>
    cases e <;> simp only [DT.sameType, Bool.false_eq_true] at ht
    rw [dtrangeTd_datetime _ _ _ h0]
    rfl

theorem ceil_index_reachable {s e : DT} {step : Int} (h0 : step ≠ 0) (hs : s.Valid) (he : e.Valid)
    (hc : s.isCalendar) (ht : s.sameType e = true) (hd : WholeStep s step) (i : Nat)
    (hi : (i : Int) < ceilLen (e.num - s.num) step) : Reachable s (step * i) := by
  rw [lt_ceilLen _ _ h0] at hi
  apply reachable_between hs he hc ht
  · intro o ho; exact Dvd.dvd.mul_right (hd o ho) _
  · rcases hi with ⟨hp, hi⟩ | ⟨hn, hi⟩
    · left; constructor
      · have : 0 ≤ step * (i : Int) := by positivity
        omega
      · omega
    · right; constructor
      · omega
      · have : step * (i : Int) ≤ 0 := mul_nonpos_of_nonpos_of_nonneg hn.le (by positivity)
        omega

theorem stepTd_valid {u : String} {n step : Int} (h : stepTd u n = .ok step) : tdValid step := by
  unfold stepTd at h
  split at h
  · cases h
  · unfold mkTd at h
    split at h
    · next hv => cases h; exact hv
    · cases h

/-- **C01.**  For date/datetime arguments (given directly or as strings) and a non-zero step that
does not point away from `stop` (whole days for dates), `dtrange` succeeds, `list()` of the result
succeeds, `len()` is its length, its elements are valid values of the same type, and its `i`-th
element is `start + i*step` as long as that lies strictly before `stop` and nothing afterwards. -/
theorem C01_calendar_range_elements (iso : IsoParsers) (ua ub : UserDate) (start stop : DT)
    (n : Int) (unit : Option String) (step : Int)
    (hua : parseUserDate iso ua = .ok start) (hub : parseUserDate iso ub = .ok stop)
    (hstep : stepTd (unit.getD (defaultUnit start)) n = .ok step)
    (hs : start.Valid) (he : stop.Valid) (hc : start.isCalendar)
    (ht : start.sameType stop = true) (h0 : step ≠ 0)
    (hd : WholeStep start step)
    (hdir : (0 < step → start.num ≤ stop.num) ∧ (step < 0 → stop.num ≤ start.num)) :
    ∃ r L, dtrange iso ua ub n unit = .ok r ∧ r.toList = .ok L ∧ r.len = .ok (L.length : Int) ∧
      (∀ v ∈ L, v.Valid ∧ start.sameType v = true) ∧
      ∀ i : Nat, (L[i]?).map DT.num =
        if Before step (start.num + i * step) stop.num then some (start.num + i * step)
        else none := by
  have hr := dtrangeTd_calendar h0 hc ht hd (stepTd_valid hstep)
  set D := stop.num - start.num with hD
  have hlen : 0 ≤ ceilLen D step := by
    have : (-1 : Int) < ceilLen D step := by
      rw [lt_ceilLen _ _ h0]
      rcases lt_or_gt_of_ne h0 with h | h
      · right; refine ⟨h, ?_⟩
        have := hdir.2 h; omega
      · left; refine ⟨h, ?_⟩
        have := hdir.1 h; omega
    omega
  have hreach : ∀ i : Nat, (i : Int) < ceilLen D step → Reachable start (step * i) :=
    fun i hi => ceil_index_reachable h0 hs he hc ht hd i hi
  refine ⟨⟨start, ceilLen D step, step⟩, _, ?_,
    DTR.toList_eq ⟨start, ceilLen D step, step⟩ hlen hreach, ?_, ?_, ?_⟩
  · simp only [dtrange, hua, hub, Py.ok_bind, ht, hstep, hr, not_true_eq_false, if_false]
  · simp only [DTR.len, DTR.elems, List.length_map, List.length_range]
    rw [if_neg (by omega)]; congr 1; omega
  · intro v hv
    simp only [DTR.elems, List.mem_map, List.mem_range] at hv
    obtain ⟨k, hk, rfl⟩ := hv
    exact plus_valid_of_reachable (hreach k (by omega))
  · intro i
    rw [elems_getElem?]
    have hiff := lt_ceilLen D step h0 i
    have hB : Before step (step * i) D ↔ Before step (start.num + i * step) stop.num := by
      unfold Before
      rw [mul_comm step (i : Int)]
      constructor <;> (rintro (⟨h, h'⟩ | ⟨h, h'⟩) <;> [left; right] <;> exact ⟨h, by omega⟩)
    by_cases h : (i : Int) < ceilLen D step
    · rw [if_pos h, if_pos (hB.mp (hiff.mp h))]
      simp only [Option.map_some]
      rw [plus_num_calendar _ _ hc (fun o ho => Dvd.dvd.mul_right (hd o ho) _), mul_comm]
    · rw [if_neg h, if_neg (fun hb => h (hiff.mpr (hB.mpr hb)))]
      rfl

/-- Non-vacuity of C01: 2021-01-01 .. 2021-01-08 in steps of 3 days is three dates. -/
example : dtrangeTd (.date 737791) (.date 737798) (3 * DAY) = .ok ⟨.date 737791, 3, 3 * DAY⟩ ∧
    (DTR.mk (.date 737791) 3 (3 * DAY)).toList =
      .ok [.date 737791, .date 737794, .date 737797] := by decide

/-- Non-vacuity of C01: descending datetimes. -/
example : (do (← dtrangeTd (.datetime (5 * DAY)) (.datetime (4 * DAY)) (-43200000000)).toList) =
    .ok [.datetime (5 * DAY), .datetime (5 * DAY - 43200000000)] := by decide

/-! ### C02: ranges against their direction -/

/-- **C02 (partial).**  A range whose step points away from `stop` visits nothing when iterated
with `for`, and it is a proper empty range (`len() == 0`, `list() == []`) if `stop` is nearer than
one step.  Missing: the property fails otherwise, see `C02_wrong_direction_violated`. -/
theorem C02_wrong_direction_partial (start stop : DT) (step : Int)
    (hc : start.isCalendar) (ht : start.sameType stop = true) (h0 : step ≠ 0)
    (hd : WholeStep start step) (htd : tdValid step)
    (hdir : Before step stop.num start.num) :
    ∃ r, dtrangeTd start stop step = .ok r ∧ r.iter = .ok [] ∧
      (Before step (start.num - step) stop.num → r.len = .ok 0 ∧ r.toList = .ok []) := by
  refine ⟨_, dtrangeTd_calendar h0 hc ht hd htd, ?_, ?_⟩
  · have hle : ceilLen (stop.num - start.num) step ≤ 0 := by
      by_contra hcon
      have : (0 : Int) < ceilLen (stop.num - start.num) step := by omega
      rw [lt_ceilLen _ _ h0] at this
      unfold Before at this hdir
      omega
    rw [DTR.iter_eq]
    · simp [DTR.elems, Int.toNat_of_nonpos hle]
    · intro i hi
      simp only at hi
      omega
  · intro hb
    have hz : ceilLen (stop.num - start.num) step = 0 := by
      have h1 : ¬ (0 : Int) < ceilLen (stop.num - start.num) step := by
        rw [lt_ceilLen _ _ h0]; unfold Before at *; omega
      have h2 : (-1 : Int) < ceilLen (stop.num - start.num) step := by
        rw [lt_ceilLen _ _ h0]; unfold Before at *; omega
      omega
    rw [hz]
    exact ⟨rfl, rfl⟩

/-- **C02 is violated**: whenever the step points away from a `stop` at least one step away, the
range has a negative length, and `len()`, `bool()` and `list()` raise `ValueError` (for Python's
`range` they would give 0, False and []). -/
theorem C02_wrong_direction_violated (start stop : DT) (step : Int)
    (hc : start.isCalendar) (ht : start.sameType stop = true) (h0 : step ≠ 0)
    (hd : WholeStep start step) (htd : tdValid step)
    (hfar : ¬ Before step (start.num - step) stop.num) :
    ∃ r, dtrangeTd start stop step = .ok r ∧ r.length < 0 ∧ r.len = .error .valueError ∧
      r.truthy = .error .valueError ∧ r.toList = .error .valueError := by
  refine ⟨_, dtrangeTd_calendar h0 hc ht hd htd, ?_⟩
  have hneg : ceilLen (stop.num - start.num) step < 0 := by
    have : ¬ (-1 : Int) < ceilLen (stop.num - start.num) step := by
      rw [lt_ceilLen _ _ h0]
      intro hcon; apply hfar
      unfold Before at *; omega
    omega
  have hl : (DTR.mk start (ceilLen (stop.num - start.num) step) step).len =
      .error .valueError := by
    unfold DTR.len; rw [if_pos hneg]
  refine ⟨hneg, hl, ?_, ?_⟩
  · unfold DTR.truthy; rw [hl]; rfl
  · unfold DTR.toList; rw [hl]; rfl

/-- Witness: `list(dtrange(date(2021,1,8), date(2021,1,1)))` raises. -/
example : (do (← dtrangeTd (.date 737798) (.date 737791) DAY).toList) = .error .valueError := by
  decide

/-! ### C03: time ranges -/

/-- How far the clock runs from `a` to `b` in the direction of `step`; equal times mean one full
turn. -/
def clockTurn (a b step : Int) : Int :=
  if a = b then DAY else if 0 < step then (b - a) % DAY else (a - b) % DAY

theorem clockDist_turn {a b step : Int} (ha : (DT.time a).Valid) (hb : (DT.time b).Valid)
    (h0 : step ≠ 0) (hne : a ≠ b) :
    clockDist a b step = if 0 < step then clockTurn a b step else - clockTurn a b step := by
  simp only [DT.Valid, DAY] at ha hb
  unfold clockDist clockTurn
  simp only [hne, if_false, DAY]
  rcases lt_or_gt_of_ne h0 with h | h
  · have h1 : ¬ 0 < step := by omega
    simp only [h1, and_false, if_false, h, and_true]
    split <;> omega
  · simp only [h, and_true, if_true]
    have h1 : ¬ step < 0 := by omega
    simp only [h1, and_false, if_false]
    split <;> omega

theorem time_reachable {a us : Int} (ha : (DT.time a).Valid) (h : -DAY ≤ us ∧ us ≤ DAY) :
    Reachable (.time a) us := by
  simp only [DT.Valid, Reachable, tdValid, DAY, MAXORD] at *
  omega

theorem time_range_elements_aux {a D step : Int} (ha : (DT.time a).Valid)
    (hD : 0 ≤ D ∧ D ≤ DAY) (h0 : step ≠ 0) :
    let r : DTR := ⟨.time a, ceilLen (if 0 < step then D else -D) step, step⟩
    ∃ L, r.toList = .ok L ∧ r.len = .ok (L.length : Int) ∧
      ∀ i : Nat, L[i]? = if (i : Int) * step.natAbs < D then some (.time ((a + i * step) % DAY))
        else none := by
  intro r
  have hlen : 0 ≤ r.length := by
    have : (-1 : Int) < r.length := by
      change _ < ceilLen _ _
      rw [lt_ceilLen _ _ h0]; unfold Before
      split <;> omega
    omega
  have hiff : ∀ i : Nat, (i : Int) < r.length ↔ (i : Int) * step.natAbs < D := by
    intro i
    change _ < ceilLen _ _ ↔ _
    rw [lt_ceilLen _ _ h0]
    unfold Before
    rcases lt_or_gt_of_ne h0 with h | h
    · have e : (step.natAbs : Int) = -step := by omega
      have h1 : ¬ 0 < step := by omega
      simp only [h1, if_false, e, false_and, false_or, h, true_and]
      rw [mul_comm]
      constructor <;> intro hh <;> linarith
    · have e : (step.natAbs : Int) = step := by omega
      have h1 : ¬ step < 0 := by omega
      simp only [h, if_true, e, h1, false_and, or_false, true_and]
      rw [mul_comm]
  have hreach : ∀ i : Nat, (i : Int) < r.length → Reachable r.start (r.step * i) := by
    intro i hi
    rw [hiff] at hi
    apply time_reachable ha
    have habs : -((i : Int) * step.natAbs) ≤ step * i ∧ step * i ≤ (i : Int) * step.natAbs := by
      rcases lt_or_gt_of_ne h0 with h | h
      · have e : (step.natAbs : Int) = -step := by omega
        rw [e]
        have : step * (i : Int) ≤ 0 := mul_nonpos_of_nonpos_of_nonneg h.le (by positivity)
        constructor <;> linarith
      · have e : (step.natAbs : Int) = step := by omega
        rw [e]
        have : 0 ≤ step * (i : Int) := by positivity
        constructor <;> linarith
    change -DAY ≤ step * i ∧ step * i ≤ DAY
    constructor <;> linarith [habs.1, habs.2]
  refine ⟨r.elems, r.toList_eq hlen hreach, ?_, ?_⟩
  · simp only [DTR.len, DTR.elems, List.length_map, List.length_range]
    rw [if_neg (by omega)]; congr 1; omega
  · intro i
    rw [elems_getElem?]
    by_cases h : (i : Int) < r.length
    · rw [if_pos h, if_pos ((hiff i).mp h)]
      simp only [r, DT.plus, mul_comm]
    · rw [if_neg h, if_neg (fun hh => h ((hiff i).mpr hh))]

/-- **C03 (partial).**  For clock times and a step shorter than a day, `dtrange` lists
`start + i*step` modulo 24h for as long as the distance walked is less than the distance from
start to stop in the walking direction (a full turn if they are equal).  Missing: equal times with
a negative step, where the code fails (`C03_full_clock_backwards_violated`). -/
theorem C03_time_range_elements_partial (a b step : Int) (ha : (DT.time a).Valid)
    (hb : (DT.time b).Valid) (h0 : step ≠ 0) (hs : (step.natAbs : Int) < DAY)
    (hfull : a = b → 0 < step) :
    ∃ r L, dtrangeTd (.time a) (.time b) step = .ok r ∧ r.toList = .ok L ∧
      r.len = .ok (L.length : Int) ∧
      ∀ i : Nat, L[i]? =
        if (i : Int) * step.natAbs < clockTurn a b step then some (.time ((a + i * step) % DAY))
        else none := by
  by_cases hne : a = b
  · subst hne
    have hp := hfull rfl
    obtain ⟨L, h1, h2, h3⟩ := time_range_elements_aux (D := DAY) ha ⟨by decide, le_refl _⟩ h0
    refine ⟨_, L, dtrangeTd_time_eq a step ha h0 hs, ?_, ?_, ?_⟩
    · simpa [hp] using h1
    · simpa [hp] using h2
    · simpa [clockTurn] using h3
  · have hD : 0 ≤ clockTurn a b step ∧ clockTurn a b step ≤ DAY := by
      simp only [DT.Valid, DAY] at ha hb
      unfold clockTurn; simp only [hne, if_false, DAY]; split <;> omega
    obtain ⟨L, h1, h2, h3⟩ := time_range_elements_aux ha hD h0
    refine ⟨_, L, dtrangeTd_time_ne a b step h0 hs hne, ?_, ?_, h3⟩
    · rw [clockDist_turn ha hb h0 hne]; exact h1
    · rw [clockDist_turn ha hb h0 hne]; exact h2

/-- **C03 is violated** for a full turn backwards: `dtrange(t, t, negative step)` has a negative
length, so `len()` and `list()` raise `ValueError`, for every time `t`. -/
theorem C03_full_clock_backwards_violated (a step : Int) (ha : (DT.time a).Valid)
    (h0 : step < 0) (hs : (step.natAbs : Int) < DAY) :
    ∃ r, dtrangeTd (.time a) (.time a) step = .ok r ∧ r.length < 0 ∧
      r.len = .error .valueError ∧ r.toList = .error .valueError := by
  refine ⟨_, dtrangeTd_time_eq a step ha (by omega) hs, ?_⟩
  have hneg : ceilLen DAY step < 0 := by
    have : ¬ (-1 : Int) < ceilLen DAY step := by
      rw [lt_ceilLen _ _ (by omega)]
      unfold Before; omega
    omega
  have hl : (DTR.mk (.time a) (ceilLen DAY step) step).len = .error .valueError := by
    unfold DTR.len; rw [if_pos hneg]
  exact ⟨hneg, hl, by unfold DTR.toList; rw [hl]; rfl⟩

/-- Non-vacuity of C03: 23:00 to 01:00 by half hours wraps at midnight. -/
example : (do (← dtrangeTd (.time (23 * 3600000000)) (.time 3600000000) 1800000000).toList) =
    .ok [.time 82800000000, .time 84600000000, .time 0, .time 1800000000] := by decide

/-! ### C08: validation of the step -/

theorem mk'_stores {start : DT} {length step : Int} {r : DTR}
    (h : DTR.mk' start length step = .ok r) : r = ⟨start, length, step⟩ := by
  cases start <;> simp only [DTR.mk'] at h
  · split at h <;> cases h; rfl
  · split at h <;> cases h; rfl
  · cases h; rfl

theorem mk'_error {start : DT} {length step : Int} {e : Err}
    (h : DTR.mk' start length step = .error e) : e = .valueError := by
  cases start <;> simp only [DTR.mk'] at h
  · split at h <;> cases h; rfl
  · split at h <;> cases h; rfl
  · cases h

/-- **C08 (part that holds).**  `DateOrTimeRange(start, length, step)` accepts every whole-day step for
a date start, every step shorter than a day for a time start and every step for a datetime; any other
time step, and any other date step shorter than `2^34` seconds (544 years), raises `ValueError`.  The
range stores the arguments unchanged, and the values of a calendar range with a documented step are
start plus multiples of the step: nothing is truncated.  Missing: longer date steps, of which some
that are no whole days are accepted (`C08_rounded_step_violated`, `C08_rounded_iff`). -/
theorem C08_step_validation_partial (start : DT) (length step : Int) (htd : tdValid step) :
    ((∀ o, start = .date o → step % DAY = 0) ∧ (∀ u, start = .time u → -DAY < step ∧ step < DAY) →
      DTR.mk' start length step = .ok ⟨start, length, step⟩) ∧
    ((∃ o, start = .date o ∧ step % DAY ≠ 0 ∧ step.natAbs < 2 ^ 34 * 1000000) ∨
        (∃ u, start = .time u ∧ (step ≤ -DAY ∨ DAY ≤ step)) →
      DTR.mk' start length step = .error .valueError) ∧
    (∀ e, DTR.mk' start length step = .error e → e = .valueError) ∧
    (∀ r, DTR.mk' start length step = .ok r → r = ⟨start, length, step⟩) ∧
    (∀ r i v, DTR.mk' start length step = .ok r → r.start.isCalendar →
      (∀ o, start = .date o → step % DAY = 0) → r.getItem i = .ok v →
      ∃ k : Int, v.num = start.num + k * step) := by
  refine ⟨?_, ?_, fun e h => mk'_error h, fun r h => mk'_stores h, ?_⟩
  · rintro ⟨h1, h2⟩
    cases start with
    | date o => exact mk'_date _ _ _ (Int.dvd_of_emod_eq_zero (h1 o rfl)) htd
    | time u => exact mk'_time _ _ _ (by have := h2 u rfl; omega)
    | datetime u => rfl
  · rintro (⟨o, rfl, h1, h2⟩ | ⟨u, rfl, h⟩)
    · simp only [DTR.mk']
      rw [if_pos]
      intro h
      exact h1 (Int.emod_eq_zero_of_dvd (dvd_of_totalSeconds h2 h))
    · simp only [DTR.mk']
      rw [if_pos ((totalSeconds_day _).2 (by omega))]
  · intro r i v hr hc hw hv
    cases mk'_stores hr
    rw [DTR.getItem_eq] at hv
    split at hv
    · generalize (if i < 0 then i + _ else i) = j at hv
      rw [indexToValue_eq] at hv
      split at hv
      · cases hv
        rw [plus_num_calendar _ _ hc (fun o ho =>
          Dvd.dvd.mul_right (Int.dvd_of_emod_eq_zero (hw o ho)) _)]
        exact ⟨j, by rw [mul_comm]⟩
      · cases hv
    · cases hv

/-- **C08 (exact).** A date step of at least a second is accepted if and only if it is near enough to
whole days for the double of its seconds: with `2^e` the greatest power of two not above the number
of seconds, within `2^(e - 53)` seconds. -/
theorem C08_rounded_iff (o length step : Int) (htd : tdValid step) (e : Nat)
    (h1 : 2 ^ e * 1000000 ≤ step.natAbs) (h2 : step.natAbs < 2 ^ (e + 1) * 1000000) :
    (∃ r, DTR.mk' (.date o) length step = .ok r) ↔
      ∃ k : Int, |step - k * DAY| * 2 ^ 53 < 1000000 * 2 ^ e := by
  rw [← totalSeconds_near htd h1 h2]
  simp only [DTR.mk']
  by_cases h : Int.fmod (totalSeconds step) (86400 * SEC) = 0
  · simp [h]
  · simp [h]

/-- **C08 is violated**: `DateOrTimeRange(date(1, 1, 1), 3, timedelta(days=200000, microseconds=1))`
and its mirror image are accepted, as the check is done in floating point, although the step is no
number of whole days.  Then `date + step` truncates silently: the values are no multiples of the step
apart. -/
theorem C08_rounded_step_violated :
    ∃ r s : DTR, DTR.mk' (.date 1) 3 (200000 * DAY + 1) = .ok r ∧
      r.toList = .ok [.date 1, .date 200001, .date 400001] ∧
      DTR.mk' (.date 600003) 3 (-200000 * DAY - 1) = .ok s ∧
      s.toList = .ok [.date 600003, .date 400002, .date 200002] ∧
      ¬ (200000 * DAY + 1) % DAY = 0 ∧ ¬ (-200000 * DAY - 1) % DAY = 0 :=
  ⟨⟨.date 1, 3, 200000 * DAY + 1⟩, ⟨.date 600003, 3, -200000 * DAY - 1⟩, by decide +kernel,
    by decide +kernel, by decide +kernel, by decide +kernel, by decide, by decide⟩

/-- Non-vacuity of C08: accepted and rejected steps exist for each type. -/
example : DTR.mk' (.date 1) 3 (2 * DAY) = .ok ⟨.date 1, 3, 2 * DAY⟩ ∧
    DTR.mk' (.date 1) 3 3600000000 = .error .valueError ∧
    DTR.mk' (.time 1) 3 (2 * DAY) = .error .valueError ∧
    DTR.mk' (.time 1) 3 3600000000 = .ok ⟨.time 1, 3, 3600000000⟩ := by decide

end Fauxdoc
