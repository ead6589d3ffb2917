import Verif.Proofs.DtRange2
import Mathlib.Data.List.Nodup
/-
Properties C04-C07: indexing, membership, slicing, equality of date/time ranges.
-/
namespace Fauxdoc

theorem DTR.Proper.toList {r : DTR} (h : r.Proper) (hl : 0 ≤ r.length) : r.toList = .ok r.elems :=
  r.toList_eq hl h.reachable

theorem sameType_refl (a : DT) : a.sameType a = true := by cases a <;> rfl

theorem Built_of_mk' {s : DT} {n st : Int} {r : DTR} (hs : s.Valid) (ht : tdValid st)
    (h : DTR.mk' s n st = .ok r) : r.Built ∧ r = ⟨s, n, st⟩ := by
  have hr : r = ⟨s, n, st⟩ := by
    cases s <;> simp only [DTR.mk'] at h
    · split at h <;> cases h; rfl
    · split at h <;> cases h; rfl
    · cases h; rfl
  subst hr
  exact ⟨⟨hs, ht, h⟩, rfl⟩

/-- Every range made by `dtrange` from valid arguments is proper (none of its elements overflows
the calendar), covers at most one turn of the clock and has a non-zero step. -/
theorem dtrange_proper {s e : DT} {step : Int} {r : DTR} (hs : s.Valid) (he : e.Valid)
    (hst : tdValid step) (hw : WholeStep s step) (h : dtrangeTd s e step = .ok r) :
    r.Proper ∧ r.Whole ∧ r.OneTurn ∧ r.step ≠ 0 ∧ r.start = s ∧ r.step = step := by
  have ht : s.sameType e = true := by
    by_contra hn
    unfold dtrangeTd at h
    rw [if_pos hn] at h
    cases h
  have h0 : step ≠ 0 := by
    rintro rfl
    cases s <;> cases e <;> simp only [DT.sameType, Bool.false_eq_true] at ht
    · simp [dtrangeTd, DT.sameType, valueToIndex, tdDivmod] at h
    · next a b =>
      by_cases hab : a = b
      · subst hab
        have : datetimeAdd (35795 * DAY + a) DAY = .ok (35795 * DAY + a + DAY) := by
          simp only [DT.Valid, DAY] at hs
          unfold datetimeAdd
          rw [if_pos (by simp only [DAY, MAXORD]; omega)]
        simp [dtrangeTd, DT.sameType, valueToIndex, tdDivmod, this] at h
      · simp [dtrangeTd, DT.sameType, valueToIndex, tdDivmod, hab] at h
    · simp [dtrangeTd, DT.sameType, valueToIndex, tdDivmod] at h
  cases hsc : s with
  | time a =>
    subst hsc
    cases e <;> simp only [DT.sameType, Bool.false_eq_true] at ht
    next b =>
    have hsl : (step.natAbs : Int) < DAY := by
      by_contra hn
      have hbad : ∀ n, DTR.mk' (.time a) n step = .error .valueError := by
        intro n; simp only [DTR.mk']; rw [if_pos ((totalSeconds_day _).2 (not_lt.mp hn))]
      unfold dtrangeTd at h
      simp only [DT.sameType, not_true_eq_false, if_false, hbad] at h
      split at h
      · obtain ⟨x, -, hx⟩ := Py.bind_eq_ok h
        obtain ⟨y, -, hy⟩ := Py.bind_eq_ok hx
        cases hy
      · obtain ⟨y, -, hy⟩ := Py.bind_eq_ok h
        cases hy
    have hfin : ∀ D : Int, -DAY ≤ D → D ≤ DAY →
        r = ⟨.time a, ceilLen D step, step⟩ →
        r.Proper ∧ r.Whole ∧ r.OneTurn ∧ r.step ≠ 0 ∧ r.start = .time a ∧ r.step = step := by
      intro D hD1 hD2 hr
      subst hr
      have hi : ∀ i : Int, 0 ≤ i → i < ceilLen D step → -DAY < step * i ∧ step * i < DAY := by
        intro i hi0 hi
        rw [lt_ceilLen _ _ h0] at hi
        rcases hi with ⟨hp, hlt⟩ | ⟨hn, hlt⟩
        · have : 0 ≤ step * i := by positivity
          constructor
          · have := DAY_pos; omega
          · omega
        · have : step * i ≤ 0 := mul_nonpos_of_nonpos_of_nonneg hn.le hi0
          constructor
          · omega
          · have := DAY_pos; omega
      refine ⟨⟨⟨hs, hst, mk'_time _ _ _ hsl⟩, ?_⟩, hw, ?_, h0, rfl, rfl⟩
      · intro i hlt
        have := hi i (by omega) hlt
        refine ⟨(DT.time a).plus (step * i), ?_⟩
        rw [indexToValue_eq, if_pos (time_reachable hs ⟨this.1.le, this.2.le⟩)]
      · right
        simp only
        by_cases hpos : 0 < ceilLen D step
        · have := hi (ceilLen D step - 1) (by omega) (by omega)
          rcases lt_or_gt_of_ne h0 with h | h
          · have e : (step.natAbs : Int) = -step := by omega
            rw [e]
            have : (ceilLen D step - 1) * -step = -(step * (ceilLen D step - 1)) := by ring
            omega
          · have e : (step.natAbs : Int) = step := by omega
            rw [e, mul_comm]
            omega
        · have hDp := DAY_pos
          have : (ceilLen D step - 1) * (step.natAbs : Int) ≤ 0 :=
            mul_nonpos_of_nonpos_of_nonneg (by omega) (by positivity)
          omega
    by_cases hab : a = b
    · subst hab
      rw [dtrangeTd_time_eq a step hs h0 hsl] at h
      cases h
      exact hfin DAY (by decide) (le_refl _) rfl
    · rw [dtrangeTd_time_ne a b step h0 hsl hab] at h
      cases h
      have hd : -DAY ≤ clockDist a b step ∧ clockDist a b step ≤ DAY := by
        unfold clockDist
        simp only [DT.Valid, DAY] at *
        split
        · omega
        · split <;> omega
      exact hfin _ hd.1 hd.2 rfl
  | date o =>
    subst hsc
    have hc : (DT.date o).isCalendar := trivial
    rw [dtrangeTd_calendar h0 hc ht hw hst] at h
    cases h
    refine ⟨⟨⟨hs, hst, mk'_date _ _ _ (hw o rfl) hst⟩, fun i hi => ⟨(DT.date o).plus (step * i), ?_⟩⟩, hw, Or.inl trivial, h0, rfl, rfl⟩
    rw [indexToValue_eq, if_pos (ceil_index_reachable h0 hs he hc ht hw i hi)]
  | datetime o =>
    subst hsc
    have hc : (DT.datetime o).isCalendar := trivial
    have hd : ∀ o', DT.datetime o = .date o' → DAY ∣ step := by
      intro o ho; cases ho
    rw [dtrangeTd_calendar h0 hc ht hd hst] at h
    cases h
    refine ⟨⟨⟨hs, hst, rfl⟩, fun i hi => ⟨(DT.datetime o).plus (step * i), ?_⟩⟩, hw, Or.inl trivial, h0, rfl, rfl⟩
    rw [indexToValue_eq, if_pos (ceil_index_reachable h0 hs he hc ht hd i hi)]

/-! ### C04: integer indexing -/

/-- **C04.**  For a range whose elements exist (every factory-made range, see `dtrange_proper`),
`r[i]` is `list(r)[i mod len]` for `-len <= i < len` and raises `IndexError` otherwise. -/
theorem C04_indexing (r : DTR) (h : r.Proper) (hl : 0 ≤ r.length) :
    ∃ L, r.toList = .ok L ∧ r.len = .ok (L.length : Int) ∧ ∀ i : Int,
      (-(L.length : Int) ≤ i ∧ i < L.length →
        ∃ v, L[(i % L.length).toNat]? = some v ∧ r.getItem i = .ok v) ∧
      (i < -(L.length : Int) ∨ (L.length : Int) ≤ i → r.getItem i = .error .indexError) := by
  have hlen : (r.elems.length : Int) = r.length := by simp [DTR.elems]; omega
  refine ⟨r.elems, h.toList hl, ?_, ?_⟩
  · rw [hlen]; unfold DTR.len; rw [if_neg (by omega)]
  · intro i
    rw [hlen]
    constructor
    · intro hi
      rw [DTR.getItem_eq, if_pos (by omega)]
      have hm : (i % r.length) = if i < 0 then i + (r.length.toNat : Int) else i := by
        have hcast : (r.length.toNat : Int) = r.length := by omega
        rw [hcast]
        split
        · rw [← Int.add_emod_right]; exact Int.emod_eq_of_lt (by omega) (by omega)
        · exact Int.emod_eq_of_lt (by omega) (by omega)
      have hnn : 0 ≤ i % r.length := Int.emod_nonneg _ (by omega)
      have hlt : i % r.length < r.length := Int.emod_lt_of_pos _ (by omega)
      have hc : (((i % r.length).toNat : Nat) : Int) = i % r.length := by omega
      rw [← hm]
      refine ⟨r.start.plus (r.step * (i % r.length)), ?_, ?_⟩
      · rw [elems_getElem?, hc, if_pos hlt]
      · rw [indexToValue_eq, if_pos]
        have := h.reachable (i % r.length).toNat (by omega)
        rwa [hc] at this
    · intro hi
      rw [DTR.getItem_eq, if_neg (by omega)]

/-- Out-of-range indexes raise `IndexError` on every range, also on ranges that overflow. -/
theorem C04_out_of_range (r : DTR) (i : Int)
    (hi : i < -(max r.length 0) ∨ max r.length 0 ≤ i) : r.getItem i = .error .indexError := by
  rw [DTR.getItem_eq, if_neg (by omega)]

/-- Non-vacuity of C04: a proper three-element range indexed from the end. -/
example : (DTR.mk (.date 737791) 3 (3 * DAY)).Proper ∧
    (DTR.mk (.date 737791) 3 (3 * DAY)).getItem (-1) = .ok (.date 737797) ∧
    (DTR.mk (.date 737791) 3 (3 * DAY)).getItem (-4) = .error .indexError := by
  refine ⟨(dtrange_proper (s := .date 737791) (e := .date 737798) (step := 3 * DAY)
    (by decide) (by decide) (by decide) (fun _ _ => by decide) (by decide +kernel)).1, by decide, by decide⟩

/-! ### C05: index, membership, count -/

theorem isInstance_of_sameType {a b : DT} (h : a.sameType b = true) :
    b.isInstanceOfTypeOf a = true := by
  cases a <;> cases b <;> simp_all [DT.sameType, DT.isInstanceOfTypeOf]

theorem index_ok_iff (r : DTR) (hb : r.Built) (hw : r.Whole) (h1 : r.OneTurn) (h0 : r.step ≠ 0) (v : DT)
    (hv : v.Valid) (ht : r.start.sameType v = true) (s e : Option Int) (j : Int) :
    r.index v s e = .ok j ↔
      (0 ≤ j ∧ j < r.length ∧ v = r.start.plus (r.step * j) ∧
        sliceBound r.length.toNat 0 r.length.toNat 0 s ≤ j ∧
        j < sliceBound r.length.toNat 0 r.length.toNat r.length.toNat e) := by
  have hA := sliceBound_range (n := r.length.toNat) (d := 0) (by omega) (by omega) s
  have hB := sliceBound_range (n := r.length.toNat) (d := r.length.toNat) (by omega) (by omega) e
  unfold DTR.index
  rw [if_pos (isInstance_of_sameType ht), valueToIndex_eq _ ht, slice1]
  generalize sliceBound r.length.toNat 0 r.length.toNat 0 s = A at *
  generalize sliceBound r.length.toNat 0 r.length.toNat r.length.toNat e = B at *
  unfold tdDivmod
  rw [if_neg h0]
  simp only [Py.ok_bind, contains_step1]
  constructor
  · intro h
    split at h
    · next hh =>
      cases h
      have hr : 0 ≤ Int.fdiv (dist v r.start r.step) r.step ∧
        Int.fdiv (dist v r.start r.step) r.step < r.length := by omega
      refine ⟨hr.1, hr.2, ?_, hh.2.1, hh.2.2⟩
      rw [← dist_eq_iff hb hw h1 hv ht hr.1 hr.2, ← fdivmod_eq_iff _ _ _ h0]
      exact ⟨rfl, hh.1⟩
    · cases h
  · rintro ⟨hj0, hj, hv', hA', hB'⟩
    rw [← dist_eq_iff hb hw h1 hv ht hj0 hj, ← fdivmod_eq_iff _ _ _ h0] at hv'
    rw [hv'.1, if_pos ⟨hv'.2, hA', hB'⟩]

theorem index_error (r : DTR) (h0 : r.step ≠ 0) (v : DT)
    (ht : r.start.sameType v = true) (s e : Option Int) (err : Err)
    (h : r.index v s e = .error err) : err = .valueError := by
  unfold DTR.index at h
  rw [if_pos (isInstance_of_sameType ht), valueToIndex_eq _ ht, slice1] at h
  unfold tdDivmod at h
  rw [if_neg h0] at h
  simp only [Py.ok_bind] at h
  split at h
  · cases h
  · cases h; rfl

/-- **C05 (index).**  For a proper range of non-zero step (whole days for dates) covering at most one turn of the clock,
and a value of the range's type: `r.index(v, s, e)` returns `j` iff `list(r)[j] == v` and `j` is one
of the positions `range(len)[s:e]`; if there is no such position it raises `ValueError`. -/
theorem C05_index (r : DTR) (hp : r.Proper) (hw : r.Whole) (hl : 0 ≤ r.length) (h1 : r.OneTurn)
    (h0 : r.step ≠ 0) (v : DT) (hv : v.Valid) (ht : r.start.sameType v = true)
    (s e : Option Int) :
    ∃ L P, r.toList = .ok L ∧ pyListSlice (List.range L.length) ⟨s, e, none⟩ = .ok P ∧
      (∀ j : Nat, r.index v s e = .ok (j : Int) ↔ L[j]? = some v ∧ j ∈ P) ∧
      (∀ j : Int, r.index v s e = .ok j → 0 ≤ j) ∧
      (∀ err, r.index v s e = .error err → err = .valueError) := by
  have hlen : r.elems.length = r.length.toNat := by simp [DTR.elems]
  have hex : ∃ P, pyListSlice (List.range r.elems.length) ⟨s, e, none⟩ = .ok P := ⟨_, rfl⟩
  obtain ⟨P, hP⟩ := hex
  refine ⟨r.elems, P, hp.toList hl, hP, ?_, ?_, fun err h => index_error r h0 v ht s e err h⟩
  · intro j
    rw [index_ok_iff r hp.1 hw h1 h0 v hv ht, pyListSlice_range_mem hP, hlen, elems_getElem?]
    constructor
    · rintro ⟨_, h2, h3, h4, h5⟩
      rw [if_pos h2, h3]; exact ⟨rfl, h4, h5⟩
    · rintro ⟨h2, h4, h5⟩
      split at h2
      · next hlt => cases h2; exact ⟨by omega, hlt, rfl, h4, h5⟩
      · cases h2
  · intro j h
    rw [index_ok_iff r hp.1 hw h1 h0 v hv ht] at h
    exact h.1

/-- **C05 (round trip).**  `r.index(r[i]) == i` for every `0 <= i < len(r)`; in particular no two
positions hold the same value. -/
theorem C05_index_getItem (r : DTR) (hb : r.Built) (hw : r.Whole) (h1 : r.OneTurn) (h0 : r.step ≠ 0) (i : Int)
    (hi0 : 0 ≤ i) (v : DT) (hget : r.getItem i = .ok v) : r.index v none none = .ok i := by
  rw [DTR.getItem_eq] at hget
  split at hget
  · next hr =>
    rw [if_neg (by omega), indexToValue_eq] at hget
    split at hget
    · next hreach =>
      cases hget
      have hv := plus_valid_of_reachable hreach
      rw [index_ok_iff r hb hw h1 h0 _ hv.1 hv.2]
      refine ⟨hi0, by omega, rfl, ?_, ?_⟩
      · simp only [sliceBound]; omega
      · simp only [sliceBound]; omega
    · cases hget
  · cases hget

/-- **C05 (membership and count).**  `v in r` iff `v` occurs in `list(r)`, and
`r.count(v) == list(r).count(v)`, for values of the range's type. -/
theorem C05_contains_count (r : DTR) (hp : r.Proper) (hw : r.Whole) (hl : 0 ≤ r.length) (h1 : r.OneTurn)
    (h0 : r.step ≠ 0) (v : DT) (hv : v.Valid) (ht : r.start.sameType v = true) :
    ∃ L, r.toList = .ok L ∧ r.contains v = .ok (decide (v ∈ L)) ∧
      r.count v = .ok ((L.count v : Nat) : Int) := by
  have hmem : (∃ j, r.index v none none = .ok j) ↔ v ∈ r.elems := by
    constructor
    · rintro ⟨j, hj⟩
      rw [index_ok_iff r hp.1 hw h1 h0 v hv ht] at hj
      obtain ⟨a, b, c, -⟩ := hj
      simp only [DTR.elems, List.mem_map, List.mem_range]
      exact ⟨j.toNat, by omega, by rw [c]; congr 2; omega⟩
    · intro h
      simp only [DTR.elems, List.mem_map, List.mem_range] at h
      obtain ⟨k, hk, rfl⟩ := h
      refine ⟨k, ?_⟩
      rw [index_ok_iff r hp.1 hw h1 h0 _ hv ht]
      refine ⟨by omega, by omega, rfl, ?_, ?_⟩ <;> (simp only [sliceBound]; omega)
  have hc : r.contains v = .ok (decide (v ∈ r.elems)) := by
    unfold DTR.contains
    rw [if_pos (isInstance_of_sameType ht)]
    cases hx : r.index v none none with
    | ok j => simp only; rw [decide_eq_true (hmem.mp ⟨j, hx⟩)]
    | error err =>
      have := index_error r h0 v ht none none err hx
      subst this
      simp only
      rw [decide_eq_false]
      intro hm
      obtain ⟨j, hj⟩ := hmem.mpr hm
      rw [hx] at hj; cases hj
  have hnd : r.elems.Nodup := by
    unfold DTR.elems
    apply List.Nodup.map_on _ List.nodup_range
    intro x hx y hy hxy
    rw [List.mem_range] at hx hy
    have hrx := hp.reachable x (by omega)
    have hry := hp.reachable y (by omega)
    have h2 := C05_index_getItem r hp.1 hw h1 h0 x (by omega) (r.start.plus (r.step * x)) (by
      rw [DTR.getItem_nat, if_pos (by omega), indexToValue_eq, if_pos hrx])
    have h3 := C05_index_getItem r hp.1 hw h1 h0 y (by omega) (r.start.plus (r.step * y)) (by
      rw [DTR.getItem_nat, if_pos (by omega), indexToValue_eq, if_pos hry])
    rw [hxy, h3] at h2
    simp only [Except.ok.injEq] at h2
    omega
  refine ⟨r.elems, hp.toList hl, hc, ?_⟩
  unfold DTR.count
  rw [hc]
  simp only [Py.ok_bind]
  by_cases hm : v ∈ r.elems
  · rw [List.count_eq_one_of_mem hnd hm]; simp [hm]
  · rw [List.count_eq_zero_of_not_mem hm]; simp [hm]

/-- Values of another type are not members (`in` gives False, `index` raises `ValueError`), with
one exception: a datetime looked up in a date range. -/
theorem C05_other_type (r : DTR) (v : DT) (ht : r.start.sameType v = false)
    (hx : ∀ a b, r.start = .date a → v ≠ .datetime b) (s e : Option Int) :
    r.contains v = .ok false ∧ r.index v s e = .error .valueError := by
  have : v.isInstanceOfTypeOf r.start = false := by
    cases hs : r.start <;> cases v <;> simp_all [DT.sameType, DT.isInstanceOfTypeOf]
  simp [DTR.contains, DTR.index, this]

/-- **C05 is violated** for datetimes looked up in date ranges: `in` raises `TypeError` instead of
giving False. -/
theorem C05_datetime_in_date_range_violated (r : DTR) (a b : Int) (hs : r.start = .date a) :
    r.contains (.datetime b) = .error .typeError := by
  simp [DTR.contains, DTR.index, hs, DT.isInstanceOfTypeOf, valueToIndex]

/-- **C05 is violated** for a hand-made time range spanning more than 24h: 00:00, 07:00, 14:00,
21:00, 04:00 (step 7h, length 5) contains 04:00 but `in` says it does not. -/
theorem C05_more_than_one_turn_violated :
    ∃ r : DTR, r.Built ∧ r.step ≠ 0 ∧ ∃ v L, v.Valid ∧ r.toList = .ok L ∧ v ∈ L ∧
      r.contains v = .ok false := by
  refine ⟨⟨.time 0, 5, 7 * 3600000000⟩, ?_, by decide, .time (4 * 3600000000),
    [.time 0, .time 25200000000, .time 50400000000, .time 75600000000, .time 14400000000],
    by decide, by decide, by decide, by decide⟩
  exact ⟨by decide, by decide, by decide⟩

/-- Non-vacuity of C05: a factory-made time range that wraps at midnight. -/
example : ∃ r, dtrangeTd (.time (23 * 3600000000)) (.time 3600000000) 1800000000 = .ok r ∧
    r.Proper ∧ r.OneTurn ∧ r.contains (.time 0) = .ok true ∧ r.contains (.time 1) = .ok false ∧
    r.index (.time 0) none none = .ok 2 := by
  refine ⟨⟨.time 82800000000, 4, 1800000000⟩, by decide, ?_, ?_, by decide, by decide, by decide⟩
  · exact (dtrange_proper (e := .time 3600000000) (s := .time (23 * 3600000000))
      (step := 1800000000) (by decide) (by decide) (by decide) (by rintro o ⟨⟩) (by decide +kernel)).1
  · exact Or.inr (by decide)

end Fauxdoc
