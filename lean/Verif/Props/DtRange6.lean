import Verif.Props.DtRange3
/-
Exact conditions for the properties of ranges that the code violates: which values of a time range of
more than one turn are found (C05), which slices raise (C06), which ranges with the same values are
unequal (C07).
-/
namespace Fauxdoc

/-! ### C05 -/

theorem dist_time_lt {u x step : Int} (hu : (DT.time u).Valid) (hx : (DT.time x).Valid) :
    -DAY < dist (.time x) (.time u) step ∧ dist (.time x) (.time u) step < DAY := by
  simp only [dist, DT.num, clockDist, DT.Valid] at *
  split_ifs <;> omega

theorem dist_time_iff {u x step d : Int} (hu : (DT.time u).Valid) (hx : (DT.time x).Valid)
    (hd : -DAY < d ∧ d < DAY) (hp : 0 < step → 0 ≤ d) (hn : step < 0 → d ≤ 0) (h0 : step ≠ 0) :
    dist (.time x) (.time u) step = d ↔ DT.time x = (DT.time u).plus d := by
  simp only [dist, DT.num, DT.plus, DT.time.injEq]
  unfold clockDist
  simp only [DT.Valid, DAY] at *
  split
  · omega
  · split <;> omega

/-- **C05 (more than one turn).** In any time range, `v in r` and `r.index(v)` find exactly the values
of the first turn of the clock: those less than a day from the start. -/
theorem C05_first_turn (r : DTR) (hb : r.Built) (h0 : r.step ≠ 0) {u x : Int}
    (hs : r.start = .time u) (hx : (DT.time x).Valid) :
    (∀ j : Int, r.index (.time x) none none = .ok j ↔
      0 ≤ j ∧ j < r.length ∧ -DAY < r.step * j ∧ r.step * j < DAY ∧
        DT.time x = r.start.plus (r.step * j)) ∧
    (r.contains (.time x) = .ok true ↔
      ∃ j : Int, 0 ≤ j ∧ j < r.length ∧ -DAY < r.step * j ∧ r.step * j < DAY ∧
        DT.time x = r.start.plus (r.step * j)) ∧
    (r.contains (.time x) = .ok true ∨ r.contains (.time x) = .ok false) := by
  have hu : (DT.time u).Valid := hs ▸ hb.1
  have ht : r.start.sameType (.time x) = true := by rw [hs]; rfl
  have key : ∀ j : Int, r.index (.time x) none none = .ok j ↔
      0 ≤ j ∧ j < r.length ∧ -DAY < r.step * j ∧ r.step * j < DAY ∧
        DT.time x = r.start.plus (r.step * j) := by
    intro j
    have hsg : 0 ≤ j → (0 < r.step → 0 ≤ r.step * j) ∧ (r.step < 0 → r.step * j ≤ 0) := fun hj =>
      ⟨fun h => by positivity, fun h => mul_nonpos_of_nonpos_of_nonneg h.le hj⟩
    unfold DTR.index
    rw [if_pos (isInstance_of_sameType ht), valueToIndex_eq _ ht, slice1]
    unfold tdDivmod
    rw [if_neg h0]
    simp only [Py.ok_bind, contains_step1, sliceBound]
    have hdl := dist_time_lt (step := r.step) hu hx
    rw [hs]
    constructor
    · intro h
      split at h
      · next hh =>
        cases h
        have hj : 0 ≤ Int.fdiv (dist (.time x) (.time u) r.step) r.step := hh.2.1
        have hd := (fdivmod_eq_iff (dist (.time x) (.time u) r.step) r.step _ h0).1 ⟨rfl, hh.1⟩
        rw [← hd]
        refine ⟨hj, by omega, hdl.1, hdl.2, ?_⟩
        rw [← dist_time_iff (step := r.step) hu hx hdl ?_ ?_ h0]
        · intro h; have := (hsg hj).1 h; rw [← hd] at this; exact this
        · intro h; have := (hsg hj).2 h; rw [← hd] at this; exact this
      · cases h
    · rintro ⟨hj0, hj, h1, h2, hv⟩
      rw [← dist_time_iff (step := r.step) hu hx ⟨h1, h2⟩ (hsg hj0).1 (hsg hj0).2 h0,
        ← fdivmod_eq_iff _ _ _ h0] at hv
      rw [hv.1, if_pos ⟨hv.2, hj0, by omega⟩]
  refine ⟨key, ?_, ?_⟩
  · unfold DTR.contains
    rw [if_pos (isInstance_of_sameType ht)]
    cases hi : r.index (.time x) none none with
    | ok j => exact ⟨fun _ => ⟨j, (key j).1 hi⟩, fun _ => rfl⟩
    | error e =>
      have := index_error r h0 (.time x) ht none none e hi
      subst this
      constructor
      · intro h; cases h
      · rintro ⟨j, hj⟩; rw [(key j).2 hj] at hi; cases hi
  · unfold DTR.contains
    rw [if_pos (isInstance_of_sameType ht)]
    cases hi : r.index (.time x) none none with
    | ok j => exact .inl rfl
    | error e =>
      have := index_error r h0 (.time x) ht none none e hi
      subst this
      exact .inr rfl

example : (DTR.mk (.time 0) 5 (7 * 3600000000)).contains (.time 75600000000) = .ok true := by decide

/-! ### Steps of dates that are no whole days

A step of 544 years or more may be accepted although it is no whole number of days
(`C08_rounded_step_violated`); then these properties fail, too. -/

theorem rounded_proper : (DTR.mk (.date 1) 2 (200000 * DAY + 1)).Proper ∧
    (DTR.mk (.date 1) 2 (200000 * DAY)).Proper ∧
    (DTR.mk (.date 600003) 3 (-200000 * DAY - 1)).Proper := by
  refine ⟨⟨⟨by decide, by decide, by decide +kernel⟩, ?_⟩,
    ⟨⟨by decide, by decide, by decide +kernel⟩, ?_⟩,
    ⟨⟨by decide, by decide, by decide +kernel⟩, ?_⟩⟩
  · intro i hi
    have : i = 0 ∨ i = 1 := by simp only at hi; omega
    rcases this with rfl | rfl <;> exact ⟨_, rfl⟩
  · intro i hi
    have : i = 0 ∨ i = 1 := by simp only at hi; omega
    rcases this with rfl | rfl <;> exact ⟨_, rfl⟩
  · intro i hi
    have : i = 0 ∨ i = 1 ∨ i = 2 := by simp only at hi; omega
    rcases this with rfl | rfl | rfl <;> exact ⟨_, rfl⟩

/-- **C05 is violated** for such a step: the second value of the range is not found in it. -/
theorem C05_rounded_step_violated :
    ∃ r : DTR, r.Proper ∧ r.toList = .ok [.date 1, .date 200001] ∧
      r.contains (.date 200001) = .ok false :=
  ⟨_, rounded_proper.1, by decide +kernel, by decide +kernel⟩

/-- **C06 is violated** for such a step: `r[1:]` has other values than `list(r)[1:]`. -/
theorem C06_rounded_step_violated :
    ∃ r r' : DTR, r.Proper ∧ r.toList = .ok [.date 600003, .date 400002, .date 200002] ∧
      r.getSlice ⟨some 1, none, none⟩ = .ok r' ∧ r'.toList = .ok [.date 400002, .date 200001] :=
  ⟨_, ⟨.date 400002, 2, -200000 * DAY - 1⟩, rounded_proper.2.2, by decide +kernel,
    by decide +kernel, by decide +kernel⟩

/-- **C07 is violated** for such a step: two ranges of the same dates are unequal. -/
theorem C07_rounded_step_violated :
    ∃ r s : DTR, r.Proper ∧ s.Proper ∧ r.toList = .ok [.date 1, .date 200001] ∧
      s.toList = .ok [.date 1, .date 200001] ∧ r.eq s = .ok false :=
  ⟨_, _, rounded_proper.1, rounded_proper.2.1, by decide +kernel, by decide +kernel,
    by decide +kernel⟩

/-! ### C06 -/

/-- **C06 (exact).** A slice of a range (of whole days, for dates) succeeds if and only if the slice step is not zero, the
value at its first position exists, the scaled step is a timedelta and, for times, less than a day. -/
theorem C06_slice_iff (r : DTR) (s : PySlice) (hw : r.Whole) :
    (∃ r', r.getSlice s = .ok r') ↔
      ∃ a b c, s.indices r.length.toNat = .ok (a, b, c) ∧
        (∃ v, indexToValue a r.start r.step = .ok v) ∧ tdValid (r.step * c) ∧
        (∀ u, r.start = .time u → -DAY < r.step * c ∧ r.step * c < DAY) := by
  unfold DTR.getSlice
  rw [indexRange_slice]
  cases hi : s.indices r.length.toNat with
  | error e =>
    constructor
    · rintro ⟨r', h⟩; cases h
    · rintro ⟨a, b, c, h, -⟩; cases h
  | ok x =>
    obtain ⟨a, b, c⟩ := x
    simp only [Py.ok_bind]
    cases hv : indexToValue a r.start r.step with
    | error e =>
      constructor
      · rintro ⟨r', h⟩; cases h
      · rintro ⟨a', b', c', h, ⟨v, hv'⟩, -⟩
        cases h
        rw [hv] at hv'
        cases hv'
    | ok v =>
      simp only [Py.ok_bind]
      unfold mkTd
      by_cases htd : tdValid (r.step * c)
      · rw [if_pos htd]
        simp only [Py.ok_bind]
        have hsame : r.start.sameType v = true := by
          rw [indexToValue_eq] at hv
          split at hv
          · cases hv; exact plus_sameType _ _
          · cases hv
        constructor
        · rintro ⟨r', h⟩
          refine ⟨a, b, c, rfl, ⟨v, hv⟩, htd, ?_⟩
          intro u hu
          rw [hu] at hsame
          cases v <;> simp only [DT.sameType, Bool.false_eq_true] at hsame
          simp only [DTR.mk', totalSeconds_day] at h
          split at h
          · cases h
          · omega
        · rintro ⟨a', b', c', h, -, -, ht⟩
          cases h
          cases hs : r.start with
          | date o =>
            rw [hs] at hsame
            cases v <;> simp only [DT.sameType, Bool.false_eq_true] at hsame
            exact ⟨_, mk'_date _ _ _ (Dvd.dvd.mul_right (hw _ hs) _) htd⟩
          | time u =>
            rw [hs] at hsame
            cases v <;> simp only [DT.sameType, Bool.false_eq_true] at hsame
            exact ⟨_, mk'_time _ _ _ (by have := ht u hs; omega)⟩
          | datetime u =>
            rw [hs] at hsame
            cases v <;> simp only [DT.sameType, Bool.false_eq_true] at hsame
            exact ⟨_, rfl⟩
      · rw [if_neg htd]
        constructor
        · rintro ⟨r', h⟩; cases h
        · rintro ⟨a', b', c', h, -, h', -⟩
          cases h
          exact absurd h' htd

/-- **C06 (exact, non-empty slices).** If the slice of the list is not empty, slicing the range succeeds
if and only if the scaled step is a timedelta and, for times, less than a day. -/
theorem C06_nonempty_iff (r : DTR) (s : PySlice) (hp : r.Proper) (hw : r.Whole) (hl : 0 ≤ r.length)
    (L L' : List DT) (hL : r.toList = .ok L) (hL' : pyListSlice L s = .ok L') (hne : L' ≠ []) :
    (∃ r', r.getSlice s = .ok r') ↔ tdValid (r.step * s.step.getD 1) ∧
      (∀ u, r.start = .time u → -DAY < r.step * s.step.getD 1 ∧ r.step * s.step.getD 1 < DAY) := by
  constructor
  · intro h
    obtain ⟨a, b, c, hi, -, h1, h2⟩ := (C06_slice_iff r s hw).1 h
    rw [(indices_bounds hi).2.1] at h1 h2
    exact ⟨h1, h2⟩
  · rintro ⟨h1, h2⟩
    exact C06_slice_succeeds_partial r s hp hw hl L L' hL hL' hne h1
      (fun u hu => by have := h2 u hu; omega)

/-! ### C07 -/

/-- **C07 (exact).** Two ranges with the same values are unequal if and only if they are time ranges of
two or more values whose steps differ by exactly one day, i.e. they walk to the same clock times in
opposite directions. -/
theorem C07_eq_iff (r s : DTR) (hr : r.Proper) (hs : s.Proper) (hwr : r.Whole)
    (hws : s.Whole) (lr : 0 ≤ r.length)
    (ls : 0 ≤ s.length) (h : r.toList = s.toList) :
    r.eq s = .ok false ↔
      2 ≤ r.length ∧ (∃ u, r.start = .time u) ∧ (r.step - s.step = DAY ∨ s.step - r.step = DAY) := by
  have hc := fun hsign => C07_eq_complete_partial r s hr hs hwr hws lr ls hsign h
  constructor
  · intro hne
    have hnot : ¬ r.eq s = .ok true := by rw [hne]; intro h; cases h
    have hns : ¬ ∀ u, r.start = .time u → (0 < r.step ↔ 0 < s.step) := fun h' => hnot (hc h')
    push Not at hns
    obtain ⟨u, hu, hsg⟩ := hns
    rw [eq_cases lr ls] at hne
    simp only [Except.ok.injEq, decide_eq_false_iff_not] at hne
    rw [hr.toList lr, hs.toList ls] at h
    simp only [Except.ok.injEq] at h
    have hlen : r.length = s.length := by
      have := congrArg List.length h
      simp only [DTR.elems, List.length_map, List.length_range] at this
      omega
    have helem : ∀ i : Nat, (i : Int) < r.length →
        r.start.plus (r.step * i) = s.start.plus (s.step * i) := by
      intro i hi
      have := congrArg (fun l => l[i]?) h
      simp only [elems_getElem?] at this
      rw [if_pos hi, if_pos (by omega)] at this
      exact Option.some.inj this
    have h0 : r.length ≠ 0 := fun h0 => hne ⟨hlen, .inl h0⟩
    have e0 := helem 0 (by omega)
    obtain ⟨u', hu'⟩ : ∃ u', s.start = .time u' := by
      rw [hu] at e0
      cases hss : s.start with
      | time u' => exact ⟨u', rfl⟩
      | date o => rw [hss] at e0; simp [DT.plus] at e0
      | datetime o => rw [hss] at e0; simp [DT.plus] at e0
    have vu : (DT.time u).Valid := hu ▸ hr.1.1
    have vu' : (DT.time u').Valid := hu' ▸ hs.1.1
    have huu : u = u' := by
      rw [hu, hu'] at e0
      simp only [DT.plus, DT.time.injEq, Nat.cast_zero, mul_zero, add_zero, DT.Valid] at *
      rwa [Int.emod_eq_of_lt vu.1 vu.2, Int.emod_eq_of_lt vu'.1 vu'.2] at e0
    subst huu
    have h1 : r.length ≠ 1 := fun h1 => hne ⟨hlen, .inr ⟨by rw [hu, hu'], .inl h1⟩⟩
    have e1 := helem 1 (by omega)
    have t1 := hr.1.time_lt hu
    have t2 := hs.1.time_lt hu'
    have hd : r.step ≠ s.step := fun hd => hne ⟨hlen, .inr ⟨by rw [hu, hu'], .inr hd⟩⟩
    refine ⟨by omega, ⟨u, hu⟩, ?_⟩
    rw [hu, hu'] at e1
    simp only [DT.plus, DT.time.injEq, Nat.cast_one, mul_one, DAY] at e1 t1 t2 ⊢
    omega
  · rintro ⟨h2, -, h3⟩
    rw [eq_cases lr ls]
    simp only [Except.ok.injEq, decide_eq_false_iff_not]
    rintro ⟨-, h4 | ⟨-, h4 | h4⟩⟩
    · omega
    · omega
    · simp only [DAY] at h3; omega

end Fauxdoc
