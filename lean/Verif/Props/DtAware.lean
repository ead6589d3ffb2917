import Verif.Model.DtAware
import Verif.Props.DtRange3
/-
C80: date/time ranges whose values have a `tzinfo` (dtrange.py).
-/
namespace Fauxdoc

/-- The value with the given clock reading and `utcoffset()`; dates have none. -/
def DT.tag (tz : Option Int) : DT → ADT
  | .date o => .date o
  | .time u => .time u tz
  | .datetime u => .datetime u tz

/-- The same moment on a clock that is `d` ahead. -/
def DT.shift (d : Int) : DT → DT
  | .date o => .date o
  | .time u => .time (u + d)
  | .datetime u => .datetime (u + d)

/-- The range with the given clock readings, all at the same `utcoffset()`. -/
def DTR.tag (tz : Option Int) (r : DTR) : ADTR := ⟨r.start.tag tz, r.length, r.step⟩

/-- The `tzinfo` that elements of a range have: times lose it. -/
def DT.elemTz (tz : Option Int) : DT → Option Int
  | .time _ => none
  | _ => tz

theorem ofIndex_tag (tz : Option Int) (i : Int) (s : DT) (step : Int) :
    ADT.ofIndex i (s.tag tz) step = (indexToValue i s step).map (DT.tag (s.elemTz tz)) := by
  unfold ADT.ofIndex indexToValue
  cases hm : mkTd (step * i) with
  | error e => rfl
  | ok d =>
    cases s with
    | date o => simp only [DT.tag, DT.elemTz, Py.ok_bind]; cases dateAdd o d <;> rfl
    | time u =>
      simp only [DT.tag, DT.elemTz, Py.ok_bind]
      cases datetimeAdd (35795 * DAY + u) d <;> rfl
    | datetime u => simp only [DT.tag, DT.elemTz, Py.ok_bind]; cases datetimeAdd u d <;> rfl

theorem indexToValue_sameType {i : Int} {s v : DT} {step : Int}
    (h : indexToValue i s step = .ok v) : s.sameType v = true := by
  rw [indexToValue_eq] at h
  split at h
  · cases h; cases s <;> rfl
  · cases h

theorem mk'_tag (tz : Option Int) (s : DT) (n step : Int) :
    ADTR.mk' (s.tag tz) n step = (DTR.mk' s n step).map (DTR.tag tz) := by
  unfold ADTR.mk' DTR.mk'
  cases s <;> simp only [DT.tag]
  · split <;> rfl
  · split <;> rfl
  · rfl

theorem elemTz_sameType {s v : DT} (h : s.sameType v = true) (tz : Option Int) :
    v.tag (s.elemTz tz) = v.tag (v.elemTz tz) := by
  cases s <;> cases v <;> simp_all [DT.sameType, DT.tag, DT.elemTz]

/-! ### Elements, slices, `stop` -/

theorem getItem_tag (tz : Option Int) (r : DTR) (i : Int) :
    (r.tag tz).getItem i = (r.getItem i).map (DT.tag (r.start.elemTz tz)) := by
  unfold ADTR.getItem DTR.getItem
  show ((PyRange.mk 0 r.length 1).getItem i >>= _) = _
  unfold DTR.indexRange
  cases (PyRange.mk 0 r.length 1).getItem i with
  | error e => rfl
  | ok j => exact ofIndex_tag tz j r.start r.step

theorem iterFrom_tag (tz : Option Int) (r : DTR) : ∀ fuel i,
    (r.tag tz).iterFrom fuel i =
      (r.iterFrom fuel i).map (List.map (DT.tag (r.start.elemTz tz)))
  | 0, _ => rfl
  | fuel + 1, i => by
    unfold ADTR.iterFrom DTR.iterFrom
    rw [getItem_tag]
    cases hg : r.getItem i with
    | error e => cases e <;> rfl
    | ok v =>
      simp only [Except.map, iterFrom_tag tz r fuel (i + 1)]
      cases r.iterFrom fuel (i + 1) <;> rfl

theorem len_tag (tz : Option Int) (r : DTR) : (r.tag tz).len = r.len := rfl

theorem toList_tag (tz : Option Int) (r : DTR) :
    (r.tag tz).toList = r.toList.map (List.map (DT.tag (r.start.elemTz tz))) := by
  unfold ADTR.toList DTR.toList
  rw [len_tag]
  cases r.len with
  | error e => rfl
  | ok n => exact iterFrom_tag tz r _ _

theorem getSlice_tag (tz : Option Int) (r : DTR) (s : PySlice) :
    (r.tag tz).getSlice s = (r.getSlice s).map (DTR.tag (r.start.elemTz tz)) := by
  unfold ADTR.getSlice DTR.getSlice
  show ((PyRange.mk 0 r.length 1).getSlice s >>= _) = _
  unfold DTR.indexRange
  cases (PyRange.mk 0 r.length 1).getSlice s with
  | error e => rfl
  | ok slc =>
    simp only [Py.ok_bind]
    have := ofIndex_tag tz slc.start r.start r.step
    show (ADT.ofIndex slc.start (r.start.tag tz) r.step >>= fun x => _) = _
    rw [this]
    cases indexToValue slc.start r.start r.step with
    | error e => rfl
    | ok v =>
      show (mkTd (r.step * slc.step) >>= fun x => _) = Except.map _ (mkTd (r.step * slc.step) >>= _)
      cases mkTd (r.step * slc.step) with
      | error e => rfl
      | ok st => exact mk'_tag _ v _ st

theorem stop_tag (tz : Option Int) (r : DTR) :
    (r.tag tz).stop = r.stop.map (DT.tag (r.start.elemTz tz)) := by
  unfold ADTR.stop DTR.stop
  rw [len_tag]
  cases r.len with
  | error e => rfl
  | ok n => exact ofIndex_tag tz n r.start r.step

/-! ### Looking values up -/

theorem sameInst (v s : DT) (a b : Option Int) :
    (v.tag a).isInstanceOfTypeOf (s.tag b) = v.isInstanceOfTypeOf s := by
  cases v <;> cases s <;> rfl

theorem toIndex_naive (v s : DT) (step : Int) :
    ADT.toIndex (v.tag none) (s.tag none) step = valueToIndex v s step := by
  cases v <;> cases s <;> try rfl
  next v s =>
    simp only [DT.tag, ADT.toIndex, valueToIndex, aligned, datetimeSub, Py.ok_bind]
    show tdDivmod _ step = _
    congr 1
    split_ifs <;> rfl

theorem toIndex_aware (v s : DT) (x y : Int) (step : Int) :
    ADT.toIndex (v.tag (some y)) (s.tag (some x)) step =
      valueToIndex (v.shift (x - y)) s step := by
  cases v <;> cases s <;> try rfl
  · next v s =>
    simp only [DT.tag, DT.shift, ADT.toIndex, valueToIndex, aligned, datetimeSub, Py.ok_bind]
    have h1 : (v - y < s - x) ↔ (v + (x - y) < s) := by omega
    have h2 : (v - y > s - x) ↔ (v + (x - y) > s) := by omega
    simp only [h1, h2]
    show tdDivmod _ step = _
    congr 1
    split_ifs <;> ring
  · next v s =>
    simp only [DT.tag, DT.shift, ADT.toIndex, valueToIndex, aligned, datetimeSub, Py.ok_bind]
    show tdDivmod _ step = _
    congr 1
    ring

theorem shift_inst (v s : DT) (d : Int) :
    (v.shift d).isInstanceOfTypeOf s = v.isInstanceOfTypeOf s := by
  cases v <;> cases s <;> rfl

theorem index_naive (r : DTR) (v : DT) (a b : Option Int) :
    (r.tag none).index (v.tag none) a b = r.index v a b := by
  unfold ADTR.index DTR.index
  show (if (v.tag none).isInstanceOfTypeOf (r.start.tag none) = true then
    ADT.toIndex (v.tag none) (r.start.tag none) r.step >>= _ else _) = _
  rw [sameInst, toIndex_naive]
  rfl

theorem index_aware (r : DTR) (v : DT) (x y : Int) (a b : Option Int) :
    (r.tag (some x)).index (v.tag (some y)) a b = r.index (v.shift (x - y)) a b := by
  unfold ADTR.index DTR.index
  show (if (v.tag (some y)).isInstanceOfTypeOf (r.start.tag (some x)) = true then
    ADT.toIndex (v.tag (some y)) (r.start.tag (some x)) r.step >>= _ else _) = _
  rw [sameInst, toIndex_aware, shift_inst]
  rfl

theorem contains_of_index (R : ADTR) (r : DTR) (V : ADT) (v : DT)
    (hi : V.isInstanceOfTypeOf R.start = v.isInstanceOfTypeOf r.start)
    (h : R.index V none none = r.index v none none) : R.contains V = r.contains v := by
  unfold ADTR.contains DTR.contains
  rw [hi, h]
  rfl

theorem contains_naive (r : DTR) (v : DT) : (r.tag none).contains (v.tag none) = r.contains v :=
  contains_of_index _ _ _ _ (sameInst _ _ _ _) (index_naive r v none none)

theorem contains_aware (r : DTR) (v : DT) (x y : Int) :
    (r.tag (some x)).contains (v.tag (some y)) = r.contains (v.shift (x - y)) :=
  contains_of_index _ _ _ _ (by rw [shift_inst]; exact sameInst _ _ _ _)
    (index_aware r v x y none none)

/-! ### `==`, `hash`, the factory -/

theorem eq_tag (a b : DT) (tz : Option Int) : (a.tag tz).eq (b.tag tz) = a.eq b := by
  cases a <;> cases b <;> cases tz <;>
    simp [DT.tag, ADT.eq, ADT.eq.clock, aligned, DT.eq]

theorem dtrangeA_tag (a b : DT) (tz : Option Int) (step : Int) :
    dtrangeA (a.tag tz) (b.tag tz) step = (dtrangeTd a b step).map (DTR.tag tz) := by
  have hi : ∀ v s : DT, ADT.toIndex (v.tag tz) (s.tag tz) step = valueToIndex v s step := by
    intro v s
    cases tz with
    | none => exact toIndex_naive v s step
    | some x =>
      rw [toIndex_aware, sub_self]
      congr 1
      cases v <;> simp [DT.shift]
  have fin : ∀ p : Py (Int × Int),
      (p >>= fun x => ADTR.mk' (a.tag tz) (if x.2 ≠ 0 then x.1 + 1 else x.1) step) =
      (p >>= fun x => DTR.mk' a (if x.2 ≠ 0 then x.1 + 1 else x.1) step).map (DTR.tag tz) := by
    rintro (e | ⟨q, m⟩)
    · rfl
    · exact mk'_tag tz a _ step
  have hs : (a.tag tz).sameType (b.tag tz) = a.sameType b := by cases a <;> cases b <;> rfl
  unfold dtrangeA dtrangeTd
  rw [hs]
  by_cases h : a.sameType b = true
  · rw [if_neg (by simpa using h), if_neg (by simpa using h)]
    cases a with
    | date o => rw [← fin, ← hi]; rfl
    | datetime u => rw [← fin, ← hi]; rfl
    | time u =>
      have he := eq_tag (.time u) b tz
      have he' : ((ADT.time u tz).eq (b.tag tz) = true) = (DT.time u = b) := by
        show ((DT.tag tz (.time u)).eq (b.tag tz) = true) = _
        rw [he]; simp [DT.eq]
      simp only [DT.tag] at he' ⊢
      simp only [he']
      by_cases h2 : DT.time u = b
      · simp only [if_pos h2]
        cases datetimeAdd (35795 * DAY + u) DAY with
        | error e => rfl
        | ok t =>
          have := hi (.datetime t) (.datetime (35795 * DAY + u))
          simp only [DT.tag] at this
          simp only [Py.ok_bind, this]
          exact fin _
      · simp only [if_neg h2]
        have := hi b (.time u)
        simp only [DT.tag] at this
        rw [this]
        exact fin _
  · rw [if_pos (by simpa using h), if_pos (by simpa using h)]
    rfl

/-- **C80 (naive values).**  On naive values this model is the one of `Model/DtRange.lean`: every
operation gives the same result, so C01-C08 and what follows from them carry over. -/
theorem C80_naive (r r' : DTR) (v a b : DT) (s : PySlice) (i : Int) (x y : Option Int) :
    (r.tag none).len = r.len ∧
    (r.tag none).getItem i = (r.getItem i).map (DT.tag none) ∧
    (r.tag none).getSlice s = (r.getSlice s).map (DTR.tag none) ∧
    (r.tag none).toList = r.toList.map (List.map (DT.tag none)) ∧
    (r.tag none).stop = r.stop.map (DT.tag none) ∧
    (r.tag none).index (v.tag none) x y = r.index v x y ∧
    (r.tag none).contains (v.tag none) = r.contains v ∧
    (r.tag none).count (v.tag none) = r.count v ∧
    (r.tag none).eq (r'.tag none) = r.eq r' ∧
    (r.tag none).hashKey = r.hashKey.map (fun k => (k.1, k.2.1.map (DT.tag none), k.2.2)) ∧
    dtrangeA (a.tag none) (b.tag none) i = (dtrangeTd a b i).map (DTR.tag none) := by
  have hz : r.start.elemTz none = none := by cases r.start <;> rfl
  have g1 := getItem_tag none r i
  have g2 := getSlice_tag none r s
  have g3 := toList_tag none r
  have g4 := stop_tag none r
  rw [hz] at g1 g2 g3 g4
  refine ⟨rfl, g1, g2, g3, g4, index_naive r v x y, contains_naive r v, ?_, ?_, ?_, dtrangeA_tag a b none i⟩
  · unfold ADTR.count DTR.count
    rw [contains_naive]
  · unfold ADTR.eq DTR.eq
    simp only [len_tag]
    have : (r.tag none).start.eq (r'.tag none).start = r.start.eq r'.start := eq_tag _ _ none
    rw [this]
    rfl
  · unfold ADTR.hashKey DTR.hashKey
    rw [len_tag]
    have : (r.tag none).start.hashKey = r.start.tag none := by
      simp only [DTR.tag]; cases r.start <;> rfl
    rw [this]
    cases r.len with
    | error e => rfl
    | ok n =>
      simp only [Py.ok_bind, Py.pure_eq, Except.map]
      by_cases h : n > 0
      · simp only [if_pos h]; rfl
      · simp only [if_neg h]; rfl

/-- **C80 (elements).**  `dtrange` of two aware datetimes, which may have different offsets: the
elements are the moments `start + i*step` strictly before `stop`, all of them at the offset of
`start`.  The moment of `stop` has to exist on the clock of `start` (see
`C80_edge_of_calendar_violated`). -/
theorem C80_elements_partial (s e x y step : Int) (hs : (DT.datetime s).Valid)
    (he : (DT.datetime (e - y + x)).Valid) (hst : tdValid step) (h0 : step ≠ 0)
    (hdir : (0 < step → s - x ≤ e - y) ∧ (step < 0 → e - y ≤ s - x)) :
    ∃ r L, dtrangeA (.datetime s (some x)) (.datetime e (some y)) step = .ok r ∧
      r.toList = .ok L ∧ r.len = .ok (L.length : Int) ∧
      ∀ i : Nat, L[i]? =
        if Before step (s - x + i * step) (e - y) then some (.datetime (s + i * step) (some x))
        else none := by
  have hd : WholeStep (.datetime s) step := fun o ho => by cases ho
  have hr := dtrangeTd_calendar (s := .datetime s) (e := .datetime (e - y + x)) h0 trivial rfl hd hst
  have hA : dtrangeA (.datetime s (some x)) (.datetime e (some y)) step =
      (dtrangeTd (.datetime s) (.datetime (e - y + x)) step).map (DTR.tag (some x)) := by
    rw [← dtrangeA_tag (.datetime s) (.datetime (e - y + x)) (some x) step]
    have h1 := toIndex_aware (.datetime e) (.datetime s) x y step
    have h2 := toIndex_aware (.datetime (e - y + x)) (.datetime s) x x step
    simp only [DT.tag, DT.shift, sub_self, add_zero] at h1 h2
    simp only [dtrangeA, DT.tag, ADT.sameType, h1, h2]
    rw [show e + (x - y) = e - y + x by ring]
  rw [hr] at hA
  set D := (DT.datetime (e - y + x)).num - (DT.datetime s).num with hD
  have hD' : D = (e - y) - (s - x) := by simp only [hD, DT.num]; ring
  have hlen : 0 ≤ ceilLen D step := by
    have : (-1 : Int) < ceilLen D step := by
      rw [lt_ceilLen _ _ h0]
      rcases lt_or_gt_of_ne h0 with h | h
      · right; refine ⟨h, ?_⟩
        have := hdir.2 h; omega
      · left; refine ⟨h, ?_⟩
        have := hdir.1 h; omega
    omega
  have hreach : ∀ i : Nat, (i : Int) < ceilLen D step → Reachable (.datetime s) (step * i) :=
    fun i hi => ceil_index_reachable h0 hs he trivial rfl hd i hi
  have hL := DTR.toList_eq ⟨.datetime s, ceilLen D step, step⟩ hlen hreach
  refine ⟨_, (DTR.elems ⟨.datetime s, ceilLen D step, step⟩).map (DT.tag (some x)), hA, ?_, ?_, ?_⟩
  · rw [toList_tag, hL]; rfl
  · show DTR.len ⟨.datetime s, ceilLen D step, step⟩ = _
    simp only [DTR.len, DTR.elems, List.length_map, List.length_range]
    rw [if_neg (by omega)]; congr 1; omega
  · intro i
    rw [List.getElem?_map, elems_getElem?]
    have hiff := lt_ceilLen D step h0 i
    have hB : Before step (step * i) D ↔ Before step (s - x + i * step) (e - y) := by
      unfold Before
      rw [mul_comm step (i : Int)]
      constructor <;> (rintro (⟨h, h'⟩ | ⟨h, h'⟩) <;> [left; right] <;> exact ⟨h, by omega⟩)
    by_cases h : (i : Int) < ceilLen D step
    · rw [if_pos h, if_pos (hB.mp (hiff.mp h))]
      simp only [Option.map_some, DT.plus, DT.tag]
      rw [mul_comm]
    · rw [if_neg h, if_neg (fun hb => h (hiff.mpr (hB.mpr hb)))]
      rfl

/-- **C80 is violated at the edge of the calendar**: both arguments of `dtrange` exist and there is
one hour between them, but the second element would be in the year 10000 on the clock of `start`;
`list()` raises `OverflowError`.  (`start` is 9999-12-31 23:45+05:00, `stop` is 19:45 UTC.) -/
theorem C80_edge_of_calendar_violated :
    ∃ s e r, (DT.datetime s).Valid ∧ (DT.datetime e).Valid ∧
      dtrangeA (.datetime s (some 18000000000)) (.datetime e (some 0)) 1800000000 = .ok r ∧
      r.len = .ok 2 ∧ r.toList = .error .overflow := by
  refine ⟨MAXORD * DAY + 85500000000, MAXORD * DAY + 71100000000,
    ⟨.datetime (MAXORD * DAY + 85500000000) (some 18000000000), 2, 1800000000⟩,
    by decide, by decide, by decide +kernel, by decide, by decide +kernel⟩

/-- Mixing aware and naive values is a `TypeError` in the factory. -/
theorem C80_mixed_dtrange (s e x step : Int) :
    dtrangeA (.datetime s (some x)) (.datetime e none) step = .error .typeError ∧
    dtrangeA (.datetime s none) (.datetime e (some x)) step = .error .typeError ∧
    dtrangeA (.time s (some x)) (.time e none) step = .error .typeError ∧
    dtrangeA (.time s none) (.time e (some x)) step = .error .typeError := ⟨rfl, rfl, rfl, rfl⟩

theorem naive_contains (r : DTR) (u w : Int) (hs : r.start = .datetime u) (h0 : r.step ≠ 0) :
    r.contains (.datetime w) =
      .ok (decide (∃ j ∈ List.range r.length.toNat, u + r.step * (j : Int) = w)) := by
  unfold DTR.contains DTR.index
  rw [hs]
  have hsl := slice1 r none none
  rw [hsl]
  simp only [DT.isInstanceOfTypeOf, if_true, valueToIndex, tdDivmod, if_neg h0, Py.ok_bind,
    contains_step1, sliceBound]
  by_cases hj : ∃ j ∈ List.range r.length.toNat, u + r.step * (j : Int) = w
  · rw [decide_eq_true hj]
    obtain ⟨j, hj, hw⟩ := hj
    have := (fdivmod_eq_iff (w - u) r.step j h0).2 (by omega)
    rw [List.mem_range] at hj
    rw [this.1, if_pos ⟨this.2, by omega, by omega⟩]
  · rw [decide_eq_false hj, if_neg]
    rintro ⟨h1, h2, h3⟩
    have := (fdivmod_eq_iff (w - u) r.step _ h0).1 ⟨rfl, h1⟩
    refine hj ⟨(Int.fdiv (w - u) r.step).toNat, by rw [List.mem_range]; omega, ?_⟩
    rw [Int.toNat_of_nonneg h2]
    omega

/-- **C80 (membership).**  For a range of aware datetimes whose elements exist, and any aware
datetime: `in` is membership in the list (by `==`, which compares the moments whatever the
offsets). -/
theorem C80_contains (r : DTR) (u x w y : Int) (hs : r.start = .datetime u) (hp : r.Proper)
    (hl : 0 ≤ r.length) (h0 : r.step ≠ 0) :
    ∃ L, (r.tag (some x)).toList = .ok L ∧
      (r.tag (some x)).contains (.datetime w (some y)) =
        .ok (L.any fun v => v.eq (.datetime w (some y))) := by
  refine ⟨_, by rw [toList_tag, hp.toList hl]; rfl, ?_⟩
  have hc := contains_aware r (.datetime w) x y
  simp only [DT.tag, DT.shift] at hc
  rw [hc, naive_contains r u _ hs h0]
  congr 1
  rw [Bool.eq_iff_iff, decide_eq_true_eq, List.any_eq_true]
  simp only [DTR.elems, List.mem_map, hs, DT.plus, DT.elemTz]
  constructor
  · rintro ⟨j, hj, h⟩
    refine ⟨_, ⟨_, ⟨j, hj, rfl⟩, rfl⟩, ?_⟩
    simp only [DT.tag, ADT.eq, ADT.eq.clock, aligned, decide_eq_true_eq]
    omega
  · rintro ⟨_, ⟨_, ⟨j, hj, rfl⟩, rfl⟩, h⟩
    refine ⟨j, hj, ?_⟩
    simp only [DT.tag, ADT.eq, ADT.eq.clock, aligned, decide_eq_true_eq] at h
    omega

/-- **C80 is violated** for naive datetimes looked up in aware ranges and the reverse: `in` raises
`TypeError`, for every range and every value, where `in list(r)` is False. -/
theorem C80_mixed_in_violated (r : DTR) (u w x : Int) (hs : r.start = .datetime u) (hp : r.Proper)
    (hl : 0 ≤ r.length) :
    (r.tag (some x)).contains (.datetime w none) = .error .typeError ∧
    (r.tag none).contains (.datetime w (some x)) = .error .typeError ∧
    (∃ L, (r.tag (some x)).toList = .ok L ∧ L.any (fun v => v.eq (.datetime w none)) = false) ∧
    (∃ L, (r.tag none).toList = .ok L ∧ L.any (fun v => v.eq (.datetime w (some x))) = false) := by
  refine ⟨?_, ?_, ⟨_, by rw [toList_tag, hp.toList hl]; rfl, ?_⟩,
    ⟨_, by rw [toList_tag, hp.toList hl]; rfl, ?_⟩⟩
  · simp [ADTR.contains, ADTR.index, DTR.tag, hs, DT.tag, ADT.isInstanceOfTypeOf, ADT.toIndex,
      datetimeSub, aligned]
  · simp [ADTR.contains, ADTR.index, DTR.tag, hs, DT.tag, ADT.isInstanceOfTypeOf, ADT.toIndex,
      datetimeSub, aligned]
  · simp [DTR.elems, hs, DT.plus, DT.elemTz, DT.tag, ADT.eq, ADT.eq.clock, aligned]
  · simp [DTR.elems, hs, DT.plus, DT.elemTz, DT.tag, ADT.eq, ADT.eq.clock, aligned]

theorem ADT.hashKey_of_eq {a b : ADT} (h : a.eq b = true) : a.hashKey = b.hashKey := by
  cases a with
  | date a => cases b <;> simp_all [ADT.eq, ADT.hashKey]
  | time a x =>
    cases b with
    | time b y =>
      cases x <;> cases y <;> simp_all [ADT.eq, ADT.eq.clock, aligned, ADT.hashKey]
    | _ => simp [ADT.eq] at h
  | datetime a x =>
    cases b with
    | datetime b y =>
      cases x <;> cases y <;> simp_all [ADT.eq, ADT.eq.clock, aligned, ADT.hashKey]
    | _ => simp [ADT.eq] at h

theorem ADTR.eq_true {r s : ADTR} (h : r.eq s = .ok true) :
    0 ≤ r.length ∧ r.length = s.length ∧
      (r.length = 0 ∨ r.start.eq s.start = true ∧ (r.length = 1 ∨ r.step = s.step)) := by
  unfold ADTR.eq ADTR.len at h
  by_cases hr : r.length < 0
  · rw [if_pos hr] at h; cases h
  by_cases hs : s.length < 0
  · rw [if_neg hr, if_pos hs] at h; cases h
  rw [if_neg hr, if_neg hs] at h
  simp only [Py.ok_bind, Py.pure_eq] at h
  by_cases h1 : r.length = s.length
  · refine ⟨by omega, h1, ?_⟩
    rw [if_neg (by simpa using h1)] at h
    by_cases h2 : r.length = 0
    · exact .inl h2
    · rw [if_neg h2] at h
      by_cases h3 : r.length = 1
      · rw [if_pos h3] at h
        exact .inr ⟨by simpa using h, .inl h3⟩
      · rw [if_neg h3] at h
        have h : (r.start.eq s.start && decide (r.step = s.step)) = true := by simpa using h
        rw [Bool.and_eq_true, decide_eq_true_eq] at h
        exact .inr ⟨h.1, .inr h.2⟩
  · rw [if_pos (by simpa using h1)] at h; simp at h

/-- **C80 (equality and hash).**  Equal ranges have equal hashes, whatever the offsets of their
starts. -/
theorem C80_hash (r s : ADTR) (h : r.eq s = .ok true) : r.hashKey = s.hashKey := by
  obtain ⟨h0, h1, h2⟩ := ADTR.eq_true h
  unfold ADTR.hashKey ADTR.len
  rw [if_neg (by omega), if_neg (by omega)]
  simp only [Py.ok_bind, ← h1]
  rcases h2 with h2 | ⟨h2, h3 | h3⟩
  · simp [h2]
  · simp [h3, ADT.hashKey_of_eq h2]
  · simp [h3, ADT.hashKey_of_eq h2]

/-- **C80 (equality).**  Equal ranges of datetimes have equal elements, position by position, even
when the ranges have different offsets. -/
theorem C80_eq_sound (r s : DTR) (tr ts : Option Int) (u w : Int) (hr : r.Proper) (hs : s.Proper)
    (hru : r.start = .datetime u) (hsw : s.start = .datetime w)
    (h : (r.tag tr).eq (s.tag ts) = .ok true) :
    ∃ L L', (r.tag tr).toList = .ok L ∧ (s.tag ts).toList = .ok L' ∧
      List.Forall₂ (fun a b => a.eq b = true) L L' := by
  obtain ⟨h0, h1, h2⟩ := ADTR.eq_true h
  have h0 : 0 ≤ r.length := h0
  have h1 : r.length = s.length := h1
  refine ⟨_, _, by rw [toList_tag, hr.toList h0]; rfl,
    by rw [toList_tag, hs.toList (h1 ▸ h0)]; rfl, ?_⟩
  rw [List.forall₂_iff_get]
  refine ⟨by simp [DTR.elems, h1], ?_⟩
  intro i hi hi'
  simp only [DTR.elems, List.length_map, List.length_range] at hi
  simp only [DTR.elems, List.get_eq_getElem, List.getElem_map, List.getElem_range, hru, hsw,
    DT.plus, DT.elemTz, DT.tag]
  have key : (ADT.datetime u tr).eq (.datetime w ts) = true ∧
      (i = 0 ∨ r.step = s.step) := by
    rcases h2 with h2 | ⟨h2, h3⟩
    · have : r.length = 0 := h2
      omega
    · refine ⟨?_, ?_⟩
      · have h2 : (r.start.tag tr).eq (s.start.tag ts) = true := h2
        rw [hru, hsw] at h2
        exact h2
      · rcases h3 with h3 | h3
        · have : r.length = 1 := h3
          left; omega
        · exact .inr h3
  obtain ⟨k1, k2⟩ := key
  have hst : r.step * (i : Int) = s.step * (i : Int) := by
    rcases k2 with rfl | k2
    · simp
    · rw [k2]
  rw [hst]
  cases tr <;> cases ts <;>
    simp only [ADT.eq, ADT.eq.clock, aligned, decide_eq_true_eq, Bool.false_eq_true] at k1 ⊢ <;> omega

/-- **C80 (equality, converse).**  Ranges of datetimes with equal elements are equal, even when they
have different offsets. -/
theorem C80_eq_complete (r s : DTR) (tr ts : Option Int) (u w : Int) (hr : r.Proper) (hs : s.Proper)
    (hru : r.start = .datetime u) (hsw : s.start = .datetime w) (lr : 0 ≤ r.length)
    (ls : 0 ≤ s.length) (L L' : List ADT) (hL : (r.tag tr).toList = .ok L)
    (hL' : (s.tag ts).toList = .ok L') (h : List.Forall₂ (fun a b => a.eq b = true) L L') :
    (r.tag tr).eq (s.tag ts) = .ok true := by
  rw [toList_tag, hr.toList lr] at hL
  rw [toList_tag, hs.toList ls] at hL'
  cases hL
  cases hL'
  rw [List.forall₂_iff_get] at h
  obtain ⟨hlen, hel⟩ := h
  have hlen' : r.length = s.length := by
    simp only [DTR.elems, List.length_map, List.length_range] at hlen; omega
  have el : ∀ i : Nat, (i : Int) < r.length →
      (ADT.datetime (u + r.step * i) tr).eq (.datetime (w + s.step * i) ts) = true := by
    intro i hi
    have := hel i (by simp only [DTR.elems, List.length_map, List.length_range]; omega)
      (by simp only [DTR.elems, List.length_map, List.length_range]; omega)
    simpa only [DTR.elems, List.get_eq_getElem, List.getElem_map, List.getElem_range, hru, hsw,
      DT.plus, DT.elemTz, DT.tag] using this
  unfold ADTR.eq
  rw [len_tag, len_tag, DTR.len, DTR.len, if_neg (by omega), if_neg (by omega)]
  simp only [Py.ok_bind, Py.pure_eq, DTR.tag, hru, hsw, DT.tag]
  rw [if_neg (by simpa using hlen')]
  by_cases h0 : r.length = 0
  · rw [if_pos h0]
  · rw [if_neg h0]
    have e0 := el 0 (by omega)
    simp only [Nat.cast_zero, mul_zero, add_zero] at e0
    by_cases h1 : r.length = 1
    · rw [if_pos h1, e0]
    · rw [if_neg h1, e0]
      have e1 := el 1 (by omega)
      have : r.step = s.step := by
        cases tr <;> cases ts <;>
          simp only [ADT.eq, ADT.eq.clock, aligned, decide_eq_true_eq, Bool.false_eq_true,
            Nat.cast_one, mul_one] at e0 e1 <;> omega
      simp [this]

theorem getSlice_all (r : DTR) (u : Int) (hs : r.start = .time u) (hp : r.Proper)
    (hl : 0 < r.length) : r.getSlice ⟨none, none, none⟩ = .ok r := by
  have hr := hp.reachable 0 hl
  rw [Nat.cast_zero] at hr
  obtain ⟨⟨hv, htd, hmk⟩, -⟩ := hp
  have hi : indexToValue 0 r.start r.step = .ok r.start := by
    rw [indexToValue_eq, if_pos hr, hs, mul_zero]
    rw [hs] at hv
    simp only [DT.plus, add_zero]
    rw [Int.emod_eq_of_lt hv.1 hv.2]
  unfold DTR.getSlice
  rw [slice1]
  simp only [Py.ok_bind, sliceBound, hi, mul_one, mkTd, if_pos htd]
  have hn : ((PyRange.mk 0 (r.length.toNat : Int) 1).len : Int) = r.length := by
    simp only [PyRange.len, rangeLen]
    simp
    omega
  rw [hn, hmk]

/-- **C80 is violated for times.**  In every non-empty range of aware times whose elements exist:
`start in r` is True but `start` is not in `list(r)`; the elements are naive, so `r[0] != start`,
`r[i] in r` raises `TypeError` for every element, and `r[:] != r`. -/
theorem C80_aware_time_violated (r : DTR) (u x : Int) (hs : r.start = .time u) (hp : r.Proper)
    (hl : 0 < r.length) (h0 : r.step ≠ 0) :
    ∃ L, (r.tag (some x)).toList = .ok L ∧ L ≠ [] ∧
      (r.tag (some x)).contains (r.start.tag (some x)) = .ok true ∧
      L.any (fun v => v.eq (r.start.tag (some x))) = false ∧
      (∀ v ∈ L, ∃ t, v = .time t none) ∧
      (∀ v ∈ L, (r.tag (some x)).contains v = .error .typeError) ∧
      (∃ r', (r.tag (some x)).getSlice ⟨none, none, none⟩ = .ok r' ∧
        (r.tag (some x)).eq r' = .ok false) := by
  have hel : ∀ v ∈ r.elems.map (DT.tag none), ∃ t, v = .time t none := by
    intro v hv
    simp only [DTR.elems, hs, DT.plus, List.map_map, List.mem_map, Function.comp] at hv
    obtain ⟨k, -, rfl⟩ := hv
    exact ⟨_, rfl⟩
  have hz : r.start.elemTz (some x) = none := by rw [hs]; rfl
  refine ⟨r.elems.map (DT.tag none), by rw [toList_tag, hp.toList hl.le, hz]; rfl, ?_, ?_, ?_, hel,
    ?_, ?_⟩
  · intro h
    have := congrArg List.length h
    simp [DTR.elems] at this
    omega
  · have := contains_aware r r.start x x
    rw [this, hs]
    simp only [DT.shift, sub_self, add_zero]
    unfold DTR.contains DTR.index
    have hsl := slice1 r none none
    rw [hsl, hs]
    simp only [DT.isInstanceOfTypeOf, if_true, valueToIndex, tdDivmod, if_neg h0, Py.ok_bind,
      contains_step1, sliceBound, lt_self_iff_false, false_and, if_false, sub_self,
      Int.zero_fdiv, Int.zero_fmod]
    rw [if_pos ⟨trivial, le_refl _, by omega⟩]
  · rw [List.any_eq_false]
    intro v hv
    obtain ⟨t, rfl⟩ := hel v hv
    simp [hs, DT.tag, ADT.eq, ADT.eq.clock, aligned]
  · intro v hv
    obtain ⟨t, rfl⟩ := hel v hv
    simp [ADTR.contains, ADTR.index, DTR.tag, hs, DT.tag, ADT.isInstanceOfTypeOf, ADT.toIndex,
      aligned]
  · rw [getSlice_tag, hz, getSlice_all r u hs hp hl]
    refine ⟨_, rfl, ?_⟩
    have hn : (r.tag (some x)).start.eq (r.tag none).start = false := by
      simp only [DTR.tag, hs, DT.tag]
      rfl
    unfold ADTR.eq
    rw [hn, len_tag, len_tag, DTR.len, if_neg (by omega)]
    simp only [Py.ok_bind, Bool.false_and]
    rw [if_neg (by simp), if_neg (by omega)]
    split <;> rfl

/-- Non-vacuity of C80: 12:00+02:00 up to 12:00 UTC the same day is two hours; 10:00 UTC is the first
element and 11:30+01:00 the second. -/
example : ∃ r, dtrangeA (.datetime (737791 * DAY + 43200000000) (some 7200000000))
      (.datetime (737791 * DAY + 43200000000) (some 0)) 1800000000 = .ok r ∧ r.len = .ok 4 ∧
    r.contains (.datetime (737791 * DAY + 36000000000) (some 0)) = .ok true ∧
    r.index (.datetime (737791 * DAY + 41400000000) (some 3600000000)) none none = .ok 1 ∧
    r.contains (.datetime (737791 * DAY + 43200000000) none) = .error .typeError ∧
    r.eq ⟨.datetime (737791 * DAY + 36000000000) (some 0), 4, 1800000000⟩ = .ok true := by
  refine ⟨⟨.datetime (737791 * DAY + 43200000000) (some 7200000000), 4, 1800000000⟩, ?_, ?_, ?_, ?_,
    ?_, ?_⟩ <;> decide +kernel

/-- Non-vacuity of the violation: 10:00+01:00, 11:00+01:00. -/
example : ∃ r : DTR, r.start = .time 36000000000 ∧ r.Proper ∧ 0 < r.length ∧ r.step ≠ 0 ∧
    dtrangeA (.time 36000000000 (some 3600000000)) (.time 43200000000 (some 3600000000)) 3600000000 =
      .ok (r.tag (some 3600000000)) ∧
    (r.tag (some 3600000000)).toList = .ok [.time 36000000000 none, .time 39600000000 none] := by
  refine ⟨⟨.time 36000000000, 2, 3600000000⟩, rfl,
    (dtrange_proper (s := .time 36000000000) (e := .time 43200000000) (step := 3600000000)
      (by decide) (by decide) (by decide) (fun _ h => by cases h) (by decide +kernel)).1,
    by decide, by decide, by decide +kernel, by decide +kernel⟩

end Fauxdoc
