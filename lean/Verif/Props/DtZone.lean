import Verif.Spec.DtZone
import Verif.Props.DtAware
/-
C90: ranges of datetimes in time zones with daylight saving time (dtrange.py).
-/
namespace Fauxdoc
namespace ZDTR

variable (Z : Zones)

/-! ### The same range without a zone -/

/-- The clock readings only. -/
def naive (r : ZDTR) : DTR := ⟨.datetime r.start.us, r.length, r.step⟩

/-- A clock reading in a zone. -/
def inZone (tz : Option Nat) (v : DT) : ZDT := ⟨v.num, false, tz⟩

theorem ofIndex_naive (i : Int) (s : ZDT) (step : Int) :
    ZDT.ofIndex i s step = (indexToValue i (.datetime s.us) step).map (inZone s.tz) := by
  unfold ZDT.ofIndex indexToValue
  cases mkTd (step * i) with
  | error e => rfl
  | ok d =>
    simp only [Py.ok_bind]
    cases datetimeAdd s.us d <;> rfl

theorem getItem_naive (r : ZDTR) (i : Int) :
    r.getItem i = (r.naive.getItem i).map (inZone r.start.tz) := by
  unfold ZDTR.getItem DTR.getItem
  show ((PyRange.mk 0 r.length 1).getItem i >>= _) =
    Except.map _ ((PyRange.mk 0 r.length 1).getItem i >>= _)
  cases (PyRange.mk 0 r.length 1).getItem i with
  | error e => rfl
  | ok j => exact ofIndex_naive j r.start r.step

theorem iterFrom_naive (r : ZDTR) : ∀ fuel i,
    r.iterFrom fuel i = (r.naive.iterFrom fuel i).map (List.map (inZone r.start.tz))
  | 0, _ => rfl
  | fuel + 1, i => by
    unfold ZDTR.iterFrom DTR.iterFrom
    rw [getItem_naive]
    cases hg : r.naive.getItem i with
    | error e => cases e <;> rfl
    | ok v =>
      simp only [Except.map, iterFrom_naive r fuel (i + 1)]
      cases r.naive.iterFrom fuel (i + 1) <;> rfl

theorem toList_naive (r : ZDTR) :
    r.toList = r.naive.toList.map (List.map (inZone r.start.tz)) := by
  unfold ZDTR.toList DTR.toList
  show (r.naive.len >>= _) = _
  cases r.naive.len with
  | error e => rfl
  | ok n => exact iterFrom_naive r _ _

theorem Exists.item {r : ZDTR} (h : r.Exists) (i : Nat) (hi : (i : Int) < r.length) :
    indexToValue i (.datetime r.start.us) r.step = .ok (.datetime (r.nth i).us) := by
  obtain ⟨⟨h1, h2⟩, h3⟩ := h.2 i hi
  have h1 : DAY ≤ r.start.us + r.step * i := h1
  have h2 : r.start.us + r.step * i < (MAXORD + 1) * DAY := h2
  unfold indexToValue mkTd datetimeAdd
  rw [if_pos h3]
  simp only [Py.ok_bind]
  rw [if_pos ⟨h1, h2⟩]
  rfl

/-- **C90 (elements).**  The elements are the readings of the local clock at multiples of the step
after the start, all in the zone of the start. -/
theorem C90_elements (r : ZDTR) (h : r.Exists) :
    r.toList = .ok ((List.range r.length.toNat).map fun i : Nat => r.nth i) := by
  rw [toList_naive, DTR.toList_eq r.naive h.1 ?_]
  · simp only [Except.map, DTR.elems, List.map_map]
    rfl
  · intro i hi
    obtain ⟨⟨h1, h2⟩, h3⟩ := h.2 i hi
    exact ⟨h3, h1, h2⟩

/-- Slices and `stop` are those of the clock readings too. -/
theorem C90_slice (r : ZDTR) (s : PySlice) :
    (r.getSlice s).map (fun t => (t.naive, t.start.fold, t.start.tz)) =
        (r.naive.getSlice s).map (fun t => (t, false, r.start.tz)) ∧
      r.stop = r.naive.stop.map (inZone r.start.tz) := by
  constructor
  · unfold ZDTR.getSlice DTR.getSlice
    show Except.map _ ((PyRange.mk 0 r.length 1).getSlice s >>= _) =
      Except.map _ ((PyRange.mk 0 r.length 1).getSlice s >>= _)
    cases (PyRange.mk 0 r.length 1).getSlice s with
    | error e => rfl
    | ok slc =>
      simp only [Py.ok_bind, ofIndex_naive]
      show Except.map _ (Except.map (inZone r.start.tz)
        (indexToValue slc.start (.datetime r.start.us) r.step) >>= _) =
        Except.map _ (indexToValue slc.start (.datetime r.start.us) r.step >>= _)
      cases hv : indexToValue slc.start (.datetime r.start.us) r.step with
      | error e => rfl
      | ok v =>
        have := indexToValue_sameType hv
        show Except.map _ (mkTd (r.step * slc.step) >>= _) =
          Except.map _ (mkTd (r.step * slc.step) >>= _)
        cases mkTd (r.step * slc.step) with
        | error e => rfl
        | ok st =>
          cases v with
          | datetime w => rfl
          | date o => cases this
          | time u => cases this
  · unfold ZDTR.stop DTR.stop
    show (r.naive.len >>= _) = _
    cases r.naive.len with
    | error e => rfl
    | ok n => exact ofIndex_naive n r.start r.step

/-! ### Looking values up -/

theorem index_sub {r : ZDTR} {v : ZDT} {d : Int} (h : v.sub Z r.start = .ok d)
    (a b : Option Int) :
    r.index Z v a b = r.naive.index (.datetime (r.start.us + d)) a b := by
  unfold ZDTR.index DTR.index ZDT.toIndex
  rw [h]
  simp only [Py.ok_bind, naive, DT.isInstanceOfTypeOf, if_true, valueToIndex, add_sub_cancel_left]
  rfl

theorem contains_sub {r : ZDTR} {v : ZDT} {d : Int} (h : v.sub Z r.start = .ok d)
    (h0 : r.step ≠ 0) :
    r.contains Z v = .ok (decide (∃ j ∈ List.range r.length.toNat, r.step * (j : Int) = d)) := by
  have h1 : r.contains Z v = r.naive.contains (.datetime (r.start.us + d)) := by
    unfold ZDTR.contains DTR.contains
    rw [index_sub Z h]
    rfl
  rw [h1, naive_contains r.naive r.start.us _ rfl h0]
  congr 1
  rw [decide_eq_decide]
  constructor <;> rintro ⟨j, hj, h⟩ <;> refine ⟨j, hj, ?_⟩ <;>
    simp only [naive] at h ⊢ <;> omega

theorem sub_same {a b : ZDT} (h : a.tz = b.tz) : a.sub Z b = .ok (a.us - b.us) := by
  unfold ZDT.sub
  rw [if_pos h]

theorem sub_other {a b : ZDT} {x y : Nat} (ha : a.tz = some x) (hb : b.tz = some y) (h : x ≠ y) :
    a.sub Z b = .ok (a.moment Z x - b.moment Z y) := by
  unfold ZDT.sub ZDT.off ZDT.moment
  rw [ha, hb, if_neg (by simpa using h)]
  rfl

theorem eq_same {a b : ZDT} (h : a.tz = b.tz) : a.eq Z b = decide (a.us = b.us) := by
  unfold ZDT.eq
  rw [if_pos h]

theorem eq_other {a b : ZDT} {x y : Nat} (ha : a.tz = some x) (hb : b.tz = some y) (h : x ≠ y) :
    a.eq Z b = (decide (a.moment Z x = b.moment Z y) && !a.ambiguous Z && !b.ambiguous Z) := by
  unfold ZDT.eq ZDT.moment
  rw [ha, hb, if_neg (by simpa using h)]
  simp only [ZDT.off, ha, hb, Option.map_some]

theorem Steady.nth_moment {Z : Zones} {z : Nat} {r : ZDTR} (h : r.Steady Z z) (i : Nat)
    (hi : (i : Int) < r.length) : (r.nth i).moment Z z = r.start.moment Z z + r.step * i := by
  unfold ZDT.moment
  have := h i hi false
  simp only [nth] at this ⊢
  omega

theorem Steady.nth_clear {Z : Zones} {z : Nat} {r : ZDTR} (hz : r.start.tz = some z)
    (h : r.Steady Z z) (i : Nat) (hi : (i : Int) < r.length) :
    (r.nth i).ambiguous Z = false := by
  unfold ZDT.ambiguous ZDT.off
  have h1 := h i hi false
  have h2 := h i hi true
  simp only [nth] at h1 h2 ⊢
  simp [hz, h1, h2]

/-- **C90 (membership, one zone).**  For values with the `tzinfo` of the start, `in` and membership in
the list agree, whatever the clock does. -/
theorem C90_contains_same (r : ZDTR) (v : ZDT) (hr : r.Exists) (h0 : r.step ≠ 0)
    (hz : v.tz = r.start.tz) :
    ∃ L, r.toList = .ok L ∧ r.contains Z v = .ok (L.any fun e => e.eq Z v) := by
  refine ⟨_, C90_elements r hr, ?_⟩
  rw [contains_sub Z (sub_same Z hz) h0]
  congr 1
  rw [Bool.eq_iff_iff, decide_eq_true_eq, List.any_eq_true]
  simp only [List.mem_map]
  constructor
  · rintro ⟨j, hj, h⟩
    refine ⟨_, ⟨j, hj, rfl⟩, ?_⟩
    rw [eq_same Z (a := r.nth j) hz.symm, decide_eq_true_eq]
    simp only [nth]
    omega
  · rintro ⟨_, ⟨j, hj, rfl⟩, h⟩
    refine ⟨j, hj, ?_⟩
    rw [eq_same Z (a := r.nth j) hz.symm, decide_eq_true_eq] at h
    simp only [nth] at h
    omega

/-- What `in` says about values of another zone, whatever the clock does: it looks for the moment of
the value among the moments at multiples of the step after the start. -/
theorem C90_contains_other (r : ZDTR) (v : ZDT) {x y : Nat} (hx : v.tz = some x)
    (hy : r.start.tz = some y) (hxy : x ≠ y) (h0 : r.step ≠ 0) :
    r.contains Z v = .ok (decide (∃ j ∈ List.range r.length.toNat,
      r.start.moment Z y + r.step * (j : Int) = v.moment Z x)) := by
  rw [contains_sub Z (sub_other Z hx hy hxy) h0]
  congr 1
  rw [decide_eq_decide]
  constructor <;> rintro ⟨j, hj, h⟩ <;> exact ⟨j, hj, by omega⟩

/-- **C90 (membership, other zones).**  If the clock of the range is not changed within it, and the
value is not in a repeated or missing hour of its own zone: `in` and membership in the list agree. -/
theorem C90_contains_partial (r : ZDTR) (v : ZDT) {x y : Nat} (hr : r.Exists) (h0 : r.step ≠ 0)
    (hx : v.tz = some x) (hy : r.start.tz = some y) (hxy : x ≠ y) (hs : r.Steady Z y)
    (hv : v.ambiguous Z = false) :
    ∃ L, r.toList = .ok L ∧ r.contains Z v = .ok (L.any fun e => e.eq Z v) := by
  refine ⟨_, C90_elements r hr, ?_⟩
  rw [C90_contains_other Z r v hx hy hxy h0]
  congr 1
  rw [Bool.eq_iff_iff, decide_eq_true_eq, List.any_eq_true]
  simp only [List.mem_map]
  have key : ∀ j ∈ List.range r.length.toNat, (r.nth j).eq Z v =
      decide (r.start.moment Z y + r.step * (j : Int) = v.moment Z x) := by
    intro j hj
    rw [List.mem_range] at hj
    rw [eq_other Z (a := r.nth j) hy hx hxy.symm, hs.nth_moment j (by omega),
      hs.nth_clear hy j (by omega), hv]
    simp
  constructor
  · rintro ⟨j, hj, h⟩
    exact ⟨_, ⟨j, hj, rfl⟩, by rw [key j hj]; simpa using h⟩
  · rintro ⟨_, ⟨j, hj, rfl⟩, h⟩
    rw [key j hj] at h
    exact ⟨j, hj, by simpa using h⟩

/-! ### Equality and hash -/

theorem eq_true {r s : ZDTR} (h : r.eq Z s = .ok true) :
    0 ≤ r.length ∧ r.length = s.length ∧
      (r.length = 0 ∨ r.start.eq Z s.start = true ∧ (r.length = 1 ∨ r.step = s.step)) := by
  unfold ZDTR.eq ZDTR.len at h
  by_cases hr : r.length < 0
  · rw [if_pos hr] at h; cases h
  by_cases hs : s.length < 0
  · rw [if_neg hr, if_pos hs] at h; cases h
  rw [if_neg hr, if_neg hs] at h
  simp only [Py.ok_bind, Py.pure_eq] at h
  by_cases h1 : r.length = s.length
  · refine ⟨by omega, h1, ?_⟩
    rw [if_neg (by simpa using h1)] at h
    by_cases h2 : r.length = 0
    · exact .inl h2
    · rw [if_neg h2] at h
      by_cases h3 : r.length = 1
      · rw [if_pos h3] at h
        exact .inr ⟨by simpa using h, .inl h3⟩
      · rw [if_neg h3] at h
        have h : (r.start.eq Z s.start && decide (r.step = s.step)) = true := by simpa using h
        rw [Bool.and_eq_true, decide_eq_true_eq] at h
        exact .inr ⟨h.1, .inr h.2⟩
  · rw [if_pos (by simpa using h1)] at h; simp at h

theorem off_of_clear {v : ZDT} (h : v.ambiguous Z = false) :
    { v with fold := false }.off Z = v.off Z := by
  unfold ZDT.ambiguous at h
  rcases v with ⟨u, f, tz⟩
  cases f
  · rfl
  · have h : ZDT.off Z ⟨u, true, tz⟩ = ZDT.off Z ⟨u, false, tz⟩ := by simpa using h
    exact h.symm

theorem hashKey_of_eq {a b : ZDT} (h : a.eq Z b = true) : a.hashKey Z = b.hashKey Z := by
  unfold ZDT.eq at h
  by_cases hz : a.tz = b.tz
  · rw [if_pos hz, decide_eq_true_eq] at h
    unfold ZDT.hashKey ZDT.off
    simp only [hz, h]
  · rw [if_neg hz] at h
    cases ha : a.off Z with
    | none => simp [ha] at h
    | some x =>
      cases hb : b.off Z with
      | none => simp [ha, hb] at h
      | some y =>
        simp only [ha, hb, Bool.and_eq_true, decide_eq_true_eq, Bool.not_eq_true'] at h
        unfold ZDT.hashKey
        rw [off_of_clear Z h.1.2, off_of_clear Z h.2, ha, hb]
        simp only [h.1.1]

/-- **C90 (hash).**  Equal ranges have equal hashes, whatever the zones. -/
theorem C90_hash (r s : ZDTR) (h : r.eq Z s = .ok true) : r.hashKey Z = s.hashKey Z := by
  obtain ⟨h0, h1, h2⟩ := eq_true Z h
  unfold ZDTR.hashKey ZDTR.len
  rw [if_neg (by omega), if_neg (by omega)]
  simp only [Py.ok_bind, ← h1]
  rcases h2 with h2 | ⟨h2, h3 | h3⟩
  · simp [h2]
  · simp [h3, hashKey_of_eq Z h2]
  · simp [h3, hashKey_of_eq Z h2]

/-- When are the elements at position `i` of two ranges equal?  The clocks must be the same or must
not be changed. -/
def Comparable (r s : ZDTR) : Prop :=
  r.start.tz = s.start.tz ∨
    ∃ x y, r.start.tz = some x ∧ s.start.tz = some y ∧ r.Steady Z x ∧ s.Steady Z y

theorem nth_eq {r s : ZDTR} (hc : Comparable Z r s) (i : Nat) (hi : (i : Int) < r.length)
    (hi' : (i : Int) < s.length) :
    (r.nth i).eq Z (s.nth i) = true ↔
      ∃ d, r.start.sub Z s.start = .ok d ∧ d + r.step * i = s.step * i := by
  rcases hc with hz | ⟨x, y, hx, hy, hr, hs⟩
  · rw [eq_same Z (a := r.nth i) (b := s.nth i) hz, sub_same Z hz, decide_eq_true_eq]
    simp only [nth]
    constructor
    · intro h; exact ⟨_, rfl, by omega⟩
    · rintro ⟨d, h, h'⟩
      have := Except.ok.inj h
      omega
  · by_cases hxy : x = y
    · subst hxy
      have hz : r.start.tz = s.start.tz := by rw [hx, hy]
      rw [eq_same Z (a := r.nth i) (b := s.nth i) hz, sub_same Z hz, decide_eq_true_eq]
      simp only [nth]
      constructor
      · intro h; exact ⟨_, rfl, by omega⟩
      · rintro ⟨d, h, h'⟩
        have := Except.ok.inj h
        omega
    · rw [eq_other Z (a := r.nth i) (b := s.nth i) hx hy hxy, sub_other Z hx hy hxy,
        hr.nth_moment i hi, hs.nth_moment i hi', hr.nth_clear hx i hi, hs.nth_clear hy i hi']
      simp only [Bool.not_false, Bool.and_true, decide_eq_true_eq]
      constructor
      · intro h; exact ⟨_, rfl, by omega⟩
      · rintro ⟨d, h, h'⟩
        have := Except.ok.inj h
        omega

theorem start_sub_of_eq {a b : ZDT} (h : a.eq Z b = true) : a.sub Z b = .ok 0 := by
  unfold ZDT.eq at h
  unfold ZDT.sub
  by_cases hz : a.tz = b.tz
  · rw [if_pos hz, decide_eq_true_eq] at h
    rw [if_pos hz, h, sub_self]
  · rw [if_neg hz] at h ⊢
    cases ha : a.off Z with
    | none => simp [ha] at h
    | some x =>
      cases hb : b.off Z with
      | none => simp [ha, hb] at h
      | some y =>
        simp only [ha, hb, Bool.and_eq_true, decide_eq_true_eq, Bool.not_eq_true'] at h
        simp only [h.1.1, sub_self]

/-- **C90 (equality).**  If both ranges have the same `tzinfo` or the clocks are not changed within
them: equal ranges have equal elements. -/
theorem C90_eq_sound_partial (r s : ZDTR) (hr : r.Exists) (hs : s.Exists) (hc : Comparable Z r s)
    (h : r.eq Z s = .ok true) :
    ∃ L L', r.toList = .ok L ∧ s.toList = .ok L' ∧
      List.Forall₂ (fun a b => a.eq Z b = true) L L' := by
  obtain ⟨h0, h1, h2⟩ := eq_true Z h
  refine ⟨_, _, C90_elements r hr, C90_elements s hs, ?_⟩
  rw [List.forall₂_iff_get]
  refine ⟨by simp [h1], ?_⟩
  intro i hi hi'
  simp only [List.length_map, List.length_range] at hi hi'
  simp only [List.get_eq_getElem, List.getElem_map, List.getElem_range]
  rw [nth_eq Z hc i (by omega) (by omega)]
  rcases h2 with h2 | ⟨h2, h3⟩
  · omega
  · refine ⟨0, start_sub_of_eq Z h2, ?_⟩
    rcases h3 with h3 | h3
    · have : i = 0 := by omega
      subst this; simp
    · rw [h3]; simp

/-- **C90 (equality, converse).**  Under the same conditions, ranges with equal elements are equal. -/
theorem C90_eq_complete_partial (r s : ZDTR) (hr : r.Exists) (hs : s.Exists)
    (hc : Comparable Z r s) (L L' : List ZDT) (hL : r.toList = .ok L) (hL' : s.toList = .ok L')
    (h : List.Forall₂ (fun a b => a.eq Z b = true) L L') : r.eq Z s = .ok true := by
  rw [C90_elements r hr] at hL
  rw [C90_elements s hs] at hL'
  cases hL
  cases hL'
  rw [List.forall₂_iff_get] at h
  obtain ⟨hlen, hel⟩ := h
  have l1 := hr.1
  have l2 := hs.1
  have hlen' : r.length = s.length := by
    simp only [List.length_map, List.length_range] at hlen; omega
  have el : ∀ i : Nat, (i : Int) < r.length →
      ∃ d, r.start.sub Z s.start = .ok d ∧ d + r.step * i = s.step * i := by
    intro i hi
    rw [← nth_eq Z hc i hi (by omega)]
    have := hel i (by simp only [List.length_map, List.length_range]; omega)
      (by simp only [List.length_map, List.length_range]; omega)
    simpa only [List.get_eq_getElem, List.getElem_map, List.getElem_range] using this
  unfold ZDTR.eq ZDTR.len
  rw [if_neg (by omega), if_neg (by omega)]
  simp only [Py.ok_bind, Py.pure_eq]
  rw [if_neg (by simpa using hlen')]
  by_cases h0 : r.length = 0
  · rw [if_pos h0]
  · rw [if_neg h0]
    obtain ⟨d, e0, e0'⟩ := el 0 (by omega)
    simp only [Nat.cast_zero, mul_zero, add_zero] at e0'
    subst e0'
    have e : r.start.eq Z s.start = true := by
      rcases hc with hz | ⟨x, y, hx, hy, cr, cs⟩
      · rw [eq_same Z hz, decide_eq_true_eq]
        rw [sub_same Z hz] at e0
        have := Except.ok.inj e0
        omega
      · by_cases hxy : x = y
        · have hz : r.start.tz = s.start.tz := by rw [hx, hy, hxy]
          rw [eq_same Z hz, decide_eq_true_eq]
          rw [sub_same Z hz] at e0
          have := Except.ok.inj e0
          omega
        · rw [sub_other Z hx hy hxy] at e0
          have hd := Except.ok.inj e0
          have clear : ∀ (t : ZDTR) (z : Nat), t.start.tz = some z → t.Steady Z z →
              0 < t.length → t.start.ambiguous Z = false := by
            intro t z hz ht h
            have a := ht 0 (by simpa using h) false
            have b := ht 0 (by simpa using h) true
            simp only [nth, Nat.cast_zero, mul_zero, add_zero] at a b
            unfold ZDT.ambiguous ZDT.off
            rcases t with ⟨⟨u, f, tz⟩, n, st⟩
            simp only at hz a b ⊢
            cases f <;> simp [hz, a, b]
          rw [eq_other Z hx hy hxy, clear r x hx cr (by omega), clear s y hy cs (by omega)]
          simp only [Bool.not_false, Bool.and_true, decide_eq_true_eq]
          omega
    rw [e]
    by_cases h1 : r.length = 1
    · rw [if_pos h1]
    · rw [if_neg h1]
      obtain ⟨d', e1, e1'⟩ := el 1 (by omega)
      rw [e0] at e1
      cases e1
      have : r.step = s.step := by simpa using e1'
      simp [this]

/-! ### The factory -/

/-- The range that `dtrange` makes, by what `stop - start` is. -/
theorem dtrange_sub {a b : ZDT} {d step : Int} (h : b.sub Z a = .ok d) (h0 : step ≠ 0) :
    dtrangeZ Z a b step = .ok ⟨a, ceilLen d step, step⟩ := by
  unfold dtrangeZ ZDT.toIndex tdDivmod ceilLen
  rw [h]
  simp only [Py.ok_bind, if_neg h0]
  rfl

theorem dtrange_list {a b : ZDT} {d step : Int} (h : b.sub Z a = .ok d) (h0 : step ≠ 0)
    (ha : (DT.datetime a.us).Valid) (hb : (DT.datetime (a.us + d)).Valid)
    (hdir : (0 < step → 0 ≤ d) ∧ (step < 0 → d ≤ 0)) :
    ∃ r L, dtrangeZ Z a b step = .ok r ∧ r.start = a ∧ r.step = step ∧ r.toList = .ok L ∧
      ∀ i : Nat, L[i]? = if Before step (step * i) d then some (r.nth i) else none := by
  have hlen : 0 ≤ ceilLen d step := by
    have : (-1 : Int) < ceilLen d step := by
      rw [lt_ceilLen _ _ h0]
      rcases lt_or_gt_of_ne h0 with h | h
      · right; refine ⟨h, ?_⟩
        have := hdir.2 h; omega
      · left; refine ⟨h, ?_⟩
        have := hdir.1 h; omega
    omega
  have hd : WholeStep (.datetime a.us) step := fun o ho => by cases ho
  refine ⟨_, _, dtrange_sub Z h h0, rfl, rfl, C90_elements _ ⟨hlen, ?_⟩, ?_⟩
  · intro i hi
    have := ceil_index_reachable (s := .datetime a.us) (e := .datetime (a.us + d)) h0 ha hb trivial
      rfl hd i (by simpa only [DT.num, add_sub_cancel_left] using hi)
    exact ⟨this.2, this.1⟩
  · intro i
    have hiff := lt_ceilLen d step h0 i
    rw [List.getElem?_map]
    by_cases h : (i : Int) < ceilLen d step
    · rw [if_pos (hiff.mp h), List.getElem?_range (by simp only; omega)]
      rfl
    · rw [if_neg (fun hb => h (hiff.mpr hb)), List.getElem?_eq_none (by simp; omega)]
      rfl

/-- **C90 (factory, one zone).**  If start and stop have the same `tzinfo`, the elements are the
readings of that clock at multiples of the step before the reading of stop. -/
theorem C90_dtrange_same (a b : ZDT) (step : Int) (h0 : step ≠ 0) (hz : b.tz = a.tz)
    (ha : (DT.datetime a.us).Valid) (hb : (DT.datetime b.us).Valid)
    (hdir : (0 < step → a.us ≤ b.us) ∧ (step < 0 → b.us ≤ a.us)) :
    ∃ r L, dtrangeZ Z a b step = .ok r ∧ r.toList = .ok L ∧
      ∀ i : Nat, L[i]? =
        if Before step (a.us + step * i) b.us then some ⟨a.us + step * i, false, a.tz⟩ else none := by
  obtain ⟨r, L, h1, h2, h3, h4, h5⟩ := dtrange_list Z (sub_same Z hz) h0 ha
    (by rw [add_sub_cancel]; exact hb)
    ⟨fun h => by have := hdir.1 h; omega, fun h => by have := hdir.2 h; omega⟩
  refine ⟨r, L, h1, h4, fun i => ?_⟩
  rw [h5 i]
  simp only [nth, h2, h3]
  congr 1
  unfold Before
  rw [eq_iff_iff]
  constructor <;> (rintro (⟨h, h'⟩ | ⟨h, h'⟩) <;> [left; right] <;> exact ⟨h, by omega⟩)

/-- **C90 (factory, other zones).**  If stop is in another zone and the clock of start is not changed
within the range: the moments of the elements are exactly the moments at multiples of the step after
that of start that are before that of stop. -/
theorem C90_dtrange_partial (a b : ZDT) (step : Int) {x y : Nat} (h0 : step ≠ 0)
    (hx : a.tz = some x) (hy : b.tz = some y) (hxy : x ≠ y) (ha : (DT.datetime a.us).Valid)
    (hb : (DT.datetime (b.moment Z y + Z x a.us a.fold)).Valid)
    (hdir : (0 < step → a.moment Z x ≤ b.moment Z y) ∧ (step < 0 → b.moment Z y ≤ a.moment Z x)) :
    ∃ r L, dtrangeZ Z a b step = .ok r ∧ r.toList = .ok L ∧ (r.Steady Z x →
      ∀ i : Nat, L[i]?.map (ZDT.moment Z x) =
        if Before step (a.moment Z x + step * i) (b.moment Z y) then some (a.moment Z x + step * i)
        else none) := by
  obtain ⟨r, L, h1, h2, h3, h4, h5⟩ := dtrange_list Z (sub_other Z hy hx hxy.symm) h0 ha
    (by
      rw [show a.us + (b.moment Z y - a.moment Z x) = b.moment Z y + Z x a.us a.fold by
        unfold ZDT.moment; ring]
      exact hb)
    ⟨fun h => by have := hdir.1 h; omega, fun h => by have := hdir.2 h; omega⟩
  refine ⟨r, L, h1, h4, fun hs i => ?_⟩
  have hlen : Before step (step * (i : Int)) (b.moment Z y - a.moment Z x) →
      (i : Int) < r.length := by
    rw [dtrange_sub Z (sub_other Z hy hx hxy.symm) h0] at h1
    have h1 := Except.ok.inj h1
    rw [← h1]
    exact (lt_ceilLen _ step h0 i).mpr
  have hB : Before step (step * (i : Int)) (b.moment Z y - a.moment Z x) ↔
      Before step (a.moment Z x + step * i) (b.moment Z y) := by
    unfold Before
    constructor <;> (rintro (⟨h, h'⟩ | ⟨h, h'⟩) <;> [left; right] <;> exact ⟨h, by omega⟩)
  rw [h5 i]
  by_cases h : Before step (step * (i : Int)) (b.moment Z y - a.moment Z x)
  · rw [if_pos h, if_pos (hB.mp h), Option.map_some, hs.nth_moment i (hlen h), h2, h3]
  · rw [if_neg h, if_neg (fun hb => h (hB.mpr hb))]
    rfl

/-- Between two elements there is one step on the local clock; the time that passes is the step less
what the clock was put forward. -/
theorem C90_elapsed (r : ZDTR) (z : Nat) (i : Int) :
    (r.nth (i + 1)).moment Z z - (r.nth i).moment Z z =
      r.step - (Z z (r.nth (i + 1)).us false - Z z (r.nth i).us false) := by
  unfold ZDT.moment nth
  ring

/-! ### Fixed offsets -/

/-- No clock is ever changed. -/
def FixedOffsets : Prop := ∀ z u f u' f', Z z u f = Z z u' f'

/-- A value in the model with fixed offsets. -/
def toA (v : ZDT) : ADT := .datetime v.us (v.tz.map fun z => Z z 0 false)

/-- A range in the model with fixed offsets. -/
def rangeA (r : ZDTR) : ADTR := ⟨toA Z r.start, r.length, r.step⟩

variable {Z}

theorem FixedOffsets.off (h : FixedOffsets Z) (v : ZDT) :
    v.off Z = v.tz.map fun z => Z z 0 false := by
  unfold ZDT.off
  cases v.tz with
  | none => rfl
  | some z => exact congrArg some (h z _ _ _ _)

theorem FixedOffsets.toIndex (h : FixedOffsets Z) (v s : ZDT) (step : Int) :
    ADT.toIndex (toA Z v) (toA Z s) step = v.toIndex Z s step := by
  unfold toA ADT.toIndex ZDT.toIndex ZDT.sub datetimeSub aligned
  simp only [h.off]
  rcases v with ⟨u, f, tz⟩
  rcases s with ⟨u', f', tz'⟩
  cases tz with
  | none => cases tz' with
    | none => rfl
    | some z => rfl
  | some z => cases tz' with
    | none => rfl
    | some z' =>
      by_cases e : z = z'
      · subst e
        simp only [Option.map_some, if_true, Py.ok_bind, Py.pure_eq]
        congr 1
        ring
      · simp only [Option.map_some, Option.some.injEq, if_neg e, Py.ok_bind, Py.pure_eq]

theorem FixedOffsets.eq (h : FixedOffsets Z) (a b : ZDT) :
    (toA Z a).eq (toA Z b) = a.eq Z b := by
  have am : ∀ v : ZDT, v.ambiguous Z = false := by
    intro v
    unfold ZDT.ambiguous
    simp only [h.off, bne_self_eq_false]
  unfold toA ADT.eq ADT.eq.clock ZDT.eq aligned
  simp only [h.off, am]
  rcases a with ⟨u, f, tz⟩
  rcases b with ⟨u', f', tz'⟩
  cases tz with
  | none => cases tz' <;> simp
  | some z => cases tz' with
    | none => simp
    | some z' =>
      by_cases e : z = z'
      · subst e; simp
      · simp [e]

theorem FixedOffsets.ofIndex (i : Int) (s : ZDT) (step : Int) :
    ADT.ofIndex i (toA Z s) step = (ZDT.ofIndex i s step).map (toA Z) := by
  unfold ADT.ofIndex ZDT.ofIndex toA
  cases mkTd (step * i) with
  | error e => rfl
  | ok d =>
    simp only [Py.ok_bind]
    cases datetimeAdd s.us d <;> rfl

theorem FixedOffsets.iterFrom (r : ZDTR) : ∀ fuel i,
    (rangeA Z r).iterFrom fuel i = (r.iterFrom fuel i).map (List.map (toA Z))
  | 0, _ => rfl
  | fuel + 1, i => by
    have hg : (rangeA Z r).getItem i = (r.getItem i).map (toA Z) := by
      unfold ADTR.getItem ZDTR.getItem
      show ((PyRange.mk 0 r.length 1).getItem i >>= _) =
        Except.map _ ((PyRange.mk 0 r.length 1).getItem i >>= _)
      cases (PyRange.mk 0 r.length 1).getItem i with
      | error e => rfl
      | ok j => exact FixedOffsets.ofIndex j r.start r.step
    unfold ADTR.iterFrom ZDTR.iterFrom
    rw [hg]
    cases r.getItem i with
    | error e => cases e <;> rfl
    | ok v =>
      simp only [Except.map, FixedOffsets.iterFrom r fuel (i + 1)]
      cases r.iterFrom fuel (i + 1) <;> rfl

/-- **C90 (fixed offsets).**  Where no clock is ever changed, this model is the one of C80, whatever
`tzinfo` objects the values have. -/
theorem C90_fixed (h : FixedOffsets Z) (r s : ZDTR) (v a b : ZDT) (i j : Option Int) (step : Int) :
    (rangeA Z r).toList = r.toList.map (List.map (toA Z)) ∧
    (rangeA Z r).index (toA Z v) i j = r.index Z v i j ∧
    (rangeA Z r).contains (toA Z v) = r.contains Z v ∧
    (rangeA Z r).eq (rangeA Z s) = r.eq Z s ∧
    dtrangeA (toA Z a) (toA Z b) step = (dtrangeZ Z a b step).map (rangeA Z) := by
  have hi : ∀ i j, (rangeA Z r).index (toA Z v) i j = r.index Z v i j := by
    intro i j
    unfold ADTR.index ZDTR.index
    rw [show (toA Z v).isInstanceOfTypeOf (rangeA Z r).start = true from rfl, if_pos rfl]
    show (ADT.toIndex (toA Z v) (toA Z r.start) r.step >>= _) = _
    rw [h.toIndex]
    rfl
  refine ⟨?_, hi i j, ?_, ?_, ?_⟩
  · unfold ADTR.toList ZDTR.toList
    show (r.len >>= _) = _
    cases r.len with
    | error e => rfl
    | ok n => exact FixedOffsets.iterFrom r _ _
  · unfold ADTR.contains ZDTR.contains
    rw [show (toA Z v).isInstanceOfTypeOf (rangeA Z r).start = true from rfl, if_pos rfl, hi]
    cases r.index Z v none none with
    | ok a => rfl
    | error e => cases e <;> rfl
  · unfold ADTR.eq ZDTR.eq
    show (r.len >>= fun n => s.len >>= fun m => _) = _
    simp only [rangeA, h.eq]
    rfl
  · unfold dtrangeA dtrangeZ
    rw [if_neg (by simp [toA, ADT.sameType])]
    show (ADT.toIndex (toA Z b) (toA Z a) step >>= _) = _
    rw [h.toIndex]
    cases b.toIndex Z a step with
    | error e => rfl
    | ok q => rfl

/-! ### Where it fails -/

/-- The clock of New York in 2021: 2 to 3 o'clock on March 14 is missing, 1 to 2 o'clock on November
7 is there twice. -/
def newYork (u : Int) (fold : Bool) : Int :=
  if u < 737863 * DAY + 2 * 3600000000 then -5 * 3600000000
  else if u < 737863 * DAY + 3 * 3600000000 then if fold then -4 * 3600000000 else -5 * 3600000000
  else if u < 738101 * DAY + 1 * 3600000000 then -4 * 3600000000
  else if u < 738101 * DAY + 2 * 3600000000 then if fold then -5 * 3600000000 else -4 * 3600000000
  else -5 * 3600000000

/-- Object 0 is UTC, the others are New York. -/
def atlas : Zones := fun z u f => if z = 0 then 0 else newYork u f

/-- A reading of a clock. -/
def at_ (ord h min : Int) (fold : Bool) (z : Nat) : ZDT :=
  ⟨ord * DAY + h * 3600000000 + min * 60000000, fold, some z⟩

/-- Noon in New York on March 13, 14 and 15. -/
def noons : ZDTR := ⟨at_ 737862 12 0 false 1, 3, DAY⟩

/-- **C90 is violated for membership.**  Noon on March 14 is in the list of noons, and 16:00 UTC is
that moment and equal to it; but it is not `in` the range.  17:00 UTC is `in` the range, but equal to
no element.  (In the repeated hour the same happens without a change of the clock in the range.) -/
theorem C90_contains_violated :
    ∃ L, noons.toList = .ok L ∧
      (L.any fun e => e.eq atlas (at_ 737863 16 0 false 0)) = true ∧
      noons.contains atlas (at_ 737863 16 0 false 0) = .ok false ∧
      (L.any fun e => e.eq atlas (at_ 737863 17 0 false 0)) = false ∧
      noons.contains atlas (at_ 737863 17 0 false 0) = .ok true := by
  refine ⟨[at_ 737862 12 0 false 1, at_ 737863 12 0 false 1, at_ 737864 12 0 false 1], ?_⟩
  decide +kernel

/-- **C90 is violated for equality.**  Noons in New York and 17:00 UTC on the same days: the ranges
are equal (and have equal hashes), but their second elements are an hour apart. -/
theorem C90_eq_violated :
    ∃ s L L' a b, noons.eq atlas s = .ok true ∧ noons.toList = .ok L ∧ s.toList = .ok L' ∧
      L[1]? = some a ∧ L'[1]? = some b ∧ a.eq atlas b = false ∧
      b.moment atlas 0 - a.moment atlas 1 = 3600000000 := by
  refine ⟨⟨at_ 737862 17 0 false 0, 3, DAY⟩,
    [at_ 737862 12 0 false 1, at_ 737863 12 0 false 1, at_ 737864 12 0 false 1],
    [at_ 737862 17 0 false 0, at_ 737863 17 0 false 0, at_ 737864 17 0 false 0],
    at_ 737863 12 0 false 1, at_ 737863 17 0 false 0, ?_⟩
  decide +kernel

/-- **C90 is violated for the factory.**  With a stop in UTC, noon on March 14 is missing though it is
half an hour before stop, and noon on November 7 is there though it is half an hour after stop.  From
1:30 to 1:30 an hour later, on the same clock, the range is empty. -/
theorem C90_dtrange_violated :
    (∃ r, dtrangeZ atlas (at_ 737862 12 0 false 1) (at_ 737863 16 30 false 0) DAY = .ok r ∧
      r.toList = .ok [at_ 737862 12 0 false 1] ∧
      (r.nth 1).moment atlas 1 < (at_ 737863 16 30 false 0).moment atlas 0) ∧
    (∃ r, dtrangeZ atlas (at_ 738100 12 0 false 1) (at_ 738101 16 30 false 0) DAY = .ok r ∧
      r.toList = .ok [at_ 738100 12 0 false 1, at_ 738101 12 0 false 1] ∧
      (at_ 738101 16 30 false 0).moment atlas 0 < (r.nth 1).moment atlas 1) ∧
    (∃ r, dtrangeZ atlas (at_ 738101 1 30 false 1) (at_ 738101 1 30 true 1) 60000000 = .ok r ∧
      r.toList = .ok [] ∧
      (at_ 738101 1 30 true 1).moment atlas 1 - (at_ 738101 1 30 false 1).moment atlas 1 =
        3600000000) := by
  refine ⟨⟨⟨at_ 737862 12 0 false 1, 1, DAY⟩, ?_⟩, ⟨⟨at_ 738100 12 0 false 1, 2, DAY⟩, ?_⟩,
    ⟨⟨at_ 738101 1 30 false 1, 0, 60000000⟩, ?_⟩⟩ <;> decide +kernel

/-- **C90 is violated for the first element.**  A range that starts in the second of the repeated
hours: its first element is an hour before its start. -/
theorem C90_first_violated :
    ∃ (r : ZDTR) (v : ZDT), r.getItem 0 = .ok v ∧ r.start = at_ 738101 1 30 true 1 ∧
      r.start.moment atlas 1 - v.moment atlas 1 = 3600000000 := by
  refine ⟨⟨at_ 738101 1 30 true 1, 2, DAY⟩, at_ 738101 1 30 false 1, ?_⟩
  decide +kernel

/-- The first element is the moment of the start exactly if the offset of the start does not depend
on its `fold`. -/
theorem C90_first_iff (r : ZDTR) (z : Nat) (h : 0 < r.length) (hv : (DT.datetime r.start.us).Valid) :
    ∃ v, r.getItem 0 = .ok v ∧ v.eq Z r.start = true ∧
      (v.moment Z z = r.start.moment Z z ↔ Z z r.start.us false = Z z r.start.us r.start.fold) := by
  refine ⟨⟨r.start.us, false, r.start.tz⟩, ?_, ?_, ?_⟩
  · have hn : r.naive.getItem 0 = .ok (.datetime r.start.us) := by
      rw [DTR.getItem_eq, if_pos (by simp only [naive]; omega), if_neg (by decide), indexToValue_eq,
        if_pos]
      · simp [naive, DT.plus]
      · rw [mul_zero]
        exact ⟨by decide, by simpa using hv.1, by simpa using hv.2⟩
    rw [getItem_naive, hn]
    rfl
  · rw [eq_same Z (a := ⟨r.start.us, false, r.start.tz⟩) (b := r.start) rfl]
    simp
  · unfold ZDT.moment
    simp only
    omega

/-! ### Examples for the hypotheses -/

/-- Noon on January 1 to 3: the clock is not changed. -/
def winter : ZDTR := ⟨at_ 737791 12 0 false 1, 3, DAY⟩

theorem winter_steady : winter.Steady atlas 1 := by
  intro i hi f
  have hi : (i : Int) < 3 := hi
  have : i = 0 ∨ i = 1 ∨ i = 2 := by omega
  rcases this with rfl | rfl | rfl <;> cases f <;> decide +kernel

theorem winter_exists : winter.Exists := by
  refine ⟨by decide, fun i hi => ?_⟩
  have hi : (i : Int) < 3 := hi
  have : i = 0 ∨ i = 1 ∨ i = 2 := by omega
  rcases this with rfl | rfl | rfl <;> decide +kernel

theorem noons_exist : noons.Exists := by
  refine ⟨by decide, fun i hi => ?_⟩
  have hi : (i : Int) < 3 := hi
  have : i = 0 ∨ i = 1 ∨ i = 2 := by omega
  rcases this with rfl | rfl | rfl <;> decide +kernel

example : ¬ noons.Steady atlas 1 := fun h => absurd (h 1 (by decide) false) (by decide +kernel)

-- Noon on January 2 is 17:00 UTC.
example : winter.contains atlas (at_ 737792 17 0 false 0) = .ok true ∧
    winter.contains atlas (at_ 737792 16 0 false 0) = .ok false ∧
    (at_ 737792 17 0 false 0).ambiguous atlas = false := by decide +kernel

example : ∃ L, winter.toList = .ok L ∧ winter.contains atlas (at_ 737792 17 0 false 0) =
    .ok (L.any fun e => e.eq atlas (at_ 737792 17 0 false 0)) :=
  C90_contains_partial atlas winter _ (x := 0) (y := 1) winter_exists (by decide) rfl rfl (by decide)
    winter_steady (by decide +kernel)

example : ∃ L, noons.toList = .ok L ∧ noons.contains atlas (at_ 737863 12 0 true 1) =
    .ok (L.any fun e => e.eq atlas (at_ 737863 12 0 true 1)) :=
  C90_contains_same atlas noons _ noons_exist (by decide) rfl

-- The two ranges of an equal pair in different zones.
example : winter.eq atlas ⟨at_ 737791 17 0 false 0, 3, DAY⟩ = .ok true ∧
    Comparable atlas winter ⟨at_ 737791 17 0 false 0, 3, DAY⟩ :=
  ⟨by decide +kernel, .inr ⟨1, 0, rfl, rfl, winter_steady, fun _ _ _ => by
    simp [atlas]⟩⟩

-- A stop in another zone, and the conditions of the theorem about it.
example : (∃ r, dtrangeZ atlas winter.start (at_ 737793 17 30 false 0) DAY = .ok r ∧ r = winter) ∧
    (DT.datetime winter.start.us).Valid ∧
    (DT.datetime ((at_ 737793 17 30 false 0).moment atlas 0 + atlas 1 winter.start.us false)).Valid ∧
    winter.start.moment atlas 1 ≤ (at_ 737793 17 30 false 0).moment atlas 0 :=
  ⟨⟨_, by decide +kernel, rfl⟩, by decide +kernel, by decide +kernel, by decide +kernel⟩

-- In the missing hour: half past two on March 14 is in the range of half hours on that day.
example : (ZDTR.mk (at_ 737863 1 30 false 1) 4 1800000000).contains atlas (at_ 737863 2 30 false 1) =
    .ok true := by decide +kernel

-- The time between two noons over the change of the clock is 23 hours.
example : (noons.nth 1).moment atlas 1 - (noons.nth 0).moment atlas 1 = 23 * 3600000000 := by
  decide +kernel

example : FixedOffsets fun z _ _ => (z : Int) * 3600000000 := fun _ _ _ _ _ => rfl

end ZDTR
end Fauxdoc
