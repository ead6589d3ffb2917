import Verif.Props.DtRange
/- Lemmas for membership, slicing and equality of date/time ranges. -/
namespace Fauxdoc

theorem DT.num_inj {a b : DT} (ht : a.sameType b = true) (h : a.num = b.num) : a = b := by
  cases a <;> cases b <;> simp only [DT.sameType, Bool.false_eq_true, DT.num, DAY] at * <;>
    first | rw [h] | (congr 1; omega)

theorem fdivmod_eq_iff (D step j : Int) (h0 : step ≠ 0) :
    (Int.fdiv D step = j ∧ Int.fmod D step = 0) ↔ D = step * j := by
  obtain ⟨h1, -, -⟩ := fdivmod_spec D step
  constructor
  · rintro ⟨h2, h3⟩
    rw [h2, h3] at h1; omega
  · rintro rfl
    exact ⟨Int.mul_fdiv_cancel_left j h0, Int.mul_fmod_right step j⟩

theorem valueToIndex_calendar {v s : DT} (step : Int) (hc : s.isCalendar)
    (ht : s.sameType v = true) :
    valueToIndex v s step = tdDivmod (v.num - s.num) step := by
  cases s with
  | time u => cases hc
  | date o =>
    cases v <;> simp only [DT.sameType, Bool.false_eq_true] at ht
    simp only [valueToIndex, DT.num]; rw [← sub_mul]
  | datetime u =>
    cases v <;> simp only [DT.sameType, Bool.false_eq_true] at ht
    rfl

/-- The distance that `_value_to_index` divides by the step. -/
def dist (v s : DT) (step : Int) : Int :=
  match s with
  | .time u => clockDist u v.num step
  | _ => v.num - s.num

theorem valueToIndex_eq {v s : DT} (step : Int) (ht : s.sameType v = true) :
    valueToIndex v s step = tdDivmod (dist v s step) step := by
  cases s with
  | time u =>
    cases v <;> simp only [DT.sameType, Bool.false_eq_true] at ht
    exact valueToIndex_time _ _ _
  | date o => exact valueToIndex_calendar step trivial ht
  | datetime u => exact valueToIndex_calendar step trivial ht

theorem abs_mul_le {step j n : Int} (h0 : 0 ≤ j) (h1 : j < n) :
    -((n - 1) * (step.natAbs : Int)) ≤ step * j ∧ step * j ≤ (n - 1) * (step.natAbs : Int) := by
  have h2 : j ≤ n - 1 := by omega
  have h3 : (step.natAbs : Int) * j ≤ (step.natAbs : Int) * (n - 1) :=
    mul_le_mul_of_nonneg_left h2 (by positivity)
  have h4 : step ≤ (step.natAbs : Int) := by omega
  have h5 : -(step.natAbs : Int) ≤ step := by omega
  have h6 := mul_le_mul_of_nonneg_right h4 h0
  have h7 := mul_le_mul_of_nonneg_right h5 h0
  constructor <;> linarith

/-- For an index inside the range, the value's distance is `step * j` exactly if the value is the
`j`-th one. -/
theorem dist_eq_iff {r : DTR} (hb : r.Built) (hw : r.Whole) (h1 : r.OneTurn) {v : DT} (hv : v.Valid)
    (ht : r.start.sameType v = true) {j : Int} (hj0 : 0 ≤ j) (hj : j < r.length) :
    dist v r.start r.step = r.step * j ↔ v = r.start.plus (r.step * j) := by
  have hbs := hb.1
  cases hs : r.start with
  | date o =>
    have hd := hw _ hs
    rw [hs] at ht
    have hp := plus_num_calendar (.date o) (r.step * j) trivial
      (fun _ _ => Dvd.dvd.mul_right hd _)
    simp only [dist]
    constructor
    · intro h
      apply DT.num_inj
      · cases v <;> simp only [DT.sameType, Bool.false_eq_true] at ht; rfl
      · rw [hp]; omega
    · intro h
      rw [h, hp]; omega
  | datetime u =>
    rw [hs] at ht
    cases v <;> simp only [DT.sameType, Bool.false_eq_true] at ht
    simp only [dist, DT.num, DT.plus, DT.datetime.injEq]
    omega
  | time u =>
    have habs := abs_mul_le (step := r.step) hj0 hj
    rcases h1 with h1 | h1
    · rw [hs] at h1; cases h1
    rw [hs] at ht hbs
    cases v <;> simp only [DT.sameType, Bool.false_eq_true] at ht
    next x =>
    simp only [dist, DT.num, DT.plus, DT.time.injEq]
    have hlt : -DAY < r.step * j ∧ r.step * j < DAY := by constructor <;> linarith [habs.1, habs.2]
    have hsg : (0 < r.step → 0 ≤ r.step * j) ∧ (r.step < 0 → r.step * j ≤ 0) ∧
        (r.step = 0 → r.step * j = 0) := by
      refine ⟨fun h => by positivity, fun h => mul_nonpos_of_nonpos_of_nonneg h.le hj0, ?_⟩
      intro h; rw [h]; simp
    unfold clockDist
    simp only [DT.Valid, DAY] at *
    generalize r.step * j = d at *
    split
    · omega
    · split <;> omega

theorem slice1 (r : DTR) (s e : Option Int) :
    r.indexRange.getSlice ⟨s, e, none⟩ =
      .ok ⟨sliceBound r.length.toNat 0 r.length.toNat 0 s,
           sliceBound r.length.toNat 0 r.length.toNat r.length.toNat e, 1⟩ := by
  unfold PyRange.getSlice PySlice.indices
  rw [DTR.indexRange_len]
  simp only [Option.getD_none, one_ne_zero, if_false, show ¬ ((1 : Int) < 0) by decide,
    Py.ok_bind, DTR.indexRange, mul_one, zero_add]

theorem sliceBound_range {n d : Int} (hn : 0 ≤ n) (hd : 0 ≤ d ∧ d ≤ n) (s : Option Int) :
    0 ≤ sliceBound n 0 n d s ∧ sliceBound n 0 n d s ≤ n := by
  cases s with
  | none => exact hd
  | some i =>
    simp only [sliceBound]
    split <;> split <;> omega

theorem contains_step1 (a b j : Int) : (PyRange.mk a b 1).contains j = true ↔ a ≤ j ∧ j < b := by
  unfold PyRange.contains
  simp

theorem pyListSlice_range_mem {n : Nat} {s e : Option Int} {P : List Nat}
    (h : pyListSlice (List.range n) ⟨s, e, none⟩ = .ok P) (j : Nat) :
    j ∈ P ↔ sliceBound n 0 n 0 s ≤ j ∧ (j : Int) < sliceBound n 0 n n e := by
  unfold pyListSlice PySlice.indices at h
  simp only [List.length_range, Option.getD_none, one_ne_zero, if_false, Py.ok_bind,
    show ¬ ((1 : Int) < 0) by decide] at h
  have ha := sliceBound_range (n := n) (d := 0) (by omega) (by omega) s
  have hb := sliceBound_range (n := n) (d := n) (by omega) (by omega) e
  generalize sliceBound n 0 n 0 s = a at *
  generalize sliceBound n 0 n n e = b at *
  cases h
  simp only [List.mem_filterMap, List.mem_range, mul_one]
  have hl : rangeLen a b 1 = (b - a).toNat := by
    unfold rangeLen; split <;> split <;> omega
  rw [hl]
  constructor
  · rintro ⟨k, hk, hk2⟩
    rw [List.getElem?_eq_some_iff] at hk2
    obtain ⟨hlt, he⟩ := hk2
    simp at he
    omega
  · rintro ⟨h1, h2⟩
    refine ⟨j - a.toNat, by omega, ?_⟩
    have : (a + ((j - a.toNat : Nat) : Int)).toNat = j := by omega
    rw [this, List.getElem?_range (by omega)]

end Fauxdoc
