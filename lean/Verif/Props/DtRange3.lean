import Verif.Props.DtRange2
/-
Properties C06 and C07: slicing and equality of date/time ranges.
-/
namespace Fauxdoc

/-! ### C06: slicing -/

theorem plus_plus (s : DT) (x y : Int) (hd : ∀ o, s = .date o → DAY ∣ x ∧ DAY ∣ y) :
    (s.plus x).plus y = s.plus (x + y) := by
  cases s with
  | date o =>
    obtain ⟨⟨a, rfl⟩, ⟨b, rfl⟩⟩ := hd o rfl
    have e1 : DAY * a / DAY = a := Int.mul_ediv_cancel_left a (by decide)
    have e2 : DAY * b / DAY = b := Int.mul_ediv_cancel_left b (by decide)
    have e3 : (DAY * a + DAY * b) / DAY = a + b := by
      rw [← mul_add]; exact Int.mul_ediv_cancel_left _ (by decide)
    simp only [DT.plus, e1, e2, e3, Int.add_assoc]
  | time u => simp only [DT.plus, Int.emod_add_emod, Int.add_assoc]
  | datetime u => simp only [DT.plus, Int.add_assoc]

theorem plus_sameType (s : DT) (x : Int) : s.sameType (s.plus x) = true := by cases s <;> rfl

theorem sliceBound_le {n lo hi d : Int} (hlo : lo ≤ hi) (hlo' : lo ≤ 0)
    (hhi : n - 1 ≤ hi) (hd : lo ≤ d ∧ d ≤ hi) (s : Option Int) :
    lo ≤ sliceBound n lo hi d s ∧ sliceBound n lo hi d s ≤ hi := by
  cases s with
  | none => exact hd
  | some i => simp only [sliceBound]; split <;> split <;> omega

/-- Every position visited by a normalised slice is a position of the sequence. -/
theorem indices_bounds {s : PySlice} {n : Nat} {a b c : Int}
    (h : s.indices n = .ok (a, b, c)) : c ≠ 0 ∧ c = s.step.getD 1 ∧
      ∀ k : Nat, k < rangeLen a b c → 0 ≤ a + k * c ∧ a + k * c < n := by
  unfold PySlice.indices at h
  simp only at h
  split at h
  · cases h
  · next hc =>
    split at h
    · next hneg =>
      have hA := sliceBound_le (n := n) (lo := -1) (hi := n - 1) (d := n - 1) (by omega)
        (by omega) (by omega) (by omega) s.start
      have hB := sliceBound_le (n := n) (lo := -1) (hi := n - 1) (d := -1) (by omega)
        (by omega) (by omega) (by omega) s.stop
      generalize s.step.getD 1 = c' at *
      cases h
      generalize sliceBound n (-1) (n - 1) (n - 1) s.start = a at *
      generalize sliceBound n (-1) (n - 1) (-1) s.stop = b at *
      refine ⟨hc, rfl, ?_⟩
      intro k hk
      unfold rangeLen at hk
      rw [if_neg (by omega)] at hk
      split at hk
      · have h1 : (k : Int) ≤ (a - b - 1) / (-c) := by omega
        have h2 : (k : Int) * (-c) ≤ a - b - 1 := by
          have := Int.ediv_mul_le (a - b - 1) (show -c ≠ 0 by omega)
          have h3 : (k : Int) * (-c) ≤ (a - b - 1) / (-c) * (-c) :=
            mul_le_mul_of_nonneg_right h1 (by omega)
          omega
        have h4 : (k : Int) * c ≤ 0 := mul_nonpos_of_nonneg_of_nonpos (by omega) (by omega)
        have h5 : (k : Int) * (-c) = -((k : Int) * c) := by ring
        omega
      · omega
    · next hpos =>
      have hA := sliceBound_le (n := n) (lo := 0) (hi := n) (d := 0) (by omega)
        (by omega) (by omega) (by omega) s.start
      have hB := sliceBound_le (n := n) (lo := 0) (hi := n) (d := n) (by omega)
        (by omega) (by omega) (by omega) s.stop
      generalize s.step.getD 1 = c' at *
      cases h
      generalize sliceBound n 0 n 0 s.start = a at *
      generalize sliceBound n 0 n n s.stop = b at *
      refine ⟨hc, rfl, ?_⟩
      intro k hk
      unfold rangeLen at hk
      rw [if_pos (by omega)] at hk
      split at hk
      · have h1 : (k : Int) ≤ (b - a - 1) / c := by omega
        have h2 : (k : Int) * c ≤ b - a - 1 := by
          have := Int.ediv_mul_le (b - a - 1) (show c ≠ 0 by omega)
          have h3 : (k : Int) * c ≤ (b - a - 1) / c * c :=
            mul_le_mul_of_nonneg_right h1 (by omega)
          omega
        have h4 : 0 ≤ (k : Int) * c := mul_nonneg (by omega) (by omega)
        omega
      · omega

theorem indexRange_slice (r : DTR) (s : PySlice) :
    r.indexRange.getSlice s =
      (s.indices r.length.toNat >>= fun x => .ok ⟨x.1, x.2.1, x.2.2⟩) := by
  unfold PyRange.getSlice
  rw [DTR.indexRange_len]
  cases s.indices r.length.toNat with
  | error e => rfl
  | ok x => simp [DTR.indexRange]

/-- Elements of a list slice when every visited position exists. -/
theorem pyListSlice_map {α : Type} (f : Nat → α) (n : Nat) (s : PySlice) {a b c : Int}
    (h : s.indices n = .ok (a, b, c)) :
    pyListSlice ((List.range n).map f) s =
      .ok ((List.range (rangeLen a b c)).map fun (k : Nat) => f (a + k * c).toNat) := by
  have hb := (indices_bounds h).2.2
  unfold pyListSlice
  rw [List.length_map, List.length_range, h]
  simp only [Py.ok_bind]
  congr 1
  rw [← List.filterMap_eq_map (f := fun (k : Nat) => f (a + k * c).toNat)]
  apply List.filterMap_congr
  intro k hk
  rw [List.mem_range] at hk
  have := hb k hk
  rw [List.getElem?_map, List.getElem?_range (by omega)]
  rfl

theorem reachable_of_two {s : DT} {x y : Int} (hx : Reachable s x) (hxy : Reachable s (x + y))
    (hd : ∀ o, s = .date o → DAY ∣ x ∧ DAY ∣ y)
    (ht : ∀ u, s = .time u → -DAY ≤ y ∧ y ≤ DAY) : Reachable (s.plus x) y := by
  have hv := plus_valid_of_reachable hx
  have hv2 := plus_valid_of_reachable hxy
  cases s with
  | time u => exact time_reachable hv.1 (ht u rfl)
  | date o =>
    have hdd := hd o rfl
    apply reachable_between hv.1 hv2.1 trivial rfl
    · intro _ _; exact hdd.2
    · have := plus_num_calendar (.date o) (x + y) trivial (fun _ _ => Int.dvd_add hdd.1 hdd.2)
      have := plus_num_calendar (.date o) x trivial (fun _ _ => hdd.1)
      omega
  | datetime o =>
    apply reachable_between hv.1 hv2.1 trivial rfl
    · intro _ h; cases h
    · simp only [DT.plus, DT.num]; omega

/-- **C06.**  Slicing a proper range (of at most one turn of the clock) gives, whenever it succeeds,
a range of the same kind whose list is the slice of the original list; the result is again proper
and of at most one turn, so slices can be sliced again. -/
theorem C06_slice (r r' : DTR) (s : PySlice) (hp : r.Proper) (hw : r.Whole) (hl : 0 ≤ r.length)
    (h1 : r.OneTurn) (h : r.getSlice s = .ok r') :
    ∃ L L', r.toList = .ok L ∧ pyListSlice L s = .ok L' ∧ r'.toList = .ok L' ∧
      r.start.sameType r'.start = true ∧ r'.Proper ∧ r'.Whole ∧ r'.OneTurn ∧ 0 ≤ r'.length := by
  unfold DTR.getSlice at h
  rw [indexRange_slice] at h
  cases hi : s.indices r.length.toNat with
  | error e => rw [hi] at h; cases h
  | ok x =>
    obtain ⟨a, b, c⟩ := x
    rw [hi] at h
    simp only [Py.ok_bind, PyRange.len] at h
    obtain ⟨hc0, -, hbd⟩ := indices_bounds hi
    rw [indexToValue_eq] at h
    split at h
    · next hra =>
      simp only [Py.ok_bind, mkTd] at h
      split at h
      · next htd =>
        simp only [Py.ok_bind] at h
        have hva := plus_valid_of_reachable hra
        obtain ⟨hb', hr'⟩ := Built_of_mk' hva.1 htd h
        have hdd : ∀ o, r.start = .date o → DAY ∣ r.step := hw
        have hidx : ∀ k : Nat, k < rangeLen a b c →
            Reachable r.start (r.step * (a + k * c)) := by
          intro k hk
          have := hbd k hk
          have h2 := hp.reachable (a + k * c).toNat (by omega)
          rwa [Int.toNat_of_nonneg this.1] at h2
        have hsplit : ∀ k : Int, r.step * (a + k * c) = r.step * a + r.step * c * k := by
          intro k; ring
        have hturn : ∀ u, r.start = .time u → ∀ k : Nat, k < rangeLen a b c →
            -DAY < r.step * c * k ∧ r.step * c * k < DAY := by
          intro u hu k hk
          have ht : (r.length - 1) * (r.step.natAbs : Int) < DAY := by
            rcases h1 with h1 | h1
            · rw [hu] at h1; cases h1
            · exact h1
          have hb0 := hbd 0 (by omega)
          have hbk := hbd k hk
          simp only [Nat.cast_zero, zero_mul, add_zero] at hb0
          have hassoc : r.step * c * k = r.step * (k * c) := by ring
          rw [hassoc]
          by_cases hs : 0 ≤ (k : Int) * c
          · have := abs_mul_le (step := r.step) (n := r.length) hs (by omega)
            constructor <;> linarith [this.1, this.2]
          · have := abs_mul_le (step := r.step) (j := -((k : Int) * c)) (n := r.length) (by omega)
              (by omega)
            rw [mul_neg] at this
            constructor <;> linarith [this.1, this.2]
        have hreach : ∀ k : Nat, k < rangeLen a b c →
            Reachable (r.start.plus (r.step * a)) (r.step * c * k) := by
          intro k hk
          apply reachable_of_two hra
          · rw [← hsplit]; exact hidx k hk
          · intro o ho
            exact ⟨Dvd.dvd.mul_right (hdd o ho) _, by
              rw [mul_assoc]; exact Dvd.dvd.mul_right (hdd o ho) _⟩
          · intro u hu
            have := hturn u hu k hk
            constructor <;> omega
        have hprop : r'.Proper := by
          refine ⟨hb', ?_⟩
          subst hr'
          intro k hk
          simp only at hk ⊢
          refine ⟨(r.start.plus (r.step * a)).plus (r.step * c * k), ?_⟩
          rw [indexToValue_eq, if_pos (hreach k (by omega))]
        have hlen' : 0 ≤ r'.length := by subst hr'; simp
        refine ⟨r.elems, r'.elems, hp.toList hl, ?_, hprop.toList hlen', ?_, hprop, ?_, ?_, hlen'⟩
        · unfold DTR.elems
          rw [pyListSlice_map _ _ s hi]
          subst hr'
          simp only [Int.toNat_natCast]
          congr 1
          apply List.map_congr_left
          intro k hk
          rw [List.mem_range] at hk
          have hbk := hbd k hk
          rw [Int.toNat_of_nonneg hbk.1, hsplit, plus_plus]
          intro o ho
          exact ⟨Dvd.dvd.mul_right (hdd o ho) _, by
              rw [mul_assoc]; exact Dvd.dvd.mul_right (hdd o ho) _⟩
        · subst hr'; exact hva.2
        · subst hr'
          intro o ho
          have hst := hva.2
          dsimp only at ho
          cases hs : r.start with
          | date o' => exact Dvd.dvd.mul_right (hw o' hs) _
          | time u => rw [hs] at ho; cases ho
          | datetime u => rw [hs] at ho; cases ho
        · subst hr'
          cases hs : r.start with
          | date o => left; trivial
          | datetime o => left; trivial
          | time u =>
            right
            simp only
            by_cases hz : rangeLen a b c = 0
            · rw [hz]
              have hD := DAY_pos
              have : ((r.step * c).natAbs : Int) ≥ 0 := by positivity
              simp only [Nat.cast_zero]
              linarith
            · have := hturn u hs (rangeLen a b c - 1) (by omega)
              have hcast : ((rangeLen a b c - 1 : Nat) : Int) = (rangeLen a b c : Int) - 1 := by
                omega
              rw [hcast] at this
              rcases abs_cases (r.step * c) with ⟨e, _⟩ | ⟨e, _⟩ <;>
                (rw [Int.natCast_natAbs, e]; linarith [this.1, this.2])
      · cases h
    · cases h

/-- **C06 (success, partial).**  Slicing succeeds if the slice is non-empty, the scaled step is
still a timedelta and, for times, still shorter than a day.  Missing: the remaining cases, in which
the code may raise although the list slice exists (`C06_time_step_violated`,
`C06_calendar_edge_violated`). -/
theorem C06_slice_succeeds_partial (r : DTR) (s : PySlice) (hp : r.Proper) (hw : r.Whole) (hl : 0 ≤ r.length)
    (L L' : List DT) (hL : r.toList = .ok L) (hL' : pyListSlice L s = .ok L') (hne : L' ≠ [])
    (htd : tdValid (r.step * s.step.getD 1))
    (htime : ∀ u, r.start = .time u → ((r.step * s.step.getD 1).natAbs : Int) < DAY) :
    ∃ r', r.getSlice s = .ok r' := by
  rw [hp.toList hl] at hL
  cases hL
  cases hi : s.indices r.length.toNat with
  | error e =>
    unfold pyListSlice at hL'
    simp only [DTR.elems, List.length_map, List.length_range] at hL'
    rw [hi] at hL'; cases hL'
  | ok x =>
    obtain ⟨a, b, c⟩ := x
    obtain ⟨hc0, hceq, hbd⟩ := indices_bounds hi
    unfold DTR.elems at hL'
    rw [pyListSlice_map _ _ s hi] at hL'
    have hpos : 0 < rangeLen a b c := by
      rcases Nat.eq_zero_or_pos (rangeLen a b c) with h | h
      · rw [h] at hL'; simp at hL'; exact absurd hL' hne
      · exact h
    have h0 := hbd 0 hpos
    simp only [Nat.cast_zero, zero_mul, add_zero] at h0
    have hra := hp.reachable a.toNat (by omega)
    rw [Int.toNat_of_nonneg h0.1] at hra
    unfold DTR.getSlice
    rw [indexRange_slice, hi]
    simp only [Py.ok_bind, indexToValue_eq, if_pos hra, mkTd]
    rw [← hceq] at htd htime
    rw [if_pos htd]
    simp only [Py.ok_bind]
    cases hs : r.start with
    | date o =>
      exact ⟨_, mk'_date _ _ _ (Dvd.dvd.mul_right (hw _ hs) _) htd⟩
    | time u => exact ⟨_, mk'_time _ _ _ (htime u hs)⟩
    | datetime u => exact ⟨_, rfl⟩

/-- A slice step of zero raises `ValueError`, as for lists. -/
theorem C06_zero_step (r : DTR) (a b : Option Int) (L : List DT) :
    r.getSlice ⟨a, b, some 0⟩ = .error .valueError ∧
      pyListSlice L ⟨a, b, some 0⟩ = .error .valueError := ⟨rfl, rfl⟩

/-- **C06 is violated**: every 24th element of an hourly full-clock range is a one-element list,
but slicing the range raises `ValueError`. -/
theorem C06_time_step_violated :
    ∃ r s L', dtrangeTd (.time 0) (.time 0) 3600000000 = .ok r ∧
      (∃ L, r.toList = .ok L ∧ pyListSlice L s = .ok L' ∧ L' ≠ []) ∧
      r.getSlice s = .error .valueError := by
  refine ⟨⟨.time 0, 24, 3600000000⟩, ⟨none, none, some 24⟩, [.time 0], by decide,
    ⟨(List.range 24).map fun (i : Nat) => .time (3600000000 * (i : Int)), ?_, by decide, by decide⟩,
    by decide⟩
  decide

/-- **C06 is violated**: the empty slice behind the last day of the calendar raises
`OverflowError`. -/
theorem C06_calendar_edge_violated :
    ∃ r s, dtrangeTd (.date (MAXORD - 1)) (.date MAXORD) DAY = .ok r ∧
      (∃ r2, dtrangeTd (.date (MAXORD - 1)) (.date MAXORD) (2 * DAY) = .ok r2 ∧
        r2.toList = .ok [.date (MAXORD - 1)] ∧ pyListSlice [DT.date (MAXORD - 1)] s = .ok [] ∧
        r2.getSlice s = .error .overflow) := by
  refine ⟨⟨.date (MAXORD - 1), 1, DAY⟩, ⟨some 1, none, none⟩, by decide,
    ⟨.date (MAXORD - 1), 1, 2 * DAY⟩, by decide, by decide, by decide, by decide⟩

/-- Non-vacuity of C06: a reversed slice. -/
example : (do (← (DTR.mk (.date 737791) 5 DAY).getSlice ⟨none, some 1, some (-2)⟩).toList) =
    .ok [.date 737795, .date 737793] ∧
    pyListSlice [DT.date 737791, .date 737792, .date 737793, .date 737794, .date 737795]
      ⟨none, some 1, some (-2)⟩ = .ok [.date 737795, .date 737793] := by decide

/-! ### C07: equality and hash -/

theorem eq_cases {r s : DTR} (hr : 0 ≤ r.length) (hs : 0 ≤ s.length) :
    r.eq s = .ok (decide (r.length = s.length ∧ (r.length = 0 ∨
      (r.start = s.start ∧ (r.length = 1 ∨ r.step = s.step))))) := by
  unfold DTR.eq DTR.len DT.eq
  rw [if_neg (by omega), if_neg (by omega)]
  simp only [Py.ok_bind, Py.pure_eq]
  by_cases h1 : r.length = s.length
  · by_cases h2 : s.length = 0
    · simp [h1, h2]
    · by_cases h3 : s.length = 1
      · simp [h1, h3]
      · simp [h1, h2, h3]
  · simp [h1]

/-- **C07 (sound).**  Ranges that compare equal have equal lists and equal hashes. -/
theorem C07_eq_sound (r s : DTR) (hr : r.Proper) (hs : s.Proper) (lr : 0 ≤ r.length)
    (ls : 0 ≤ s.length) (h : r.eq s = .ok true) :
    r.toList = s.toList ∧ r.hashKey = s.hashKey := by
  rw [eq_cases lr ls] at h
  simp only [Except.ok.injEq, decide_eq_true_eq] at h
  obtain ⟨h1, h2⟩ := h
  rw [hr.toList lr, hs.toList ls]
  unfold DTR.elems DTR.hashKey DTR.len
  rw [if_neg (by omega), if_neg (by omega)]
  rcases h2 with h2 | ⟨h2, h3 | h3⟩
  · simp [← h1, h2]
  · have : s.length = 1 := by omega
    simp [h3, this, h2]
  · simp [h1, h2, h3]

/-- **C07 (complete, partial).**  Conversely, calendar ranges with equal lists compare equal, and so
do time ranges whose steps have the same sign.  Missing: time ranges with steps of opposite signs,
for which the code disagrees (`C07_eq_complete_violated`). -/
theorem C07_eq_complete_partial (r s : DTR) (hr : r.Proper) (hs : s.Proper) (hwr : r.Whole)
    (hws : s.Whole) (lr : 0 ≤ r.length)
    (ls : 0 ≤ s.length) (hsign : ∀ u, r.start = .time u → (0 < r.step ↔ 0 < s.step))
    (h : r.toList = s.toList) : r.eq s = .ok true := by
  rw [eq_cases lr ls]
  rw [hr.toList lr, hs.toList ls] at h
  simp only [Except.ok.injEq, decide_eq_true_eq] at h ⊢
  have hlen : r.length = s.length := by
    have := congrArg List.length h
    simp only [DTR.elems, List.length_map, List.length_range] at this
    omega
  refine ⟨hlen, ?_⟩
  have helem : ∀ i : Nat, (i : Int) < r.length →
      r.start.plus (r.step * i) = s.start.plus (s.step * i) := by
    intro i hi
    have := congrArg (fun l => l[i]?) h
    simp only [elems_getElem?] at this
    rw [if_pos hi, if_pos (by omega)] at this
    exact Option.some.inj this
  by_cases h0 : r.length = 0
  · left; exact h0
  · right
    have e0 := helem 0 (by omega)
    simp only [Nat.cast_zero, mul_zero] at e0
    have plus0 : ∀ v : DT, v.Valid → v.plus 0 = v := by
      intro v hv
      cases v with
      | date o => simp [DT.plus]
      | datetime o => simp [DT.plus]
      | time u =>
        simp only [DT.plus, add_zero, DT.time.injEq]
        exact Int.emod_eq_of_lt hv.1 hv.2
    rw [plus0 _ hr.1.1, plus0 _ hs.1.1] at e0
    refine ⟨e0, ?_⟩
    by_cases h1 : r.length = 1
    · left; exact h1
    · right
      have e1 := helem 1 (by omega)
      simp only [Nat.cast_one, mul_one] at e1
      cases hst : r.start with
      | date o =>
        have d1 := hwr _ hst
        have d2 := hws _ (e0 ▸ hst)
        rw [← e0, hst] at e1
        obtain ⟨x, hx⟩ := d1
        obtain ⟨y, hy⟩ := d2
        rw [hx, hy] at e1 ⊢
        simp only [DT.plus, DT.date.injEq] at e1
        rw [Int.mul_ediv_cancel_left x (by decide), Int.mul_ediv_cancel_left y (by decide)] at e1
        have : x = y := by omega
        rw [this]
      | datetime o =>
        rw [← e0, hst] at e1
        simp only [DT.plus, DT.datetime.injEq] at e1
        omega
      | time u =>
        have t1 := hr.1.time_lt hst
        have t2 := hs.1.time_lt (e0 ▸ hst)
        have hsg := hsign u hst
        rw [← e0, hst] at e1
        simp only [DT.plus, DT.time.injEq, DAY] at e1 t1 t2
        omega

/-- **C07 is violated** (converse): the time ranges 00:00, 01:00 with step +1h and with step -23h
list the same values but compare unequal. -/
theorem C07_eq_complete_violated :
    ∃ r s : DTR, r.Proper ∧ s.Proper ∧ r.toList = s.toList ∧
      r.toList = .ok [.time 0, .time 3600000000] ∧ r.eq s = .ok false := by
  have key : ∀ st : Int, (st = 3600000000 ∨ st = -82800000000) →
      (DTR.mk (.time 0) 2 st).Proper := by
    intro st hst
    refine ⟨⟨⟨by decide, by decide⟩, ?_, ?_⟩, ?_⟩
    · rcases hst with rfl | rfl <;> decide
    · rcases hst with rfl | rfl <;> decide
    · intro i hi
      have : i = 0 ∨ i = 1 := by simp only at hi; omega
      rcases hst with rfl | rfl <;> rcases this with rfl | rfl <;> exact ⟨_, rfl⟩
  refine ⟨⟨.time 0, 2, 3600000000⟩, ⟨.time 0, 2, -82800000000⟩, key _ (Or.inl rfl),
    key _ (Or.inr rfl), by decide, by decide, by decide⟩

/-- Equality is an equivalence on ranges of non-negative length. -/
theorem C07_eq_equivalence (r s t : DTR) (lr : 0 ≤ r.length) (ls : 0 ≤ s.length)
    (lt : 0 ≤ t.length) :
    r.eq r = .ok true ∧ r.eq s = s.eq r ∧
      (r.eq s = .ok true → s.eq t = .ok true → r.eq t = .ok true) := by
  rw [eq_cases lr lr, eq_cases lr ls, eq_cases ls lr, eq_cases ls lt, eq_cases lr lt]
  simp only [Except.ok.injEq, decide_eq_true_eq, decide_eq_decide]
  refine ⟨by tauto, ?_, ?_⟩
  · constructor
    · rintro ⟨h1, h2 | ⟨h2, h3 | h3⟩⟩
      · exact ⟨h1.symm, Or.inl (by omega)⟩
      · exact ⟨h1.symm, Or.inr ⟨h2.symm, Or.inl (by omega)⟩⟩
      · exact ⟨h1.symm, Or.inr ⟨h2.symm, Or.inr h3.symm⟩⟩
    · rintro ⟨h1, h2 | ⟨h2, h3 | h3⟩⟩
      · exact ⟨h1.symm, Or.inl (by omega)⟩
      · exact ⟨h1.symm, Or.inr ⟨h2.symm, Or.inl (by omega)⟩⟩
      · exact ⟨h1.symm, Or.inr ⟨h2.symm, Or.inr h3.symm⟩⟩
  · rintro ⟨h1, h2⟩ ⟨h3, h4⟩
    refine ⟨h1.trans h3, ?_⟩
    rcases h2 with h2 | ⟨h2, h5⟩
    · exact Or.inl h2
    · rcases h4 with h4 | ⟨h4, h6⟩
      · left; omega
      · right
        refine ⟨h2.trans h4, ?_⟩
        rcases h5 with h5 | h5
        · exact Or.inl h5
        · rcases h6 with h6 | h6
          · left; omega
          · right; exact h5.trans h6

/-- Non-vacuity of C07: two differently constructed equal ranges (one-element ranges ignore the
step). -/
example : (DTR.mk (.date 5) 1 DAY).eq (DTR.mk (.date 5) 1 (7 * DAY)) = .ok true ∧
    (DTR.mk (.date 5) 2 DAY).eq (DTR.mk (.date 5) 2 (7 * DAY)) = .ok false := by decide

end Fauxdoc
