import Verif.Proofs.DtText2
import Verif.Props.DtRange5
/-
**C97** The text of a range (`repr`, `str`) says which range it is.
-/
namespace Fauxdoc

theorem repr_cases (r : DTR) :
    (r.length < 0 → r.repr = .error .valueError) ∧
    (0 ≤ r.length → ¬ Reachable r.start (r.step * r.length) → r.repr = .error .overflow) ∧
    (0 ≤ r.length → Reachable r.start (r.step * r.length) →
      r.repr = .ok (r.format (r.start.plus (r.step * r.length)))) := by
  unfold DTR.repr DTR.stop DTR.len
  refine ⟨fun h => ?_, fun h hr => ?_, fun h hr => ?_⟩
  · rw [if_pos h]; rfl
  · rw [if_neg (by omega), Py.ok_bind, indexToValue_eq, if_neg hr]; rfl
  · rw [if_neg (by omega), Py.ok_bind, indexToValue_eq, if_pos hr]; rfl

theorem repr_ok {r : DTR} {t : List Char} (h : r.repr = .ok t) :
    0 ≤ r.length ∧ Reachable r.start (r.step * r.length) ∧
      t = r.format (r.start.plus (r.step * r.length)) := by
  obtain ⟨h1, h2, h3⟩ := repr_cases r
  by_cases hl : r.length < 0
  · rw [h1 hl] at h; cases h
  by_cases hr : Reachable r.start (r.step * r.length)
  · rw [h3 (by omega) hr] at h
    cases h
    exact ⟨by omega, hr, rfl⟩
  · rw [h2 (by omega) hr] at h; cases h

/-- **C97 (when).** A range has a text exactly if its length is not negative and its `stop` is a date
or time. -/
theorem C97_defined (r : DTR) : (∃ t, r.repr = .ok t) ↔ ∃ e, r.stop = .ok e := by
  unfold DTR.repr
  cases h : r.stop with
  | error e => exact ⟨fun ⟨t, ht⟩ => (by cases ht), fun ⟨t, ht⟩ => (by cases ht)⟩
  | ok v => exact ⟨fun _ => ⟨v, rfl⟩, fun _ => ⟨_, rfl⟩⟩

theorem date_step_large {o n d : Int} (h : DTR.mk' (.date o) n d = .ok ⟨.date o, n, d⟩) (h0 : d ≠ 0) :
    DAY ≤ d ∨ d ≤ -DAY := by
  by_contra hc
  have hk := ok_of_mk' h fun o _ => by simp only [DAY] at hc; omega
  obtain ⟨k, rfl⟩ : ∃ k, d = k * DAY := hk
  simp only [DAY] at hc h0
  omega

theorem ediv_step_inj {d m n : Int} (hd : DAY ≤ d ∨ d ≤ -DAY) (h : d * m / DAY = d * n / DAY) :
    m = n := by
  have a := Int.emod_add_mul_ediv (d * m) DAY
  have b := Int.emod_add_mul_ediv (d * n) DAY
  have a1 := Int.emod_nonneg (d * m) (show DAY ≠ 0 by decide)
  have a2 := Int.emod_lt_of_pos (d * m) (show 0 < DAY by decide)
  have b1 := Int.emod_nonneg (d * n) (show DAY ≠ 0 by decide)
  have b2 := Int.emod_lt_of_pos (d * n) (show 0 < DAY by decide)
  rw [h] at a
  have e : d * (m - n) = d * m % DAY - d * n % DAY := by rw [mul_sub]; omega
  have e1 : d * (m - n) < DAY := by omega
  have e2 : -DAY < d * (m - n) := by omega
  have hD : 0 < DAY := by decide
  rcases lt_trichotomy m n with hlt | heq | hgt
  · rcases hd with hd | hd <;> nlinarith
  · exact heq
  · rcases hd with hd | hd <;> nlinarith

/-- The texts of the stops of two clock ranges. -/
theorem stopText_time {a n n' d : Int} {u u' : Int} (hu : (DT.time u).Valid) (hu' : (DT.time u').Valid) :
    (DTR.mk (.time a) n d).stopText (.time u) = (DTR.mk (.time a) n' d).stopText (.time u') ↔
      u = u' ∧ (0 < d * n / DAY ∨ 0 < d * n' / DAY → d * n / DAY = d * n' / DAY) := by
  have inj : (DT.time u).str = (DT.time u').str ↔ u = u' :=
    ⟨fun h => DT.time.inj (str_inj hu hu' h), fun h => by rw [h]⟩
  have noSpace : ∀ (w : Int) (x y : List Char), (DT.time w).str ≠ x ++ ' ' :: y :=
    fun w x y => time_ne_datetime _ _ _
  unfold DTR.stopText
  dsimp only
  rw [fdiv_DAY, fdiv_DAY]
  generalize d * n / DAY = p
  generalize d * n' / DAY = q
  by_cases hp : 0 < p <;> by_cases hq : 0 < q
  · rw [if_pos hp, if_pos hq]
    constructor
    · intro h
      obtain ⟨h1, h2⟩ := split_first (c := ' ') (not_decInt rfl (by decide))
        (not_decInt rfl (by decide)) h
      have := decInt_inj h1
      subst this
      exact ⟨inj.1 (List.append_cancel_left h2), fun _ => rfl⟩
    · rintro ⟨rfl, h⟩
      rw [h (.inl hp)]
  · rw [if_pos hp, if_neg hq]
    constructor
    · intro h; exact absurd h.symm (noSpace _ _ _)
    · rintro ⟨-, h⟩; have := h (.inl hp); omega
  · rw [if_neg hp, if_pos hq]
    constructor
    · intro h; exact absurd h (noSpace _ _ _)
    · rintro ⟨-, h⟩; have := h (.inr hq); omega
  · rw [if_neg hp, if_neg hq, inj]
    constructor
    · exact fun h => ⟨h, fun h' => by omega⟩
    · exact fun h => h.1

/-- **C97 (exact).** Two ranges have the same text exactly if they have the same start and step and,
in addition, the same length, or a step of zero, or they are clock ranges that run backwards and
whose lengths differ by whole days. -/
theorem C97_same_text_iff (r s : DTR) (hr : r.Built) (hs : s.Built) {t t' : List Char}
    (h : r.repr = .ok t) (h' : s.repr = .ok t') :
    t = t' ↔ r.start = s.start ∧ r.step = s.step ∧ (r.length = s.length ∨ r.step = 0 ∨
      ¬ r.start.isCalendar ∧ r.step < 0 ∧ DAY ∣ r.step * (r.length - s.length)) := by
  obtain ⟨hn, hR, rfl⟩ := repr_ok h
  obtain ⟨hn', hR', rfl⟩ := repr_ok h'
  rw [format_inj hr.1 hs.1]
  refine and_congr_right fun e1 => and_congr_right fun e2 => ?_
  obtain ⟨start, n, step⟩ := r
  obtain ⟨start', n', step'⟩ := s
  dsimp only at e1 e2 hn hn' hR hR' ⊢
  subst e1 e2
  have v1 := (plus_valid_of_reachable hR).1
  have v2 := (plus_valid_of_reachable hR').1
  cases start with
  | date o =>
    have e : (DTR.mk (.date o) n step).stopText ((DT.date o).plus (step * n)) =
        (DTR.mk (.date o) n' step).stopText ((DT.date o).plus (step * n')) ↔
        step * n / DAY = step * n' / DAY := by
      unfold DTR.stopText
      dsimp only
      constructor
      · intro h
        have := str_inj v1 v2 h
        simp only [DT.plus, DT.date.injEq] at this
        omega
      · intro h; simp only [DT.plus, h]
    rw [e]
    constructor
    · intro h
      by_cases h0 : step = 0
      · exact .inr (.inl h0)
      · exact .inl (ediv_step_inj (date_step_large hr.2.2 h0) h)
    · rintro (h | h | ⟨h, -⟩)
      · rw [h]
      · rw [h]; simp
      · exact absurd trivial h
  | datetime u =>
    have e : (DTR.mk (.datetime u) n step).stopText ((DT.datetime u).plus (step * n)) =
        (DTR.mk (.datetime u) n' step).stopText ((DT.datetime u).plus (step * n')) ↔
        step * n = step * n' := by
      unfold DTR.stopText
      dsimp only
      constructor
      · intro h
        have := str_inj v1 v2 h
        simp only [DT.plus, DT.datetime.injEq] at this
        omega
      · intro h; rw [h]
    rw [e]
    constructor
    · intro h
      rcases mul_eq_mul_left_iff.1 h with h | h
      · exact .inl h
      · exact .inr (.inl h)
    · rintro (h | h | ⟨h, -⟩)
      · rw [h]
      · rw [h]; simp
      · exact absurd trivial h
  | time u =>
    simp only [DT.plus] at v1 v2 ⊢
    rw [stopText_time v1 v2]
    have hD : (0 : Int) < DAY := by decide
    rw [mul_sub]
    constructor
    · rintro ⟨h1, h2⟩
      rcases lt_trichotomy step 0 with hneg | h0 | hpos
      · refine .inr (.inr ⟨id, hneg, ?_⟩)
        simp only [DAY] at h1 ⊢
        omega
      · exact .inr (.inl h0)
      · refine .inl ?_
        have p1 : 0 ≤ step * n := mul_nonneg hpos.le hn
        have p2 : 0 ≤ step * n' := mul_nonneg hpos.le hn'
        have : step * n = step * n' := by
          generalize step * n = x at *
          generalize step * n' = y at *
          simp only [DAY] at h1 h2
          omega
        exact mul_left_cancel₀ hpos.ne' this
    · rintro (h | h | ⟨-, hneg, h⟩)
      · rw [h]; exact ⟨rfl, fun _ => rfl⟩
      · rw [h]; simp
      · have p1 : step * n ≤ 0 := mul_nonpos_of_nonpos_of_nonneg hneg.le hn
        have p2 : step * n' ≤ 0 := mul_nonpos_of_nonpos_of_nonneg hneg.le hn'
        generalize step * n = x at *
        generalize step * n' = y at *
        simp only [DAY] at h ⊢
        omega

/-- **C97.** Two ranges with the same text are the same range, for dates and datetimes with a step
that is not zero, and for clock times with a step above zero. (Missing: steps of zero and clock times
that run backwards, for which the code violates the property, see below.) -/
theorem C97_same_text_partial (r s : DTR) (hr : r.Built) (hs : s.Built) {t : List Char}
    (h : r.repr = .ok t) (h' : s.repr = .ok t) (h0 : r.step ≠ 0)
    (hc : r.start.isCalendar ∨ 0 < r.step) : r = s := by
  obtain ⟨h1, h2, h3⟩ := (C97_same_text_iff r s hr hs h h').1 rfl
  have : r.length = s.length := by
    rcases h3 with h3 | h3 | ⟨h3, h4, -⟩
    · exact h3
    · exact absurd h3 h0
    · rcases hc with hc | hc
      · exact absurd hc h3
      · omega
  cases r; cases s; simp_all

/-- **C97 is violated** by a step of zero: three times 2016-01-01 and five times 2016-01-01. -/
theorem C97_zero_step_violated :
    ∃ r s : DTR, r.Built ∧ s.Built ∧ r.repr = s.repr ∧ r.repr.isOk = true ∧
      r.toList = .ok [.date 735964, .date 735964, .date 735964] ∧
      s.toList = .ok (List.replicate 5 (.date 735964)) :=
  ⟨⟨.date 735964, 3, 0⟩, ⟨.date 735964, 5, 0⟩, by unfold DTR.Built; decide +kernel,
    by unfold DTR.Built; decide +kernel, by decide +kernel, by decide +kernel, by decide +kernel,
    by decide +kernel⟩

/-- **C97 is violated** by clock times that run backwards: one step back from 12:00 by 23 hours, and
25 such steps. -/
theorem C97_backwards_violated :
    ∃ r s : DTR, r.Built ∧ s.Built ∧ r.repr = s.repr ∧ r.repr.isOk = true ∧
      r.len = .ok 1 ∧ s.len = .ok 25 ∧ 0 > r.step :=
  ⟨⟨.time 43200000000, 1, -82800000000⟩, ⟨.time 43200000000, 25, -82800000000⟩,
    by unfold DTR.Built; decide +kernel, by unfold DTR.Built; decide +kernel, by decide +kernel,
    by decide +kernel, by decide +kernel, by decide +kernel, by decide⟩

/-- **C97 is violated** at the end of the calendar: a range of one date that has no text. -/
theorem C97_no_text_violated :
    ∃ r : DTR, r.Built ∧ r.toList = .ok [.date MAXORD] ∧ r.repr = .error .overflow :=
  ⟨⟨.date MAXORD, 1, DAY⟩, by unfold DTR.Built; decide +kernel, by decide +kernel, by decide +kernel⟩

/-- **C97 (dates).** The text of a date is the day of the Gregorian calendar, counted from
0001-01-01, with four digits for the year and two for month and day. -/
theorem C97_date (n : Nat) :
    (DT.date (n + 1)).str = zpad 4 (YMD.after n).year ++ "-".toList ++ zpad 2 (YMD.after n).month ++
      "-".toList ++ zpad 2 (YMD.after n).day := by
  rw [← ord2ymd_eq n]
  simp [DT.str, strDate]

/-- **C97 (values).** Date and time values of any type with the same text are the same value, and
timedeltas with the same text are the same. -/
theorem C97_values : (∀ v w : DT, v.Valid → w.Valid → v.str = w.str → v = w) ∧
    ∀ d e : Int, strTd d = strTd e → d = e :=
  ⟨fun _ _ hv hw h => str_inj hv hw h, fun _ _ h => strTd_inj h⟩

/-- The text as a string. -/
def DTR.text (r : DTR) (stop : DT) : String := String.ofList (r.format stop)

/-- **C97 (objects).** After any history of reads and failed assignments the text of the object is the
text of the range it was made as (the cache of dtrange.py 197 and 205). -/
theorem C97_object (s : DT) (n d : Int) (ht : tdValid d) (o : DTObj)
    (hi : DTObj.init (.dt s) (.int n) (.td d) DTObj.blank = (.ok (), o)) (ops : List DTObj.Op) :
    (DTObj.getRepr DTR.text (DTObj.after DTR.text ops o)).1 =
      (DTR.mk s n d).repr.map String.ofList := by
  have ho : o = fresh ⟨s, n, d⟩ := by
    rcases (C74_construction_partial (.dt s) n (.td d) fun us h => by cases h; exact ht).2.2.2
      with h | ⟨v, us, hv, hu, he⟩
    · rw [hi] at h; cases h
    · cases hv; cases hu
      rw [he] at hi; cases hi; rfl
  subst ho
  rw [(getRepr_is (after_is (fresh_is DTR.text _) ops)).1]
  unfold DTR.repr
  cases (DTR.mk s n d).stop <;> rfl

/-! Non-vacuity: the calendar at 28 February 2024 and at the end of 2100 (no leap year), and a range
that `C97_same_text_partial` applies to. -/
example : (YMD.after (738945 - 1), YMD.after 738945) = (⟨2024, 2, 29⟩, ⟨2024, 3, 1⟩) := by
  rw [← ord2ymd_eq, ← ord2ymd_eq]; decide
example : (DTR.mk (.time 0) 1441 60000000).Built ∧ (DTR.mk (.time 0) 1441 60000000).repr =
    .ok "DateOrTimeRange(\"00:00:00\", \"1 day + 00:01:00\", step=\"0:01:00\")".toList :=
  ⟨by unfold DTR.Built; decide +kernel, by decide +kernel⟩

end Fauxdoc
