import Verif.Proofs.DtIso
import Verif.Props.DtText
import Verif.Props.DtRange4
/-
**C98** Texts given to `dtrange` stand for the values they write, and a range can be made again from
its text.
-/
namespace Fauxdoc

theorem not_clockText {u : Nat} {t : List Char} (h : ClockText u t) : '-' ∉ t := by
  have z : ∀ w n, '-' ∉ zpad w n := fun w n => not_zpad rfl
  cases h with
  | hour => exact z _ _
  | _ => simp [z]

theorem dash_dayText (n : Nat) : '-' ∈ dayText n := by
  unfold dayText
  exact List.mem_append_right _ List.mem_cons_self

theorem isoTime_none {s : List Char} (h : '-' ∈ s) : isoTime s = none := by
  cases e : isoTime s with
  | none => rfl
  | some u => exact absurd h (not_clockText (isoTime_iff.1 e))

theorem isoDate_none {n : Nat} (hn : n + 1 ≤ 3652059) (c : Char) (t : List Char) :
    isoDate (dayText n ++ c :: t) = none := by
  cases e : isoDate (dayText n ++ c :: t) with
  | none => rfl
  | some o =>
    obtain ⟨k, -, hk, h⟩ := isoDate_iff.1 e
    have := congrArg List.length h
    rw [List.length_append, dayText_length hn, dayText_length hk, List.length_cons] at this
    omega

theorem max_nat {n : Nat} : (n : Int) + 1 ≤ MAXORD ↔ n + 1 ≤ 3652059 := by
  simp only [MAXORD]; omega

/-- **C98.** A text is taken for a value exactly if it is one of the documented ways to write that
value. -/
theorem C98_reads_iff (s : String) (v : DT) :
    parseUserDate isoReaders (.str s) = .ok v ↔ Written v s.toList := by
  rw [parse_denotes]
  constructor
  · intro h
    cases h with
    | @date o h =>
      obtain ⟨k, hk, rfl⟩ := Option.map_eq_some_iff.1 h
      obtain ⟨n, rfl, hn, hs⟩ := isoDate_iff.1 hk
      rw [hs]
      exact Written.date (max_nat.2 hn)
    | @time u _ h =>
      obtain ⟨k, hk, rfl⟩ := Option.map_eq_some_iff.1 h
      exact Written.time (isoTime_iff.1 hk)
    | @datetime u h1 _ h =>
      obtain ⟨k, hk, rfl⟩ := Option.map_eq_some_iff.1 h
      obtain ⟨n, hn, ⟨hs, -⟩ | ⟨c, t, w, hs, hw, rfl⟩⟩ := isoDatetime_iff.1 hk
      · have : isoDate s.toList = some (n + 1) := isoDate_iff.2 ⟨n, rfl, hn, hs⟩
        simp [isoReaders, this] at h1
      · rw [hs]
        have := Written.datetime c (max_nat.2 hn) hw
        simpa [DAY] using this
  · intro h
    generalize hs : s.toList = cs at h
    cases h with
    | @date n hn =>
      refine .date ?_
      simp only [isoReaders, hs, isoDate_iff.2 ⟨n, rfl, max_nat.1 hn, rfl⟩, Option.map_some]
      rfl
    | @time u t h =>
      have e := isoTime_iff.2 h
      refine .time ?_ (by simp only [isoReaders, hs, e, Option.map_some]; rfl)
      have : isoDate cs = none := by
        cases ed : isoDate cs with
        | none => rfl
        | some o =>
          obtain ⟨n, -, -, rfl⟩ := isoDate_iff.1 ed
          exact absurd (dash_dayText n) (not_clockText h)
      simp only [isoReaders, hs, this, Option.map_none]
    | @datetime n u t c hn h =>
      have hd : '-' ∈ dayText n ++ c :: t := List.mem_append_left _ (dash_dayText n)
      refine .datetime ?_ ?_ ?_
      · simp only [isoReaders, hs, isoDate_none (max_nat.1 hn), Option.map_none]
      · simp only [isoReaders, hs, isoTime_none hd, Option.map_none]
      · simp only [isoReaders, hs, isoDatetime_iff.2 ⟨n, max_nat.1 hn, .inr ⟨c, t, u, rfl, h, rfl⟩⟩,
          Option.map_some, Option.some.injEq, DAY]
        simp

/-- **C98 (unambiguous).** No text is a way to write two values. -/
theorem C98_unambiguous {v w : DT} {s : List Char} (hv : Written v s) (hw : Written w s) : v = w := by
  have a := (C98_reads_iff (String.ofList s) v).2 (by rwa [String.toList_ofList])
  have b := (C98_reads_iff (String.ofList s) w).2 (by rwa [String.toList_ofList])
  rw [a] at b
  cases b
  rfl

/-- **C98 (order).** The order in which the types are tried matters for no text but a date, which could
also be read as a datetime. -/
theorem C98_order (s : String) :
    ((isoReaders.date s).isSome → isoReaders.time s = none) ∧
    ((isoReaders.datetime s).isSome → isoReaders.time s = none) ∧
    ∀ o u, isoReaders.date s = some o → isoReaders.datetime s = some u → u = o * DAY := by
  refine ⟨fun h => ?_, fun h => ?_, fun o u ho hu => ?_⟩
  · obtain ⟨o, ho⟩ := Option.isSome_iff_exists.1 h
    obtain ⟨k, hk, rfl⟩ := Option.map_eq_some_iff.1 ho
    obtain ⟨n, rfl, hn, hs⟩ := isoDate_iff.1 hk
    have := isoTime_none (s := s.toList) (hs ▸ dash_dayText n)
    simp only [isoReaders, this, Option.map_none]
  · obtain ⟨o, ho⟩ := Option.isSome_iff_exists.1 h
    obtain ⟨k, hk, rfl⟩ := Option.map_eq_some_iff.1 ho
    have : '-' ∈ s.toList := by
      obtain ⟨n, hn, ⟨hs, -⟩ | ⟨c, t, w, hs, -⟩⟩ := isoDatetime_iff.1 hk
      · rw [hs]; exact dash_dayText n
      · rw [hs]; exact List.mem_append_left _ (dash_dayText n)
    simp only [isoReaders, isoTime_none this, Option.map_none]
  · obtain ⟨k, hk, rfl⟩ := Option.map_eq_some_iff.1 ho
    obtain ⟨l, hl, rfl⟩ := Option.map_eq_some_iff.1 hu
    obtain ⟨n, rfl, hn, hs⟩ := isoDate_iff.1 hk
    obtain ⟨m, hm, ⟨hs', rfl⟩ | ⟨c, t, w, hs', -⟩⟩ := isoDatetime_iff.1 hl
    · rw [hs] at hs'
      have e := (isoDate_iff (o := m + 1)).2 ⟨m, rfl, hm, hs'⟩
      rw [(isoDate_iff (o := n + 1)).2 ⟨n, rfl, hn, rfl⟩] at e
      cases e
      simp [DAY]
    · rw [hs', isoDate_none hm] at hk
      cases hk

theorem strTime_clock {u : Nat} (h : u < 86400000000) : ClockText u (strTime u) := by
  unfold strTime fraction
  split
  · next hf =>
    refine (ClockText.second (h := u / 3600000000) (m := u / 60000000 % 60) (s := u / 1000000 % 60)
      ?_ ?_ ?_).cast ?_ ?_
    · omega
    · omega
    · omega
    · omega
    · rw [List.append_nil]
  · next hf =>
    refine (ClockText.micro (h := u / 3600000000) (m := u / 60000000 % 60) (s := u / 1000000 % 60)
      (f := u % 1000000) ?_ ?_ ?_ ?_).cast ?_ rfl
    · omega
    · omega
    · omega
    · omega
    · omega

theorem strDate_day (n : Nat) : strDate (n + 1) = dayText n := by
  unfold strDate dayText
  rw [ord2ymd_eq]

theorem datetime_parts {u : Int} (h : (DT.datetime u).Valid) : ∃ n w : Nat, (n : Int) + 1 ≤ MAXORD ∧
    w < 86400000000 ∧ u = (n + 1) * DAY + w ∧ (u / DAY).toNat = n + 1 ∧ (u % DAY).toNat = w := by
  simp only [DT.Valid, DAY, MAXORD] at *
  exact ⟨(u / 86400000000).toNat - 1, (u % 86400000000).toNat, by omega, by omega, by omega, by omega,
    rfl⟩

/-- **C98 (own text).** `str(v)` is a way to write `v`, and so is `v.isoformat()`, which has a `T`
between the date and the time of a datetime. -/
theorem C98_str (v : DT) (hv : v.Valid) : Written v v.str ∧
    ∀ u, v = .datetime u → Written v (strDate (u / DAY).toNat ++ 'T' :: strTime (u % DAY).toNat) := by
  constructor
  · cases v with
    | date o =>
      obtain ⟨n, rfl⟩ : ∃ n : Nat, o = n + 1 := ⟨(o - 1).toNat, by have := hv.1; omega⟩
      have e : (DT.date (n + 1)).str = dayText n := by
        rw [DT.str, ← strDate_day]; congr 1
      rw [e]
      exact Written.date hv.2
    | time u =>
      obtain ⟨n, rfl⟩ : ∃ n : Nat, u = n := ⟨u.toNat, by have := hv.1; omega⟩
      exact Written.time (strTime_clock (by simp only [DT.Valid, DAY] at hv; omega))
    | datetime u =>
      obtain ⟨n, w, hn, hw, rfl, e1, e2⟩ := datetime_parts hv
      rw [DT.str, e1, e2, strDate_day]
      exact Written.datetime ' ' hn (strTime_clock hw)
  · rintro u rfl
    obtain ⟨n, w, hn, hw, rfl, e1, e2⟩ := datetime_parts hv
    rw [e1, e2, strDate_day]
    exact Written.datetime 'T' hn (strTime_clock hw)

/-- **C98 (arguments).** A range asked for with texts is the range asked for with the values they
write; a text that is no way to write a value is refused. -/
theorem C98_arguments (n : Int) (unit : Option String) :
    (∀ s t : String, ∀ v w : DT, Written v s.toList → Written w t.toList →
      dtrange isoReaders (.str s) (.str t) n unit = dtrange isoReaders (.dt v) (.dt w) n unit) ∧
    ∀ s : String, (∀ v, ¬ Written v s.toList) →
      (∀ b, dtrange isoReaders (.str s) b n unit = .error .valueError) ∧
      ∀ v, dtrange isoReaders (.dt v) (.str s) n unit = .error .valueError := by
  refine ⟨fun s t v w hv hw => ?_, fun s h => ?_⟩
  · rw [C67_start_string _ (parse_denotes.1 ((C98_reads_iff s v).2 hv)),
      C67_stop_string _ (parse_denotes.1 ((C98_reads_iff t w).2 hw))]
  · have no : ∀ v, ¬ Denotes isoReaders s v := fun v hv =>
      h v ((C98_reads_iff s v).1 (parse_denotes.2 hv))
    exact ⟨fun b => (C67_refused _ _ b n unit).1 s rfl no,
      fun v => (C67_refused _ (.dt v) _ n unit).2.1 s v rfl rfl no⟩

/-- Three texts `a`, `b`, `c` without quotation marks, set into the text of a range. -/
def ReprOf (t a b c : List Char) : Prop :=
  '"' ∉ a ∧ '"' ∉ b ∧ '"' ∉ c ∧
    t = "DateOrTimeRange(\"".toList ++ a ++ "\", \"".toList ++ b ++ "\", step=\"".toList ++ c ++
      "\")".toList

theorem dtrange_str (v w : DT) (hv : v.Valid) (hw : w.Valid) (ht : v.sameType w = true) {d : Int}
    (hd : tdValid d) :
    dtrange isoReaders (.str (String.ofList v.str)) (.str (String.ofList w.str)) d
      (some "microseconds") = dtrangeTd v w d := by
  have hv' := (C98_reads_iff (String.ofList v.str) v).2 (by rw [String.toList_ofList]; exact (C98_str v hv).1)
  have hw' := (C98_reads_iff (String.ofList w.str) w).2 (by rw [String.toList_ofList]; exact (C98_str w hw).1)
  refine (C67_microseconds _ hv' hw' ht d).1 ?_
  simp only [tdValid, DAY] at *
  omega

theorem reprOf_format (r : DTR) (e : DT) :
    ReprOf (r.format e) r.start.str (r.stopText e) (strTd r.step) :=
  ⟨str_quote _, stopText_quote r e, strTd_quote _, by unfold DTR.format; simp only [List.append_assoc]⟩

/-- **C98 (again).** The text of a range of dates or datetimes, with a step that is not zero and, for
dates, whole days, has `start` and `stop` in it as texts from which `dtrange` makes the range again.
So has the text of a range of times that is not empty and covers less than a day. (Missing: other
ranges of times, for which the code violates the property, see below.) -/
theorem C98_again_partial (r : DTR) (hr : r.Built) (hw : r.Whole) (h0 : r.step ≠ 0)
    (hc : r.start.isCalendar ∨ r.length ≠ 0 ∧ -DAY < r.step * r.length ∧ r.step * r.length < DAY)
    {t : List Char} (h : r.repr = .ok t) :
    ∃ a b c : List Char, ReprOf t a b c ∧ c = strTd r.step ∧
      dtrange isoReaders (.str (String.ofList a)) (.str (String.ofList b)) r.step
        (some "microseconds") = .ok r := by
  obtain ⟨hn, hR, rfl⟩ := repr_ok h
  refine ⟨_, _, _, reprOf_format _ _, rfl, ?_⟩
  obtain ⟨start, n, step⟩ := r
  obtain ⟨hv, htd, hmk⟩ := hr
  dsimp only at h0 hc hn hR hv htd hmk ⊢
  obtain ⟨pv, pt⟩ := plus_valid_of_reachable hR
  cases start with
  | date o =>
    obtain ⟨k, rfl⟩ : DAY ∣ step := hw o rfl
    have e : DAY * k * n / DAY = k * n := by
      rw [mul_assoc]; exact Int.mul_ediv_cancel_left _ (by decide)
    have : (DTR.mk (.date o) n (DAY * k)).stopText ((DT.date o).plus (DAY * k * n)) =
        ((DT.date o).plus (DAY * k * n)).str := rfl
    rw [this, dtrange_str _ _ hv pv pt htd]
    simp only [DT.plus]
    rw [dtrangeTd_date _ _ _ h0 ⟨k, rfl⟩ htd, e,
      show (o + k * n - o) * DAY = DAY * k * n by ring, ceilLen_exact _ _ h0]
  | datetime u =>
    have : (DTR.mk (.datetime u) n step).stopText ((DT.datetime u).plus (step * n)) =
        ((DT.datetime u).plus (step * n)).str := rfl
    rw [this, dtrange_str _ _ hv pv pt htd]
    simp only [DT.plus]
    rw [dtrangeTd_datetime _ _ _ h0, show u + step * n - u = step * n by ring, ceilLen_exact _ _ h0]
  | time u =>
    rcases hc with hc | ⟨hn0, h1, h2⟩
    · exact absurd hc id
    have hne : step * n ≠ 0 := mul_ne_zero h0 hn0
    have : (DTR.mk (.time u) n step).stopText ((DT.time u).plus (step * n)) =
        ((DT.time u).plus (step * n)).str := by
      unfold DTR.stopText
      dsimp only
      rw [fdiv_DAY, if_neg]
      simp only [DAY] at *
      omega
    rw [this, dtrange_str _ _ hv pv pt htd]
    have hs : (step.natAbs : Int) < DAY := by
      unfold DTR.mk' at hmk
      dsimp only at hmk
      split at hmk
      · cases hmk
      · next hh => exact not_le.1 fun h => hh ((totalSeconds_day _).2 h)
    simp only [DT.plus]
    have sign : (0 < step → 0 < step * n) ∧ (step < 0 → step * n < 0) :=
      ⟨fun h => mul_pos h (by omega), fun h => mul_neg_of_neg_of_pos h (by omega)⟩
    have key := ceilLen_exact n step h0
    generalize step * n = x at *
    rw [dtrangeTd_time_ne _ _ _ h0 hs (by simp only [DAY, DT.Valid] at *; omega)]
    have : clockDist u ((u + x) % DAY) step = x := by
      unfold clockDist
      clear pv h
      rcases lt_or_gt_of_ne h0 with hneg | hpos
      · have := sign.2 hneg
        rw [if_neg (by omega)]
        by_cases hb : (u + x) % DAY > u
        · rw [if_pos ⟨hb, hneg⟩]
          simp only [DAY, DT.Valid] at *
          omega
        · rw [if_neg (by omega)]
          simp only [DAY, DT.Valid] at *
          omega
      · have := sign.1 hpos
        by_cases hb : (u + x) % DAY < u
        · rw [if_pos ⟨hb, hpos⟩]
          simp only [DAY, DT.Valid] at *
          omega
        · rw [if_neg (by omega), if_neg (by omega)]
          simp only [DAY, DT.Valid] at *
          omega
    rw [this, key]

/-- **C98 is violated** by ranges of times: an empty one, which comes back as a whole day; one of a
whole day, whose `stop` in the text cannot be read; and one that runs backwards for more than a day. -/
theorem C98_again_violated :
    (∃ r : DTR, r.Built ∧ r.toList = .ok [] ∧
      r.repr = .ok "DateOrTimeRange(\"10:00:00\", \"10:00:00\", step=\"1:00:00\")".toList ∧
      (dtrange isoReaders (.str "10:00:00") (.str "10:00:00") 1 (some "hours")).map DTR.length = .ok 24) ∧
    (∃ r : DTR, r.Built ∧ r.len = .ok 24 ∧
      r.repr = .ok "DateOrTimeRange(\"10:00:00\", \"1 day + 10:00:00\", step=\"1:00:00\")".toList ∧
      dtrange isoReaders (.str "10:00:00") (.str "1 day + 10:00:00") 1 (some "hours") = .error .valueError) ∧
    ∃ r : DTR, r.Built ∧ r.len = .ok 25 ∧
      r.repr = .ok "DateOrTimeRange(\"10:00:00\", \"09:00:00\", step=\"-1 day, 23:00:00\")".toList ∧
      (dtrange isoReaders (.str "10:00:00") (.str "09:00:00") (-1) (some "hours")).map DTR.length = .ok 1 :=
  ⟨⟨⟨.time 36000000000, 0, 3600000000⟩, by unfold DTR.Built; decide +kernel, by decide +kernel,
      by decide +kernel, by decide +kernel⟩,
    ⟨⟨.time 36000000000, 24, 3600000000⟩, by unfold DTR.Built; decide +kernel, by decide +kernel,
      by decide +kernel, by decide +kernel⟩,
    ⟨⟨.time 36000000000, 25, -3600000000⟩, by unfold DTR.Built; decide +kernel, by decide +kernel,
      by decide +kernel, by decide +kernel⟩⟩

/-! Non-vacuity: texts of each kind, some that are refused, and a range that comes back. -/
example : parseUserDate isoReaders (.str "2016-02-29") = .ok (.date 736023) ∧
    parseUserDate isoReaders (.str "09:30") = .ok (.time 34200000000) ∧
    parseUserDate isoReaders (.str "09:30:00.250") = .ok (.time 34200250000) ∧
    parseUserDate isoReaders (.str "2016-02-29T09:30:00") =
      .ok (.datetime (736023 * DAY + 34200000000)) := by decide +kernel
example : parseUserDate isoReaders (.str "2015-02-29") = .error .valueError ∧
    parseUserDate isoReaders (.str "9:30") = .error .valueError ∧
    parseUserDate isoReaders (.str "24:00") = .error .valueError ∧
    parseUserDate isoReaders (.str "2016-2-9") = .error .valueError ∧
    parseUserDate isoReaders (.str "2016-02-29T") = .error .valueError ∧
    parseUserDate isoReaders (.str "09:30:00.25") = .error .valueError := by decide +kernel
example : Written (.time 34200250000) "09:30:00.250".toList :=
  ClockText.milli (h := 9) (m := 30) (s := 0) (f := 250) (by decide) (by decide) (by decide) (by decide)
    |> Written.time
example : (DTR.mk (.date 735964) 3 (2 * DAY)).Built ∧ (DTR.mk (.date 735964) 3 (2 * DAY)).Whole ∧
    (DTR.mk (.date 735964) 3 (2 * DAY)).repr =
      .ok "DateOrTimeRange(\"2016-01-01\", \"2016-01-07\", step=\"2 days, 0:00:00\")".toList ∧
    dtrange isoReaders (.str "2016-01-01") (.str "2016-01-07") 2 = .ok ⟨.date 735964, 3, 2 * DAY⟩ :=
  ⟨by unfold DTR.Built; decide +kernel, fun _ _ => ⟨2, rfl⟩, by decide +kernel, by decide +kernel⟩

end Fauxdoc
