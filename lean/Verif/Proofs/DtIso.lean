import Verif.Model.DtIso
import Verif.Spec.DtIso
import Verif.Proofs.DtText2
import Mathlib.Data.Nat.Digits.Defs
import Mathlib.Data.List.Induction
/-
`fromisoformat` reads the documented ways of writing.
-/
namespace Fauxdoc

theorem zpad_length {w n : Nat} (hw : 0 < w) (h : n < 10 ^ w) : (zpad w n).length = w := by
  have : (dec n).length ≤ w := Nat.toDigitsCore_length 10 _ n w hw h
  simp only [zpad, List.length_append, List.length_replicate]
  omega

theorem digit_val_inj {c d : Char} (hc : c.isDigit = true) (hd : d.isDigit = true)
    (h : c.toNat - '0'.toNat = d.toNat - '0'.toNat) : c = d := by
  simp only [Char.isDigit, Bool.and_eq_true, decide_eq_true_eq] at hc hd
  have e : c.toNat = d.toNat := by
    have a : 48 ≤ c.toNat := hc.1
    have b : 48 ≤ d.toNat := hd.1
    simp only [show '0'.toNat = 48 from rfl] at h
    omega
  exact Char.ext (UInt32.toNat_inj.1 e)

theorem digit_val_lt {c : Char} (hc : c.isDigit = true) : c.toNat - '0'.toNat < 10 := by
  simp only [Char.isDigit, Bool.and_eq_true, decide_eq_true_eq] at hc
  have a : c.toNat ≤ 57 := hc.2
  simp only [show '0'.toNat = 48 from rfl]
  omega

theorem digits_inj {a b : List Char} (ha : ∀ c ∈ a, c.isDigit = true) (hb : ∀ c ∈ b, c.isDigit = true)
    (hl : a.length = b.length) (h : Nat.ofDigitChars 10 a 0 = Nat.ofDigitChars 10 b 0) : a = b := by
  induction a using List.reverseRecOn generalizing b with
  | nil => exact (List.length_eq_zero_iff.1 hl.symm).symm
  | append_singleton a c ih =>
    rcases List.eq_nil_or_concat b with rfl | ⟨b, d, rfl⟩
    · simp at hl
    · rw [List.concat_eq_append] at *
      rw [Nat.ofDigitChars_append, Nat.ofDigitChars_append] at h
      simp only [Nat.ofDigitChars_cons, Nat.ofDigitChars_nil] at h
      have hc := ha c (by simp)
      have hd := hb d (by simp)
      have c1 := digit_val_lt hc
      have d1 := digit_val_lt hd
      rw [ih (b := b) (fun x hx => ha x (by simp [hx])) (fun x hx => hb x (by simp [hx]))
        (by simpa using hl) (by omega), digit_val_inj hc hd (by omega)]

theorem isoDigits_zpad (w n : Nat) : isoDigits (zpad w n) = some n := by
  unfold isoDigits
  rw [if_pos (List.all_eq_true.2 fun c hc => zpad_digit hc), zpad_value]

theorem ofDigitChars_lt {cs : List Char} (h : ∀ c ∈ cs, c.isDigit = true) :
    Nat.ofDigitChars 10 cs 0 < 10 ^ cs.length := by
  induction cs using List.reverseRecOn with
  | nil => simp
  | append_singleton a c ih =>
    have i := ih fun x hx => h x (by simp [hx])
    have c1 := digit_val_lt (h c (by simp))
    rw [Nat.ofDigitChars_append]
    simp only [Nat.ofDigitChars_cons, Nat.ofDigitChars_nil, List.length_append, List.length_cons,
      List.length_nil, pow_succ]
    omega

/-- Digits are read as the number they write. -/
theorem isoDigits_iff {cs : List Char} {n : Nat} (hw : 0 < cs.length) :
    isoDigits cs = some n ↔ n < 10 ^ cs.length ∧ cs = zpad cs.length n := by
  constructor
  · intro h
    unfold isoDigits at h
    split at h
    · next hd =>
      rw [List.all_eq_true] at hd
      cases h
      have hlt := ofDigitChars_lt hd
      exact ⟨hlt, digits_inj hd (fun c hc => zpad_digit hc) (zpad_length hw hlt).symm
        (zpad_value _ _).symm⟩
    · cases h
  · rintro ⟨-, h2⟩
    rw [h2]
    exact isoDigits_zpad _ _

theorem isLeap_iff (y : Nat) : isLeap y = true ↔ LeapYear y := by
  unfold isLeap LeapYear
  rw [decide_eq_true_iff]
  omega

theorem ymd2ord_eq (d : YMD) : ymd2ord d = d.ord := by
  unfold ymd2ord YMD.ord dby dbm
  simp only [isLeap_iff, Nat.mul_comm]

theorem daysInMonth_eq (y m : Nat) : daysInMonth y m = monthLength y m := by
  rw [monthLength_eq]
  unfold daysInMonth
  simp only [isLeap_iff]
  split
  · next h => rw [h.1]; rfl
  · rfl

theorem ord_year {d : YMD} (h : d.Proper) : d.year ≤ 9999 ↔ d.ord ≤ 3652059 := by
  obtain ⟨a, b⟩ := dayOfYear_le h
  have e : d.ord = dby d.year + (dbm d.year d.month + d.day) := by unfold YMD.ord; omega
  have s := dby_succ d.year h.1
  constructor
  · intro hy
    have m := dby_mono (y := d.year + 1) (z := 10000) (by omega) (by omega)
    rw [show dby 10000 = 3652059 from rfl] at m
    omega
  · intro ho
    by_contra hy
    have m := dby_mono (y := 10000) (z := d.year) (by omega) (by omega)
    rw [show dby 10000 = 3652059 from rfl] at m
    omega

theorem mkDate_iff {y m d o : Nat} :
    mkDate y m d = some o ↔ ∃ n : Nat, o = n + 1 ∧ n + 1 ≤ 3652059 ∧ YMD.after n = ⟨y, m, d⟩ := by
  unfold mkDate
  rw [daysInMonth_eq]
  constructor
  · intro h
    split at h
    · next hc =>
      obtain ⟨h1, h2, h3, h4, h5, h6⟩ := hc
      cases h
      have hp : YMD.Proper ⟨y, m, d⟩ := ⟨h1, h3, h4, h5, h6⟩
      have ho : 1 ≤ YMD.ord ⟨y, m, d⟩ := by unfold YMD.ord; dsimp only; omega
      have hy := (ord_year hp).1 h2
      refine ⟨YMD.ord ⟨y, m, d⟩ - 1, by rw [ymd2ord_eq]; omega, by omega, ?_⟩
      refine YMD.ord_inj (YMD.after_proper _).1 hp ?_
      rw [(YMD.after_proper _).2]; omega
    · cases h
  · rintro ⟨n, rfl, hn, he⟩
    have hp := (YMD.after_proper n).1
    have ho := (YMD.after_proper n).2
    rw [he] at hp ho
    have hy := (ord_year hp).2 (by omega)
    obtain ⟨h1, h3, h4, h5, h6⟩ := hp
    rw [if_pos ⟨h1, hy, h3, h4, h5, h6⟩, ymd2ord_eq, ho]

theorem len2 {l : List Char} (h : l.length = 2) : ∃ a b, l = [a, b] := by
  match l, h with
  | [a, b], _ => exact ⟨a, b, rfl⟩

theorem len4 {l : List Char} (h : l.length = 4) : ∃ a b c d, l = [a, b, c, d] := by
  match l, h with
  | [a, b, c, d], _ => exact ⟨a, b, c, d, rfl⟩

theorem zpad2 {n : Nat} (h : n < 100) : ∃ a b, zpad 2 n = [a, b] := len2 (zpad_length (by decide) h)

theorem isoDigits2 {a b : Char} {n : Nat} : isoDigits [a, b] = some n ↔ n < 100 ∧ [a, b] = zpad 2 n := by
  simpa using isoDigits_iff (cs := [a, b]) (n := n) (by simp)

theorem isoDigits4 {a b c d : Char} {n : Nat} :
    isoDigits [a, b, c, d] = some n ↔ n < 10000 ∧ [a, b, c, d] = zpad 4 n := by
  simpa using isoDigits_iff (cs := [a, b, c, d]) (n := n) (by simp)

/-- `date.fromisoformat` reads exactly the days of the calendar. -/
theorem isoDate_iff {s : List Char} {o : Nat} :
    isoDate s = some o ↔ ∃ n : Nat, o = n + 1 ∧ n + 1 ≤ 3652059 ∧ s = dayText n := by
  constructor
  · intro h
    unfold isoDate at h
    split at h
    · simp only [Option.bind_eq_bind, Option.bind_eq_some_iff] at h
      obtain ⟨y, hy, m, hm, d, hd, h⟩ := h
      obtain ⟨n, rfl, hn, he⟩ := mkDate_iff.1 h
      refine ⟨n, rfl, hn, ?_⟩
      unfold dayText
      rw [he]
      dsimp only
      rw [← (isoDigits4.1 hy).2, ← (isoDigits2.1 hm).2, ← (isoDigits2.1 hd).2]
      rfl
    · cases h
  · rintro ⟨n, rfl, hn, rfl⟩
    have hp := (YMD.after_proper n).1
    have hy := (ord_year hp).2 (by rw [(YMD.after_proper n).2]; omega)
    obtain ⟨h1, h3, h4, h5, h6⟩ := hp
    have h7 : monthLength (YMD.after n).year (YMD.after n).month ≤ 31 := by
      unfold monthLength; split <;> split <;> decide
    have hm : mkDate (YMD.after n).year (YMD.after n).month (YMD.after n).day = some (n + 1) :=
      mkDate_iff.2 ⟨n, rfl, hn, rfl⟩
    unfold dayText
    obtain ⟨a, b, c, d, e4⟩ := len4 (zpad_length (w := 4) (n := (YMD.after n).year) (by decide) (by omega))
    obtain ⟨m1, m2, em⟩ := zpad2 (n := (YMD.after n).month) (by omega)
    obtain ⟨d1, d2, ed⟩ := zpad2 (n := (YMD.after n).day) (by omega)
    have i4 := isoDigits_zpad 4 (YMD.after n).year
    have im := isoDigits_zpad 2 (YMD.after n).month
    have id' := isoDigits_zpad 2 (YMD.after n).day
    rw [e4] at i4 ⊢
    rw [em] at im ⊢
    rw [ed] at id' ⊢
    simp only [List.cons_append, List.nil_append, isoDate, i4, im, id', Option.bind_eq_bind,
      Option.bind_some, hm]

theorem mkTime_iff {h m s f u : Nat} : mkTime h m s f = some u ↔
    h < 24 ∧ m < 60 ∧ s < 60 ∧ u = h * 3600000000 + m * 60000000 + s * 1000000 + f := by
  unfold mkTime
  constructor
  · intro e
    split at e
    · next hc => cases e; exact ⟨hc.1, hc.2.1, hc.2.2, by omega⟩
    · cases e
  · rintro ⟨h1, h2, h3, rfl⟩
    rw [if_pos ⟨h1, h2, h3⟩, Option.some.injEq]
    omega

theorem ClockText.cast {u v : Nat} {t t' : List Char} (h : ClockText u t) (e : u = v) (e' : t = t') :
    ClockText v t' := e ▸ e' ▸ h

/-- `time.fromisoformat` reads exactly the documented ways of writing a time. -/
theorem isoTime_iff {s : List Char} {u : Nat} : isoTime s = some u ↔ ClockText u s := by
  constructor
  · intro h
    unfold isoTime at h
    split at h
    · simp only [Option.bind_eq_bind, Option.bind_eq_some_iff] at h
      obtain ⟨hh, eh, h⟩ := h
      obtain ⟨h1, -, -, rfl⟩ := mkTime_iff.1 h
      rw [(isoDigits2.1 eh).2]
      exact (ClockText.hour h1).cast (by omega) rfl
    · simp only [Option.bind_eq_bind, Option.bind_eq_some_iff] at h
      obtain ⟨hh, eh, m, em, h⟩ := h
      obtain ⟨h1, h2, -, rfl⟩ := mkTime_iff.1 h
      refine (ClockText.minute h1 h2).cast (by omega) ?_
      rw [← (isoDigits2.1 eh).2, ← (isoDigits2.1 em).2]
      rfl
    · simp only [Option.bind_eq_bind, Option.bind_eq_some_iff] at h
      obtain ⟨hh, eh, m, em, s, es, h⟩ := h
      obtain ⟨h1, h2, h3, rfl⟩ := mkTime_iff.1 h
      refine (ClockText.second h1 h2 h3).cast (by omega) ?_
      rw [← (isoDigits2.1 eh).2, ← (isoDigits2.1 em).2, ← (isoDigits2.1 es).2]
      rfl
    · simp only [Option.bind_eq_bind, Option.bind_eq_some_iff] at h
      obtain ⟨hh, eh, m, em, s, es, f, ef, h⟩ := h
      obtain ⟨h1, h2, h3, rfl⟩ := mkTime_iff.1 h
      unfold isoFraction at ef
      split at ef
      · next hl =>
        obtain ⟨g, eg, rfl⟩ := Option.map_eq_some_iff.1 ef
        obtain ⟨g1, g2⟩ := (isoDigits_iff (by omega)).1 eg
        rw [hl] at g1 g2
        refine (ClockText.milli h1 h2 h3 (f := g) (by simpa using g1)).cast (by omega) ?_
        rw [← (isoDigits2.1 eh).2, ← (isoDigits2.1 em).2, ← (isoDigits2.1 es).2, ← g2]
        rfl
      · split at ef
        · next hl =>
          obtain ⟨g1, g2⟩ := (isoDigits_iff (by omega)).1 ef
          rw [hl] at g1 g2
          refine (ClockText.micro h1 h2 h3 (f := f) (by simpa using g1)).cast (by omega) ?_
          rw [← (isoDigits2.1 eh).2, ← (isoDigits2.1 em).2, ← (isoDigits2.1 es).2, ← g2]
          rfl
        · cases ef
    · cases h
  · have two : ∀ n, n < 100 → ∃ a b, zpad 2 n = [a, b] ∧ isoDigits [a, b] = some n := fun n hn => by
      obtain ⟨a, b, e⟩ := zpad2 hn
      exact ⟨a, b, e, e ▸ isoDigits_zpad 2 n⟩
    intro h
    cases h with
    | @hour h h1 =>
      obtain ⟨a, b, e, i⟩ := two h (by omega)
      rw [e]
      simp only [isoTime, i, Option.bind_eq_bind, Option.bind_some]
      exact mkTime_iff.2 ⟨h1, by decide, by decide, by omega⟩
    | @minute h m h1 h2 =>
      obtain ⟨a, b, e, i⟩ := two h (by omega)
      obtain ⟨c, d, e', i'⟩ := two m (by omega)
      rw [e, e']
      simp only [List.cons_append, List.nil_append, isoTime, i, i', Option.bind_eq_bind, Option.bind_some]
      exact mkTime_iff.2 ⟨h1, h2, by decide, by omega⟩
    | @second h m s h1 h2 h3 =>
      obtain ⟨a, b, e, i⟩ := two h (by omega)
      obtain ⟨c, d, e', i'⟩ := two m (by omega)
      obtain ⟨c2, d2, e2, i2⟩ := two s (by omega)
      rw [e, e', e2]
      simp only [List.cons_append, List.nil_append, isoTime, i, i', i2, Option.bind_eq_bind,
        Option.bind_some]
      exact mkTime_iff.2 ⟨h1, h2, h3, by omega⟩
    | @milli h m s f h1 h2 h3 h4 =>
      obtain ⟨a, b, e, i⟩ := two h (by omega)
      obtain ⟨c, d, e', i'⟩ := two m (by omega)
      obtain ⟨c2, d2, e2, i2⟩ := two s (by omega)
      have ef : isoFraction (zpad 3 f) = some (f * 1000) := by
        unfold isoFraction
        rw [if_pos (zpad_length (by decide) h4), isoDigits_zpad]; rfl
      rw [e, e', e2]
      simp only [List.cons_append, List.nil_append, isoTime, i, i', i2, ef, Option.bind_eq_bind,
        Option.bind_some]
      exact mkTime_iff.2 ⟨h1, h2, h3, by omega⟩
    | @micro h m s f h1 h2 h3 h4 =>
      obtain ⟨a, b, e, i⟩ := two h (by omega)
      obtain ⟨c, d, e', i'⟩ := two m (by omega)
      obtain ⟨c2, d2, e2, i2⟩ := two s (by omega)
      have hl : (zpad 6 f).length = 6 := zpad_length (by decide) h4
      have ef : isoFraction (zpad 6 f) = some f := by
        unfold isoFraction
        rw [if_neg (by omega), if_pos hl, isoDigits_zpad]
      rw [e, e', e2]
      simp only [List.cons_append, List.nil_append, isoTime, i, i', i2, ef, Option.bind_eq_bind,
        Option.bind_some]
      exact mkTime_iff.2 ⟨h1, h2, h3, by omega⟩

theorem dayText_length {n : Nat} (hn : n + 1 ≤ 3652059) : (dayText n).length = 10 := by
  have := (isoDate_iff (s := dayText n)).2 ⟨n, rfl, hn, rfl⟩
  unfold isoDate at this
  split at this
  · next h => rw [h]; rfl
  · cases this

/-- `datetime.fromisoformat` reads a date alone, as midnight, or a date, a character and a time. -/
theorem isoDatetime_iff {s : List Char} {u : Nat} : isoDatetime s = some u ↔
    ∃ n : Nat, n + 1 ≤ 3652059 ∧ ((s = dayText n ∧ u = (n + 1) * DAY.toNat) ∨
      ∃ c t v, s = dayText n ++ c :: t ∧ ClockText v t ∧ u = (n + 1) * DAY.toNat + v) := by
  unfold isoDatetime
  simp only [Option.bind_eq_bind, Option.bind_eq_some_iff]
  constructor
  · rintro ⟨o, ho, h⟩
    obtain ⟨n, rfl, hn, hs⟩ := isoDate_iff.1 ho
    have split := List.take_append_drop 10 s
    refine ⟨n, hn, ?_⟩
    cases hd : s.drop 10 with
    | nil =>
      rw [hd] at h split
      rw [List.append_nil, hs] at split
      exact .inl ⟨split.symm, (Option.some.inj h).symm⟩
    | cons c t =>
      rw [hd] at h split
      simp only [Option.bind_eq_some_iff] at h
      obtain ⟨v, hv, h⟩ := h
      exact .inr ⟨c, t, v, by rw [← split, hs], isoTime_iff.1 hv, (Option.some.inj h).symm⟩
  · rintro ⟨n, hn, ⟨rfl, rfl⟩ | ⟨c, t, v, rfl, hv, rfl⟩⟩
    · have hl := dayText_length hn
      refine ⟨n + 1, ?_, ?_⟩
      · rw [List.take_of_length_le (by omega)]; exact isoDate_iff.2 ⟨n, rfl, hn, rfl⟩
      · rw [List.drop_of_length_le (by omega)]
    · have hl := dayText_length hn
      refine ⟨n + 1, ?_, ?_⟩
      · rw [← hl, List.take_left']
        · exact isoDate_iff.2 ⟨n, rfl, hn, rfl⟩
        · rfl
      · rw [← hl, List.drop_left']
        · simp only [isoTime_iff.2 hv, Option.bind_some]
        · rfl

end Fauxdoc
