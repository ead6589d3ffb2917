import Verif.Proofs.DtText
/-
What the texts of dates, times and timedeltas say.
-/
namespace Fauxdoc

/-! ### Numbers -/

theorem dec_value (n : Nat) : Nat.ofDigitChars 10 (dec n) 0 = n := Nat.ofDigitChars_ten_toDigits

theorem zpad_value (w n : Nat) : Nat.ofDigitChars 10 (zpad w n) 0 = n := by
  rw [zpad, Nat.ofDigitChars_append, Nat.ofDigitChars_replicate_zero, Nat.mul_zero, dec_value]

theorem dec_inj {m n : Nat} (h : dec m = dec n) : m = n := by
  rw [← dec_value m, ← dec_value n, h]

theorem zpad_inj {w v m n : Nat} (h : zpad w m = zpad v n) : m = n := by
  rw [← zpad_value w m, ← zpad_value v n, h]

theorem dec_digit {n : Nat} {c : Char} (h : c ∈ dec n) : c.isDigit = true :=
  Nat.isDigit_of_mem_toDigits (by decide) (by decide) h

theorem zpad_digit {w n : Nat} {c : Char} (h : c ∈ zpad w n) : c.isDigit = true := by
  rw [zpad, List.mem_append] at h
  rcases h with h | h
  · rw [(List.mem_replicate.1 h).2]; decide
  · exact dec_digit h

theorem not_dec {n : Nat} {c : Char} (h : c.isDigit = false) : c ∉ dec n := fun h' => by
  rw [dec_digit h'] at h; cases h

theorem not_zpad {w n : Nat} {c : Char} (h : c.isDigit = false) : c ∉ zpad w n := fun h' => by
  rw [zpad_digit h'] at h; cases h

theorem not_decInt {n : Int} {c : Char} (h : c.isDigit = false) (h' : c ≠ '-') : c ∉ decInt n := by
  unfold decInt
  split
  · rw [List.mem_cons, not_or]; exact ⟨h', not_dec h⟩
  · exact not_dec h

theorem decInt_inj {m n : Int} (h : decInt m = decInt n) : m = n := by
  unfold decInt at h
  split at h <;> split at h
  · have := dec_inj (List.cons.inj h).2; omega
  · exact absurd (h ▸ List.mem_cons_self) (not_dec (c := '-') rfl)
  · exact absurd (h ▸ List.mem_cons_self) (not_dec (c := '-') rfl)
  · have := dec_inj h; omega

/-! ### Splitting texts -/

/-- Two texts that are split at the first `c`. -/
theorem split_first {c : Char} {a b x y : List Char} (ha : c ∉ a) (hb : c ∉ b)
    (h : a ++ c :: x = b ++ c :: y) : a = b ∧ x = y := by
  induction a generalizing b with
  | nil =>
    cases b with
    | nil => exact ⟨rfl, (List.cons.inj h).2⟩
    | cons d b =>
      rw [List.nil_append, List.cons_append] at h
      exact absurd ((List.cons.inj h).1 ▸ List.mem_cons_self) hb
  | cons d a ih =>
    cases b with
    | nil =>
      rw [List.nil_append, List.cons_append] at h
      exact absurd ((List.cons.inj h).1 ▸ List.mem_cons_self) ha
    | cons e b =>
      rw [List.cons_append, List.cons_append] at h
      obtain ⟨h1, h2⟩ := List.cons.inj h
      obtain ⟨h3, h4⟩ := ih (fun m => ha (List.mem_cons_of_mem _ m))
        (fun m => hb (List.mem_cons_of_mem _ m)) h2
      exact ⟨by rw [h1, h3], h4⟩

theorem seconds_inj {s f s' f' : Nat} (h : zpad 2 s ++ fraction f = zpad 2 s' ++ fraction f') :
    s = s' ∧ f = f' := by
  unfold fraction at h
  split at h <;> split at h
  · next h1 h2 => rw [List.append_nil, List.append_nil] at h; exact ⟨zpad_inj h, by rw [h1, h2]⟩
  · rw [List.append_nil] at h
    exact absurd (h ▸ List.mem_append_right _ List.mem_cons_self) (not_zpad (c := '.') rfl)
  · rw [List.append_nil] at h
    exact absurd (h ▸ List.mem_append_right _ List.mem_cons_self) (not_zpad (c := '.') rfl)
  · obtain ⟨h1, h2⟩ := split_first (not_zpad rfl) (not_zpad rfl) h
    exact ⟨zpad_inj h1, zpad_inj h2⟩

/-- The text after the hours says minutes, seconds and microseconds. -/
theorem minutes_inj {m s f m' s' f' : Nat}
    (h : zpad 2 m ++ ':' :: (zpad 2 s ++ fraction f) =
      zpad 2 m' ++ ':' :: (zpad 2 s' ++ fraction f')) : m = m' ∧ s = s' ∧ f = f' := by
  obtain ⟨h1, h2⟩ := split_first (not_zpad rfl) (not_zpad rfl) h
  exact ⟨zpad_inj h1, seconds_inj h2⟩

theorem clock_eq {u v : Nat} (h : u / 3600000000 = v / 3600000000)
    (m : u / 60000000 % 60 = v / 60000000 % 60) (s : u / 1000000 % 60 = v / 1000000 % 60)
    (f : u % 1000000 = v % 1000000) : u = v := by omega

theorem strTime_inj {u v : Nat} (h : strTime u = strTime v) : u = v := by
  unfold strTime at h
  obtain ⟨h1, h2⟩ := split_first (not_zpad rfl) (not_zpad rfl) h
  obtain ⟨h3, h4, h5⟩ := minutes_inj h2
  exact clock_eq (zpad_inj h1) h3 h4 h5

theorem strDate_inj {m n : Nat} (hm : 1 ≤ m) (hn : 1 ≤ n) (h : strDate m = strDate n) : m = n := by
  unfold strDate at h
  obtain ⟨h1, h2⟩ := split_first (not_zpad rfl) (not_zpad rfl) h
  obtain ⟨h3, h4⟩ := split_first (not_zpad rfl) (not_zpad rfl) h2
  apply ord2ymd_inj hm hn
  have a := zpad_inj h1
  have b := zpad_inj h3
  have c := zpad_inj h4
  generalize ord2ymd m = x at a b c
  generalize ord2ymd n = y at a b c
  cases x; cases y
  simp_all

/-! ### Which characters are in which text -/

theorem not_fraction {f : Nat} {c : Char} (h : c.isDigit = false) (h' : c ≠ '.') : c ∉ fraction f := by
  unfold fraction
  split
  · exact List.not_mem_nil
  · rw [List.mem_cons, not_or]; exact ⟨h', not_zpad h⟩

theorem not_strTime {u : Nat} {c : Char} (h : c.isDigit = false) (h1 : c ≠ '.') (h2 : c ≠ ':') :
    c ∉ strTime u := by
  unfold strTime
  simp only [List.mem_append, List.mem_cons, not_or]
  exact ⟨not_zpad h, h2, not_zpad h, h2, not_zpad h, not_fraction h h1⟩

theorem not_strDate {n : Nat} {c : Char} (h : c.isDigit = false) (h1 : c ≠ '-') :
    c ∉ strDate n := by
  unfold strDate
  simp only [List.mem_append, List.mem_cons, not_or]
  exact ⟨not_zpad h, h1, not_zpad h, h1, not_zpad h⟩

theorem colon_strTime (u : Nat) : ':' ∈ strTime u := by
  unfold strTime
  exact List.mem_append_right _ List.mem_cons_self

theorem str_quote (v : DT) : '"' ∉ v.str := by
  cases v with
  | date o => exact not_strDate rfl (by decide)
  | time u => exact not_strTime rfl (by decide) (by decide)
  | datetime u =>
    simp only [DT.str, List.mem_append, List.mem_cons, not_or]
    exact ⟨not_strDate rfl (by decide), by decide, not_strTime rfl (by decide) (by decide)⟩

theorem date_ne_time (n u : Nat) : strDate n ≠ strTime u := fun h =>
  not_strDate (n := n) (c := ':') rfl (by decide) (h ▸ colon_strTime u)

theorem date_ne_datetime (n : Nat) (x y : List Char) : strDate n ≠ x ++ ' ' :: y := fun h =>
  not_strDate (n := n) (c := ' ') rfl (by decide)
    (h ▸ List.mem_append_right x List.mem_cons_self)

theorem time_ne_datetime (n : Nat) (x y : List Char) : strTime n ≠ x ++ ' ' :: y := fun h =>
  not_strTime (u := n) (c := ' ') rfl (by decide) (by decide)
    (h ▸ List.mem_append_right x List.mem_cons_self)

/-- The text of a value says its type and the value. -/
theorem str_inj {v w : DT} (hv : v.Valid) (hw : w.Valid) (h : v.str = w.str) : v = w := by
  cases v with
  | date o =>
    cases w with
    | date o' =>
      have := strDate_inj (by have := hv.1; omega) (by have := hw.1; omega) h
      rw [show o = o' by have := hv.1; have := hw.1; omega]
    | time u => exact absurd h (date_ne_time _ _)
    | datetime u => exact absurd h (date_ne_datetime _ _ _)
  | time u =>
    cases w with
    | date o => exact absurd h.symm (date_ne_time _ _)
    | time u' =>
      have := strTime_inj h
      rw [show u = u' by have := hv.1; have := hw.1; omega]
    | datetime u' => exact absurd h (time_ne_datetime _ _ _)
  | datetime u =>
    cases w with
    | date o => exact absurd h.symm (date_ne_datetime _ _ _)
    | time u' => exact absurd h.symm (time_ne_datetime _ _ _)
    | datetime u' =>
      obtain ⟨h1, h2⟩ := split_first (not_strDate rfl (by decide)) (not_strDate rfl (by decide)) h
      simp only [DT.Valid, DAY] at hv hw
      simp only [DAY] at h1 h2
      have a := strDate_inj (by omega) (by omega) h1
      have b := strTime_inj h2
      rw [show u = u' by omega]

theorem clock_space (h m s f : Nat) :
    ' ' ∉ dec h ++ ':' :: (zpad 2 m ++ ':' :: (zpad 2 s ++ fraction f)) := by
  simp only [List.mem_append, List.mem_cons, not_or]
  exact ⟨not_dec rfl, by decide, not_zpad rfl, by decide, not_zpad rfl, not_fraction rfl (by decide)⟩

theorem strTd_clock_inj {u v : Nat}
    (h : dec (u / 3600000000) ++ ':' :: (zpad 2 (u / 60000000 % 60) ++ ':' ::
        (zpad 2 (u / 1000000 % 60) ++ fraction (u % 1000000))) =
      dec (v / 3600000000) ++ ':' :: (zpad 2 (v / 60000000 % 60) ++ ':' ::
        (zpad 2 (v / 1000000 % 60) ++ fraction (v % 1000000)))) : u = v := by
  obtain ⟨h1, h2⟩ := split_first (not_dec rfl) (not_dec rfl) h
  obtain ⟨h3, h4, h5⟩ := minutes_inj h2
  exact clock_eq (dec_inj h1) h3 h4 h5

/-- The text of a timedelta says which one it is. -/
theorem strTd_inj {d e : Int} (h : strTd d = strTd e) : d = e := by
  unfold strTd at h
  dsimp only at h
  have hd : 0 ≤ Int.fmod d DAY := Int.fmod_nonneg_of_pos d (by decide)
  have he : 0 ≤ Int.fmod e DAY := Int.fmod_nonneg_of_pos e (by decide)
  have ed := Int.mul_fdiv_add_fmod d DAY
  have ee := Int.mul_fdiv_add_fmod e DAY
  split at h <;> split at h
  · next h1 h2 =>
    rw [List.nil_append, List.nil_append] at h
    have := strTd_clock_inj h
    rw [h1] at ed
    rw [h2] at ee
    omega
  · simp only [List.nil_append, List.append_assoc, List.cons_append] at h
    exact absurd (h ▸ List.mem_append_right (decInt (Int.fdiv e DAY)) List.mem_cons_self)
      (clock_space _ _ _ _)
  · simp only [List.nil_append, List.append_assoc, List.cons_append] at h
    exact absurd (h.symm ▸ List.mem_append_right (decInt (Int.fdiv d DAY)) List.mem_cons_self)
      (clock_space _ _ _ _)
  · simp only [List.append_assoc, List.cons_append] at h
    obtain ⟨h1, h2⟩ := split_first (not_decInt rfl (by decide)) (not_decInt rfl (by decide)) h
    have days := decInt_inj h1
    rw [days] at h2 ed
    have := strTd_clock_inj (List.append_cancel_left (List.append_cancel_left h2))
    omega

theorem strTd_quote (d : Int) : '"' ∉ strTd d := by
  unfold strTd
  dsimp only
  have clock : ∀ u : Nat, '"' ∉ dec (u / 3600000000) ++ ':' :: (zpad 2 (u / 60000000 % 60) ++ ':' ::
      (zpad 2 (u / 1000000 % 60) ++ fraction (u % 1000000))) := by
    intro u
    simp only [List.mem_append, List.mem_cons, not_or]
    exact ⟨not_dec rfl, by decide, not_zpad rfl, by decide, not_zpad rfl,
      not_fraction rfl (by decide)⟩
  rw [List.mem_append, not_or]
  refine ⟨?_, clock _⟩
  split
  · exact List.not_mem_nil
  · simp only [List.mem_append, List.mem_cons, not_or]
    refine ⟨not_decInt rfl (by decide), by decide, ?_, by decide⟩
    unfold dayWord
    split <;> decide

theorem stopText_quote (r : DTR) (v : DT) : '"' ∉ r.stopText v := by
  unfold DTR.stopText
  split
  · dsimp only
    split
    · simp only [List.mem_append, List.mem_cons, not_or]
      refine ⟨not_decInt rfl (by decide), by decide, ⟨?_, by decide⟩, str_quote v⟩
      split <;> decide
    · exact str_quote v
  · exact str_quote v

/-- The parts of the text of a range. -/
theorem format_inj {r r' : DTR} {v v' : DT} (hs : r.start.Valid) (hs' : r'.start.Valid) :
    r.format v = r'.format v' ↔
      r.start = r'.start ∧ r.step = r'.step ∧ r.stopText v = r'.stopText v' := by
  constructor
  · intro h
    unfold DTR.format at h
    have h1 := List.append_cancel_left h
    simp only [List.append_assoc] at h1
    obtain ⟨a, h2⟩ := split_first (c := '"') (str_quote _) (str_quote _) h1
    have h3 := List.append_cancel_left (as := ", \"".toList) h2
    obtain ⟨b, h4⟩ := split_first (c := '"') (stopText_quote _ _) (stopText_quote _ _) h3
    have h5 := List.append_cancel_left (as := ", step=\"".toList) h4
    obtain ⟨c, -⟩ := split_first (c := '"') (strTd_quote _) (strTd_quote _) h5
    exact ⟨str_inj hs hs' a, strTd_inj c, b⟩
  · rintro ⟨a, b, c⟩
    unfold DTR.format
    rw [a, b, c]

end Fauxdoc
