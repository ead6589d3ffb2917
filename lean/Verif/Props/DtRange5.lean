import Verif.Model.DtRangeObj
import Verif.Props.DtRange2
/-
Properties C73 (a range never changes) and C74 (the constructor of `DateOrTimeRange` checks its
arguments), and `reversed` for C04.
-/
namespace Fauxdoc
open DTObj

/-! ### C74: construction -/

/-- Steps of dates are whole days, steps of times less than a day (dtrange.py 75-80). -/
def StepOk (s : DT) (d : Int) : Prop :=
  match s with
  | .date _ => ∃ k, d = k * DAY
  | .time _ => -DAY < d ∧ d < DAY
  | .datetime _ => True

/-- What the class documents (dtrange.py 68-84) and its setters promise: which arguments are accepted,
and the range they give.  The length may be anything that can be cast to an int. -/
inductive DocumentedArgs : StartArg → LengthArg → StepArg → DTR → Prop
  | int {s : DT} {n d : Int} (h : StepOk s d) :
      DocumentedArgs (.dt s) (.int n) (.td d) ⟨s, n, d⟩
  | castable {s : DT} {n d : Int} (h : StepOk s d) :
      DocumentedArgs (.dt s) (.castable n) (.td d) ⟨s, n, d⟩

theorem mk'_cases (s : DT) (n d : Int) :
    DTR.mk' s n d = .ok ⟨s, n, d⟩ ∨ DTR.mk' s n d = .error .valueError := by
  unfold DTR.mk'
  cases s <;> dsimp only
  · split
    · exact .inr rfl
    · exact .inl rfl
  · split
    · exact .inr rfl
    · exact .inl rfl
  · exact .inl rfl

theorem mk'_of_ok {s : DT} (n : Int) {d : Int} (h : StepOk s d) (ht : tdValid d) :
    DTR.mk' s n d = .ok ⟨s, n, d⟩ := by
  cases s with
  | date o =>
    obtain ⟨k, rfl⟩ := h
    exact mk'_date _ _ _ ⟨k, mul_comm _ _⟩ ht
  | time u => exact mk'_time _ _ _ (by have : -DAY < d ∧ d < DAY := h; omega)
  | datetime u => rfl

theorem ok_of_mk' {s : DT} {n d : Int} (h : DTR.mk' s n d = .ok ⟨s, n, d⟩)
    (hd : ∀ o, s = .date o → d.natAbs < 2 ^ 34 * 1000000) : StepOk s d := by
  cases s with
  | date o =>
    simp only [DTR.mk'] at h
    split at h
    · cases h
    · next h' =>
      obtain ⟨k, hk⟩ := dvd_of_totalSeconds (hd o rfl) (by simpa using h')
      exact ⟨k, by rw [hk, mul_comm]⟩
  | time u =>
    simp only [DTR.mk', totalSeconds_day] at h
    split at h
    · cases h
    · exact (by omega : -DAY < d ∧ d < DAY)
  | datetime u => trivial

/-- The object made from a range. -/
def fresh (r : DTR) : DTObj := ⟨some r.length, some r.start, some r.step, some r.indexRange, none, none⟩

theorem setStep_eq (n : Int) (s : DT) (d : Int) :
    setStep (.td d) ⟨some n, some s, none, none, none, none⟩ =
      match DTR.mk' s n d with
      | .ok _ => (.ok (), ⟨some n, some s, some d, none, none, none⟩)
      | .error e => (.error e, ⟨some n, some s, none, none, none, none⟩) := by
  unfold setStep DTR.mk'
  cases s <;> dsimp only [Option.isSome] <;> rw [if_neg (by decide)]
  · split <;> rfl
  · split <;> rfl

theorem init_int (s : DT) (n d : Int) :
    DTObj.init (.dt s) (.int n) (.td d) blank =
      match DTR.mk' s n d with
      | .ok _ => (.ok (), fresh ⟨s, n, d⟩)
      | .error e => (.error e, ⟨some n, some s, none, none, none, none⟩) := by
  have h1 : setLength (.int n) blank = (.ok (), ⟨some n, none, none, none, none, none⟩) := rfl
  have h2 : setStart (.dt s) ⟨some n, none, none, none, none, none⟩ =
    (.ok (), ⟨some n, some s, none, none, none, none⟩) := rfl
  unfold DTObj.init
  rw [PyM.bind_ok h1, PyM.bind_ok h2]
  have h3 := setStep_eq n s d
  rcases mk'_cases s n d with h | h
  · rw [h] at h3
    rw [PyM.bind_ok h3, h]
    rfl
  · rw [h] at h3
    rw [PyM.bind_err h3, h]

/-- **C74 (part that holds).** With a length that is an int, the constructor succeeds for all the
documented arguments, and the object holds them; for all others it raises `ValueError`, except for
dates with a step of `2^34` seconds (544 years) or more (`C74_rounded_step_violated`).  An exception of
`int(length)` comes through.  The only exception is `ValueError`, and an object that is made holds the
arguments. -/
theorem C74_construction_partial (s : StartArg) (n : Int) (d : StepArg)
    (ht : ∀ us, d = .td us → tdValid us) :
    ((∃ r, DocumentedArgs s (.int n) d r) →
      ∃ r, DocumentedArgs s (.int n) d r ∧ DTObj.init s (.int n) d blank = (.ok (), fresh r)) ∧
    ((¬ ∃ r, DocumentedArgs s (.int n) d r) →
      (∀ o us, s = .dt (.date o) → d = .td us → us.natAbs < 2 ^ 34 * 1000000) →
      (DTObj.init s (.int n) d blank).1 = .error .valueError) ∧
    (∀ e, (DTObj.init s (.raises e) d blank).1 = .error e) ∧
    ((DTObj.init s (.int n) d blank).1 = .error .valueError ∨
      ∃ v us, s = .dt v ∧ d = .td us ∧
        DTObj.init s (.int n) d blank = (.ok (), fresh ⟨v, n, us⟩)) := by
  refine ⟨?_, ?_, ?_, ?_⟩
  · rintro ⟨r, h⟩
    refine ⟨r, h, ?_⟩
    cases h with
    | int h => rw [init_int, mk'_of_ok _ h (ht _ rfl)]
  · intro h hd
    cases s with
    | other => rfl
    | dt v =>
      cases d with
      | other => rfl
      | td us =>
        rw [init_int]
        rcases mk'_cases v n us with h' | h'
        · exact absurd ⟨_, .int (ok_of_mk' h' fun o ho => hd o us (by rw [ho]) rfl)⟩ h
        · rw [h']
  · intro e
    rfl
  · cases s with
    | other => exact .inl rfl
    | dt v =>
      cases d with
      | other => exact .inl rfl
      | td us =>
        rw [init_int]
        rcases mk'_cases v n us with h' | h'
        · rw [h']; exact .inr ⟨v, us, rfl, rfl, rfl⟩
        · rw [h']; exact .inl rfl

/-- **C74 is violated** for long steps of dates: `DateOrTimeRange(date(1, 1, 1), 3,
timedelta(days=200000, microseconds=1))` is not documented and accepted. -/
theorem C74_rounded_step_violated :
    (¬ ∃ r, DocumentedArgs (.dt (.date 1)) (.int 3) (.td (200000 * DAY + 1)) r) ∧
    (DTObj.init (.dt (.date 1)) (.int 3) (.td (200000 * DAY + 1)) blank).1 = .ok () := by
  refine ⟨?_, by decide +kernel⟩
  rintro ⟨r, h⟩
  cases h with
  | int h =>
    obtain ⟨k, hk⟩ := h
    simp only [DAY] at hk
    omega

/-- **C74 is violated.** A length that can be cast to an int but is none (`5.0`, `'5'`) is always
refused, although the setter casts it: no construction with such a length succeeds, and where the
other arguments are right the exception is a `TypeError` of `range`. -/
theorem C74_castable_violated (s : StartArg) (n : Int) (d : StepArg)
    (ht : ∀ us, d = .td us → tdValid us) :
    (DTObj.init s (.castable n) d blank).1 ≠ .ok () ∧
    (∀ r, DocumentedArgs s (.castable n) d r →
      (DTObj.init s (.castable n) d blank).1 = .error .typeError) := by
  have h1 : setLength (.castable n) blank = (.ok (), ⟨some n, none, none, none, none, none⟩) := rfl
  have key : ∀ v us, (DTObj.init (.dt v) (.castable n) (.td us) blank).1 =
      match DTR.mk' v n us with
      | .ok _ => .error .typeError
      | .error e => .error e := by
    intro v us
    have h2 : setStart (.dt v) ⟨some n, none, none, none, none, none⟩ =
      (.ok (), ⟨some n, some v, none, none, none, none⟩) := rfl
    unfold DTObj.init
    rw [PyM.bind_ok h1, PyM.bind_ok h2]
    have h3 := setStep_eq n v us
    rcases mk'_cases v n us with h | h
    · rw [h] at h3
      rw [PyM.bind_ok h3, h]
      rfl
    · rw [h] at h3
      rw [PyM.bind_err h3, h]
  constructor
  · cases s with
    | other => intro h; cases h
    | dt v =>
      cases d with
      | other => intro h; cases h
      | td us =>
        rw [key]
        rcases mk'_cases v n us with h | h <;> rw [h] <;> intro h' <;> cases h'
  · intro r h
    cases h with
    | castable h => rw [key, mk'_of_ok _ h (ht _ rfl)]

/-- `DateOrTimeRange(date(...), 5.0, timedelta(days=1))` is documented and fails. -/
example : DocumentedArgs (.dt (.date 737000)) (.castable 5) (.td DAY) ⟨.date 737000, 5, DAY⟩ :=
  .castable ⟨1, by decide⟩
example : (DTObj.init (.dt (.date 737000)) (.int 5) (.td DAY) blank).1 = .ok () := by decide
example : (DTObj.init (.dt (.date 737000)) (.int 5) (.td 1) blank).1 = .error .valueError := by decide

/-! ### C73: a range never changes -/

/-- The object still is the range `r`: the attributes are those given to the constructor, and what is
cached is what would be computed. -/
structure IsRange (fmt : DTR → DT → String) (r : DTR) (o : DTObj) : Prop where
  length : o.length = some r.length
  start : o.start = some r.start
  step : o.step = some r.step
  index : o.indexRange = some ⟨0, r.length, 1⟩
  stop : ∀ v, o.stop = some v → r.stop = .ok v
  repr : ∀ t, o.repr = some t → ∃ v, r.stop = .ok v ∧ t = fmt r v

theorem IsRange.view {fmt : DTR → DT → String} {r : DTR} {o : DTObj} (h : IsRange fmt r o) :
    o.view = .ok r := by
  unfold DTObj.view
  rw [h.start, h.length, h.step]

theorem getStop_is {fmt : DTR → DT → String} {r : DTR} {o : DTObj} (h : IsRange fmt r o) :
    (getStop o).1 = r.stop ∧ IsRange fmt r (getStop o).2 ∧
      ∀ v, (getStop o).1 = .ok v → (getStop o).2.stop = some v := by
  unfold getStop
  cases hs : o.stop with
  | some v => exact ⟨(h.stop v hs).symm, h, fun w hw => by cases hw; exact hs⟩
  | none =>
    dsimp only
    rw [h.view]
    dsimp only
    cases hr : r.stop with
    | error e => exact ⟨rfl, h, fun w hw => by cases hw⟩
    | ok v =>
      refine ⟨rfl, ⟨h.length, h.start, h.step, h.index, ?_, h.repr⟩, fun w hw => by cases hw; rfl⟩
      intro w hw
      cases hw
      exact hr

theorem getRepr_is {fmt : DTR → DT → String} {r : DTR} {o : DTObj} (h : IsRange fmt r o) :
    (getRepr fmt o).1 = r.stop.map (fmt r) ∧ IsRange fmt r (getRepr fmt o).2 := by
  unfold getRepr
  cases ht : o.repr with
  | some t =>
    obtain ⟨v, hv, rfl⟩ := h.repr t ht
    exact ⟨by rw [hv]; rfl, h⟩
  | none =>
    dsimp only
    obtain ⟨h1, h2, -⟩ := getStop_is h
    rcases hg : getStop o with ⟨e | v, o'⟩
    · rw [hg] at h1 h2
      exact ⟨by rw [← h1]; rfl, h2⟩
    · rw [hg] at h1 h2
      dsimp only at h2 ⊢
      rw [h2.view]
      refine ⟨by rw [← h1]; rfl, h2.length, h2.start, h2.step, h2.index, h2.stop, ?_⟩
      intro t ht
      cases ht
      exact ⟨v, h1.symm, rfl⟩

theorem op_is {fmt : DTR → DT → String} {r : DTR} {o : DTObj} (h : IsRange fmt r o) (op : Op) :
    IsRange fmt r (op.run fmt o).2 := by
  cases op with
  | setLength a => change IsRange fmt r (DTObj.setLength a o).2; unfold DTObj.setLength; rw [h.length]; exact h
  | setStart a => change IsRange fmt r (DTObj.setStart a o).2; unfold DTObj.setStart; rw [h.start]; exact h
  | setStep a => change IsRange fmt r (DTObj.setStep a o).2; unfold DTObj.setStep; rw [h.step]; exact h
  | setStop => exact h
  | getStop =>
    change IsRange fmt r ((DTObj.getStop >>= fun _ => pure ()) o).2
    have h2 := (getStop_is h).2.1
    rcases hg : getStop o with ⟨e | v, o'⟩
    · rw [PyM.bind_err hg]; rw [hg] at h2; exact h2
    · rw [PyM.bind_ok hg]; rw [hg] at h2; exact h2
  | getRepr =>
    change IsRange fmt r ((DTObj.getRepr fmt >>= fun _ => pure ()) o).2
    have h2 := (getRepr_is h).2
    rcases hg : getRepr fmt o with ⟨e | v, o'⟩
    · rw [PyM.bind_err hg]; rw [hg] at h2; exact h2
    · rw [PyM.bind_ok hg]; rw [hg] at h2; exact h2

theorem after_is {fmt : DTR → DT → String} {r : DTR} {o : DTObj} (h : IsRange fmt r o)
    (ops : List Op) : IsRange fmt r (after fmt ops o) := by
  induction ops generalizing o with
  | nil => exact h
  | cons op ops ih => exact ih (op_is h op)

theorem fresh_is (fmt : DTR → DT → String) (r : DTR) : IsRange fmt r (fresh r) :=
  ⟨rfl, rfl, rfl, rfl, (fun _ h => by cases h), (fun _ h => by cases h)⟩

/-- The arguments describe the range. -/
def Describe (s : StartArg) (n : LengthArg) (d : StepArg) (r : DTR) : Prop :=
  s = .dt r.start ∧ n = .int r.length ∧ d = .td r.step

/-- **C73.** Whatever a program does with a range after construction (assigning attributes, whether
the exceptions are caught or not, reading `stop`, `repr`): start, length, step and the index range
stay what they were, hence so does everything computed from them; `stop` and `repr` always give the
value they give on the new range; every assignment raises `AttributeError` and changes nothing. -/
theorem C73_immutable (fmt : DTR → DT → String) (s : StartArg) (n : LengthArg) (d : StepArg)
    (ht : ∀ us, d = .td us → tdValid us) (o : DTObj) (hi : DTObj.init s n d blank = (.ok (), o)) (ops : List Op) :
    ∃ r, Describe s n d r ∧ o.view = .ok r ∧
      (after fmt ops o).view = .ok r ∧
      (after fmt ops o).indexRange = some r.indexRange ∧
      (getStop (after fmt ops o)).1 = (getStop o).1 ∧
      (getStop o).1 = r.stop ∧
      (getRepr fmt (after fmt ops o)).1 = (getRepr fmt o).1 ∧
      (∀ a, setLength a (after fmt ops o) = (.error .attributeError, after fmt ops o)) ∧
      (∀ a, setStart a (after fmt ops o) = (.error .attributeError, after fmt ops o)) ∧
      (∀ a, setStep a (after fmt ops o) = (.error .attributeError, after fmt ops o)) ∧
      setStop (after fmt ops o) = (.error .attributeError, after fmt ops o) := by
  have hr : ∃ r, Describe s n d r ∧ o = fresh r := by
    cases n with
    | int n =>
      rcases (C74_construction_partial s n d ht).2.2.2 with h | ⟨v, us, rfl, rfl, he⟩
      · rw [hi] at h
        cases h
      · rw [he] at hi
        cases hi
        exact ⟨_, ⟨rfl, rfl, rfl⟩, rfl⟩
    | castable n =>
      have := (C74_castable_violated s n d ht).1
      rw [hi] at this
      exact absurd rfl this
    | raises e =>
      have := (C74_construction_partial s 0 d ht).2.2.1 e
      rw [hi] at this
      cases this
  obtain ⟨r, hd, rfl⟩ := hr
  have h0 := fresh_is fmt r
  have h := after_is h0 ops
  refine ⟨r, hd, h0.view, h.view, h.index, ?_, (getStop_is h0).1, ?_, ?_, ?_, ?_, rfl⟩
  · rw [(getStop_is h).1, (getStop_is h0).1]
  · rw [(getRepr_is h).1, (getRepr_is h0).1]
  · intro a; unfold setLength; rw [h.length]; rfl
  · intro a; unfold setStart; rw [h.start]; rfl
  · intro a; unfold setStep; rw [h.step]; rfl

example : ∃ o, DTObj.init (.dt (.date 737000)) (.int 5) (.td DAY) blank = (.ok (), o) ∧
    (getStop (after (fun _ _ => "") [.getStop, .setLength (.int 9), .setStop, .getRepr] o)).1 =
      .ok (.date 737005) := ⟨_, rfl, by decide⟩

/-! ### `reversed` -/

theorem revFrom_eq (r : DTR) (h : r.Proper) (k : Nat) (hk : (k : Int) ≤ r.length) :
    r.revFrom k = .ok (r.elems.take k).reverse := by
  induction k with
  | zero => simp [DTR.revFrom]
  | succ k ih =>
    have hk' : (k : Int) < r.length := by omega
    have hg : r.getItem k = .ok (r.start.plus (r.step * k)) := by
      rw [DTR.getItem_nat, if_pos hk', indexToValue_eq, if_pos (h.reachable k hk')]
    have he : r.elems[k]? = some (r.start.plus (r.step * k)) := by
      rw [elems_getElem?, if_pos hk']
    unfold DTR.revFrom
    rw [hg, ih (by omega)]
    change Except.ok _ = Except.ok _
    rw [List.take_add_one, he]
    simp

/-- **C04 (reversed).** `reversed(r)` gives the values of `list(r)` from the last to the first. -/
theorem C04_reversed (r : DTR) (h : r.Proper) (hl : 0 ≤ r.length) :
    ∃ L, r.toList = .ok L ∧ r.reversed = .ok L.reverse := by
  refine ⟨r.elems, h.toList hl, ?_⟩
  unfold DTR.reversed DTR.len
  rw [if_neg (by omega)]
  change r.revFrom r.length.toNat = _
  rw [revFrom_eq r h _ (by omega), List.take_of_length_le (by simp [DTR.elems])]

example : DTR.reversed ⟨.date 737000, 3, DAY⟩ = .ok [.date 737002, .date 737001, .date 737000] := by
  decide

end Fauxdoc
