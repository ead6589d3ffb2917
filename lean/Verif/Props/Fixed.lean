import Verif.Spec.Fixed
import Mathlib.Tactic.Linarith
/-
Properties C25-C28: Static, Iterative and Sequential.
-/
namespace Fauxdoc
variable {α : Type}

/-! ### Static -/

/-- **C25.** In every history a `Static` emits the value last assigned, `em(n)` consists of `n`
copies of it (none for a negative `n`), `items` is the one-element list of it, and calling changes
nothing. -/
theorem C25_static {st : StaticSt α} {v : α} (h : StaticRun st v) (n : Option Int) :
    Static.call n st = (.ok (List.replicate (asked n).toNat v), st) ∧ st.items = [v] ∧
      st.value = v := by
  have hs : st = ⟨v, [v]⟩ := by
    induction h with
    | init v => rfl
    | op st v o _ ih =>
      subst ih
      cases o with
      | call n =>
        cases n with
        | none => rfl
        | some n =>
          change (Static.call (some n) _).2 = _
          unfold Static.call
          by_cases hn : n = 1
          · simp only [hn]; rfl
          · simp only [hn, if_false]; rfl
      | reset => rfl
      | setValue w => rfl
  subst hs
  refine ⟨?_, rfl, rfl⟩
  cases n with
  | none => rfl
  | some n =>
    unfold Static.call asked
    by_cases hn : n = 1
    · subst hn; rfl
    · simp only [hn, if_false]; rfl

/-- **C25 (num_unique_values).** It is 1 for a hashable value and raises `TypeError` for another. -/
theorem C25_num_unique [DecidableEq α] [PyHash α] {st : StaticSt α} {v : α} (h : StaticRun st v) :
    Static.numUniqueValues st = if PyHash.hashable v then .ok 1 else .error .typeError := by
  rw [Static.numUniqueValues, (C25_static h none).2.1]; simp [pyLenSet, allHashable]

example : StaticRun (⟨5, [5]⟩ : StaticSt Nat) 5 :=
  .op _ 7 (.setValue 5) (.op _ 7 (.call (some 3)) (.init 7))
example : Static.call (some 3) (⟨5, [5]⟩ : StaticSt Nat) = (.ok [5, 5, 5], ⟨5, [5]⟩) := by rfl

/-! ### Iterative and Sequential -/

/-- The generator is positioned at value `k` of the endless repetition. -/
def AtPos (st : IterSt α) (src : Src α) (k : Nat) : Prop :=
  src.NonEmpty ∧ st.factory.src = src ∧
    match src with
    | .fin l => (∃ q, q ≤ l.length ∧ st.cur = .fin (l.drop q) ∧ k % l.length = q % l.length)
    | .inf f => (k = 0 ∧ st.cur = .fin []) ∨ st.cur = .inf fun j => f (k + j)

theorem atPos_start {st : IterSt α} {src : Src α} (hne : src.NonEmpty)
    (hf : st.factory.src = src) (hc : st.cur = .fin []) : AtPos st src 0 := by
  refine ⟨hne, hf, ?_⟩
  cases src with
  | fin l => exact ⟨l.length, le_rfl, by simp [hc], by simp⟩
  | inf f => exact Or.inl ⟨rfl, hc⟩

theorem nextItem_atPos {st : IterSt α} {src : Src α} {k : Nat} (h : AtPos st src k) :
    ∃ a r, Iterative.nextItem st = (.ok a, { st with cur := r }) ∧ src.cycle k = some a ∧
      AtPos { st with cur := r } src (k + 1) := by
  obtain ⟨hne, hf, hp⟩ := h
  cases src with
  | fin l =>
    obtain ⟨q, hq, hc, hm⟩ := hp
    have hl : 0 < l.length := List.length_pos_of_ne_nil hne
    rcases Nat.lt_or_ge q l.length with hlt | hge
    · -- inside the current source iterator
      have hd : l.drop q = l[q] :: l.drop (q + 1) := (List.drop_eq_getElem_cons hlt)
      refine ⟨l[q], .fin (l.drop (q + 1)), ?_, ?_, hne, hf, q + 1, hlt, rfl, ?_⟩
      · unfold Iterative.nextItem; rw [hc, hd]; rfl
      · unfold Src.cycle; dsimp only
        rw [hm, Nat.mod_eq_of_lt hlt, List.getElem?_eq_getElem hlt]
      · rw [Nat.add_mod, hm, ← Nat.add_mod]
    · -- at its end: the factory is asked for a new one
      have hql : q = l.length := le_antisymm hq hge
      subst hql
      have hd : l = l[0] :: l.drop 1 := by
        have := List.drop_eq_getElem_cons hl; simpa using this
      have hfn : st.factory.src.next = some (l[0], .fin (l.drop 1)) := by
        rw [hf]; conv_lhs => rw [hd]
        rfl
      refine ⟨l[0], .fin (l.drop 1), ?_, ?_, hne, hf, 1, hl, rfl, ?_⟩
      · unfold Iterative.nextItem; rw [hc, List.drop_length, hfn]; rfl
      · unfold Src.cycle; dsimp only
        rw [hm, Nat.mod_self, List.getElem?_eq_getElem hl]
      · rw [Nat.add_mod, hm, Nat.mod_self, Nat.zero_add, Nat.mod_mod]
  | inf f =>
    rcases hp with ⟨rfl, hc⟩ | hc
    · refine ⟨f 0, .inf fun j => f (j + 1), ?_, rfl, hne, hf, Or.inr ?_⟩
      · unfold Iterative.nextItem; rw [hc]; simp only [Src.next]; rw [hf]
      · change Src.inf _ = Src.inf _
        congr 1; funext j; congr 1; omega
    · refine ⟨f k, .inf fun j => f (k + 1 + j), ?_, rfl, hne, hf, Or.inr rfl⟩
      unfold Iterative.nextItem; rw [hc]; simp only [Src.next, Nat.add_zero]
      congr 4; funext j; congr 1; omega

theorem takeItems_atPos (n : Nat) {st : IterSt α} {src : Src α} {k : Nat} (h : AtPos st src k) :
    ∃ vs r, Iterative.takeItems n st = (.ok vs, { st with cur := r }) ∧ vs.length = n ∧
      IsCyclicFrom src k vs ∧ AtPos { st with cur := r } src (k + n) := by
  induction n generalizing st k with
  | zero => exact ⟨[], st.cur, rfl, rfl, fun i hi => by simp at hi, h⟩
  | succ n ih =>
    obtain ⟨a, r, h1, h2, h3⟩ := nextItem_atPos h
    obtain ⟨vs, r', h4, h5, h6, h7⟩ := ih h3
    refine ⟨a :: vs, r', ?_, by simp [h5], ?_, ?_⟩
    · unfold Iterative.takeItems
      rw [PyM.bind_ok h1, PyM.bind_ok h4]; rfl
    · intro i hi
      cases i with
      | zero => simp [h2]
      | succ i =>
        have := h6 i (by simpa using hi)
        rw [List.getElem?_cons_succ, this]; congr 1; omega
    · rw [show k + (n + 1) = k + 1 + n by omega]; exact h7

/-- What any call does to an emitter at position `k`. -/
theorem call_atPos (n : Option Int) {st : IterSt α} {src : Src α} {k : Nat} (h : AtPos st src k)
    (hn : 0 ≤ asked n) :
    ∃ vs r, Iterative.call n st = (.ok vs, { st with cur := r }) ∧ vs.length = (asked n).toNat ∧
      IsCyclicFrom src k vs ∧
      AtPos { st with cur := r } src (if st.resetAfterCall then 0 else k + vs.length) := by
  have key : ∀ (m : Nat) (f : List α → List α), ∃ vs r,
      (Iterative.takeItems m >>= fun as => Iterative.afterCall >>= fun _ => pure as) st =
        (.ok vs, { st with cur := r }) ∧ vs.length = m ∧ IsCyclicFrom src k vs ∧
      AtPos { st with cur := r } src (if st.resetAfterCall then 0 else k + vs.length) := by
    intro m f
    obtain ⟨vs, r, h1, h2, h3, h4⟩ := takeItems_atPos m h
    by_cases hr : st.resetAfterCall = true
    · refine ⟨vs, .fin [], ?_, h2, h3, ?_⟩
      · rw [PyM.bind_ok h1, PyM.bind_apply]
        have : Iterative.afterCall { st with cur := r } = (.ok (), { st with cur := .fin [] }) := by
          unfold Iterative.afterCall
          rw [PyM.run_get_bind]; simp only [hr]; rfl
        rw [this]; rfl
      · rw [if_pos hr]; exact atPos_start h.1 h.2.1 rfl
    · refine ⟨vs, r, ?_, h2, h3, ?_⟩
      · rw [PyM.bind_ok h1, PyM.bind_apply]
        have : Iterative.afterCall { st with cur := r } = (.ok (), { st with cur := r }) := by
          unfold Iterative.afterCall
          rw [PyM.run_get_bind, if_neg hr]; rfl
        rw [this]; rfl
      · rw [if_neg hr, h2]; exact h4
  have one : ∃ vs r, (Iterative.emit >>= fun a => pure [a]) st = (.ok vs, { st with cur := r }) ∧
      vs.length = 1 ∧ IsCyclicFrom src k vs ∧
      AtPos { st with cur := r } src (if st.resetAfterCall then 0 else k + vs.length) := by
    obtain ⟨vs, r, h1, h2⟩ := key 1 id
    refine ⟨vs, r, ?_, h2⟩
    rw [← h1]
    unfold Iterative.emit Iterative.takeItems Iterative.takeItems
    simp only [bind_assoc, pure_bind]
  cases n with
  | none =>
    obtain ⟨vs, r, h1, h2⟩ := one
    exact ⟨vs, r, h1, by simpa [asked] using h2⟩
  | some n =>
    by_cases h1 : n = 1
    · subst h1
      obtain ⟨vs, r, h1, h2⟩ := one
      exact ⟨vs, r, h1, by simpa [asked] using h2⟩
    · obtain ⟨vs, r, h2, h3⟩ := key n.toNat id
      refine ⟨vs, r, ?_, h3⟩
      unfold Iterative.call Iterative.emitMany
      simp only [h1, if_false, asked] at hn ⊢
      rw [if_neg (by omega)]; exact h2

/-- A negative request is refused without any effect. -/
theorem call_negative (n : Int) (hn : n < 0) (st : IterSt α) :
    Iterative.call (some n) st = (.error .valueError, st) := by
  unfold Iterative.call Iterative.emitMany
  simp only [show n ≠ 1 by omega, if_false]
  rw [if_pos hn]; rfl

theorem nonEmpty_of_check {f : Factory α} (h : Iterative.checkIterFactory f = .ok ()) :
    f.src.NonEmpty := by
  unfold Iterative.checkIterFactory at h
  cases hs : f.src with
  | fin l =>
    cases l with
    | nil => rw [hs] at h; cases h
    | cons a l => exact List.cons_ne_nil a l
  | inf g => trivial

theorem check_eq (f : Factory α) : Iterative.checkIterFactory f = .ok () ∨
    (Iterative.checkIterFactory f = .error .valueError ∧ ¬ f.src.NonEmpty) := by
  unfold Iterative.checkIterFactory
  cases hs : f.src with
  | fin l =>
    cases l with
    | nil => exact Or.inr ⟨rfl, fun h => h rfl⟩
    | cons a l => exact Or.inl rfl
  | inf g => exact Or.inl rfl

theorem setFactory_run (f : Factory α) (st : IterSt α) : Iterative.setFactory f st =
    (if Iterative.checkIterFactory f = .ok () then (.ok (), { st with factory := f, cur := .fin [] })
      else (.error .valueError, st)) := by
  unfold Iterative.setFactory
  rcases check_eq f with h | ⟨h, _⟩
  · rw [if_pos h, PyM.bind_ok (a := ()) (s' := st) (by rw [PyM.lift_apply, h])]; rfl
  · rw [if_neg (by rw [h]; simp), PyM.bind_err (e := .valueError) (s' := st)
      (by rw [PyM.lift_apply, h])]

theorem call_run_atPos {st : IterSt α} {src : Src α} {E : List α} (n : Option Int)
    (h : AtPos st src E.length) :
    AtPos (Iterative.call n st).2
      (iterAfter st.resetAfterCall (.call n) (Iterative.call n st).1 src E).1
      (iterAfter st.resetAfterCall (.call n) (Iterative.call n st).1 src E).2.length := by
  by_cases hn : 0 ≤ asked n
  · obtain ⟨vs, r, h1, h2, h3, h4⟩ := call_atPos n h hn
    rw [h1]
    unfold iterAfter
    simp only
    by_cases hr : st.resetAfterCall = true
    · rw [if_pos hr] at h4 ⊢; exact h4
    · rw [if_neg hr] at h4 ⊢; rw [List.length_append]; exact h4
  · obtain ⟨m, rfl⟩ : ∃ m, n = some m := by
      cases n with
      | none => simp [asked] at hn
      | some m => exact ⟨m, rfl⟩
    rw [call_negative m (by simpa [asked] using hn)]
    exact h

theorem iterRun_atPos {st : IterSt α} {src : Src α} {E : List α} (h : IterRun st src E) :
    AtPos st src E.length := by
  induction h with
  | init f rac st h =>
    unfold Iterative.init at h
    rw [setFactory_run] at h
    by_cases hc : Iterative.checkIterFactory f = .ok ()
    · rw [if_pos hc] at h
      cases h
      exact atPos_start (nonEmpty_of_check hc) rfl rfl
    · rw [if_neg hc] at h; cases h
  | op st src E o _ ih =>
    cases o with
    | call n => exact call_run_atPos n ih
    | reset => exact atPos_start ih.1 ih.2.1 rfl
    | setFactory f =>
      have hrun : (IterOp.setFactory f).runIter st =
          (if Iterative.checkIterFactory f = .ok () then
            (.ok [], { st with factory := f, cur := .fin [] }) else (.error .valueError, st)) := by
        change (Iterative.setFactory f >>= fun _ => pure []) st = _
        rw [PyM.bind_apply, setFactory_run]
        by_cases hc : Iterative.checkIterFactory f = .ok ()
        · rw [if_pos hc, if_pos hc]; rfl
        · rw [if_neg hc, if_neg hc]
      rw [hrun]
      by_cases hc : Iterative.checkIterFactory f = .ok ()
      · rw [if_pos hc]; exact atPos_start (nonEmpty_of_check hc) rfl rfl
      · rw [if_neg hc]; exact ih
    | setResetAfterCall b => exact ih

theorem seqSetFactory_run (f : Factory α) (st : SeqSt α) : Sequential.setFactory f st =
    match Iterative.checkIterFactory f, Sequential.checkSeqIterFactory f, Sequential.listOf f with
    | .error e, _, _ => (.error e, st)
    | .ok _, .error e, _ => (.error e, st)
    | .ok _, .ok _, .error e => (.error e, st)
    | .ok _, .ok _, .ok l => (.ok (), ⟨l, { st.it with factory := f, cur := .fin [] }⟩) := by
  unfold Sequential.setFactory
  rcases hc : Iterative.checkIterFactory f with e | _
  · simp only [PyM.bind_apply, PyM.lift_apply]
  · rcases hd : Sequential.checkSeqIterFactory f with e | _
    · simp only [PyM.bind_apply, PyM.lift_apply]
    · rcases he : Sequential.listOf f with e | l
      · simp only [PyM.bind_apply, PyM.lift_apply]
      · simp only [PyM.bind_apply, PyM.lift_apply]
        rfl

theorem seqRun_atPos {st : SeqSt α} {src : Src α} {E : List α} (h : SeqRun st src E) :
    AtPos st.it src E.length ∧ ∃ l, src = .fin l ∧ st.items = l := by
  induction h with
  | init items rac st h =>
    unfold Sequential.init at h
    by_cases hc : items.isEmpty = true
    · rw [if_pos hc] at h; cases h
    · rw [if_neg hc] at h
      cases h
      exact ⟨atPos_start (by simpa [Src.NonEmpty] using hc) rfl rfl, items, rfl, rfl⟩
  | op st src E o _ ih =>
    cases o with
    | call n =>
      have hcall : (IterOp.call n).runSeq st = ((Iterative.call n st.it).1,
        { st with it := (Iterative.call n st.it).2 }) := rfl
      rw [hcall]
      obtain ⟨h1, l, rfl, h2⟩ := ih
      refine ⟨call_run_atPos n h1, l, ?_, h2⟩
      unfold iterAfter
      rcases (Iterative.call n st.it).1 with e | vs <;> rfl
    | reset => exact ⟨atPos_start ih.1.1 ih.1.2.1 rfl, ih.2⟩
    | setFactory f =>
      have hrun : (IterOp.setFactory f).runSeq st =
          match Iterative.checkIterFactory f, Sequential.checkSeqIterFactory f,
            Sequential.listOf f with
          | .error e, _, _ => (.error e, st)
          | .ok _, .error e, _ => (.error e, st)
          | .ok _, .ok _, .error e => (.error e, st)
          | .ok _, .ok _, .ok l => (.ok [], ⟨l, { st.it with factory := f, cur := .fin [] }⟩) := by
        change (Sequential.setFactory f >>= fun _ => pure []) st = _
        rw [PyM.bind_apply, seqSetFactory_run]
        rcases Iterative.checkIterFactory f with e | _ <;>
          rcases Sequential.checkSeqIterFactory f with e | _ <;>
          rcases Sequential.listOf f with e | l <;> rfl
      rw [hrun]
      rcases hc : Iterative.checkIterFactory f with e | _
      · exact ih
      · rcases hd : Sequential.checkSeqIterFactory f with e | _
        · exact ih
        · rcases he : Sequential.listOf f with e | l
          · exact ih
          · refine ⟨atPos_start (nonEmpty_of_check hc) rfl rfl, l, ?_, rfl⟩
            unfold Sequential.listOf at he
            unfold iterAfter
            simp only
            cases hs : f.src with
            | fin l' => rw [hs] at he; cases he; rfl
            | inf g => rw [hs] at he; cases he
    | setResetAfterCall b => exact ih

/-- **C26 (Iterative).** In every history, a call for `n >= 0` values succeeds and returns the next
`n` values of the endless repetition of the source, continuing after the values emitted since the
last reset. -/
theorem C26_iterative {st : IterSt α} {src : Src α} {E : List α} (h : IterRun st src E)
    (n : Option Int) (hn : 0 ≤ asked n) :
    ∃ vs st', Iterative.call n st = (.ok vs, st') ∧ vs.length = (asked n).toNat ∧
      IsCyclicFrom src E.length vs := by
  obtain ⟨vs, r, h1, h2, h3, _⟩ := call_atPos n (iterRun_atPos h) hn
  exact ⟨vs, _, h1, h2, h3⟩

/-- The same for a `Sequential`, whose source is its `items` at all times. -/
theorem C26_sequential {st : SeqSt α} {src : Src α} {E : List α} (h : SeqRun st src E)
    (n : Option Int) (hn : 0 ≤ asked n) :
    src = .fin st.items ∧
    ∃ vs st', Sequential.call n st = (.ok vs, st') ∧ vs.length = (asked n).toNat ∧
      IsCyclicFrom (.fin st.items) E.length vs := by
  obtain ⟨hp, l, rfl, rfl⟩ := seqRun_atPos h
  obtain ⟨vs, r, h1, h2, h3, _⟩ := call_atPos n hp hn
  refine ⟨rfl, vs, { st with it := { st.it with cur := r } }, ?_, h2, h3⟩
  change ((Iterative.call n st.it).1, { st with it := (Iterative.call n st.it).2 }) = _
  rw [h1]

/-- The concatenation property: everything emitted since the last reset is a prefix of the endless
repetition. -/
theorem iterRun_emitted {st : IterSt α} {src : Src α} {E : List α} (h : IterRun st src E) :
    IsCyclicFrom src 0 E := by
  induction h with
  | init f rac st h => intro i hi; simp at hi
  | op st src E o h ih =>
    have nil : ∀ src' : Src α, IsCyclicFrom src' 0 [] := fun _ i hi => by simp at hi
    cases o with
    | call n =>
      by_cases hn : 0 ≤ asked n
      · obtain ⟨vs, st', h1, h2, h3⟩ := C26_iterative h n hn
        have : (IterOp.call n).runIter st = (.ok vs, st') := h1
        rw [this]
        unfold iterAfter
        simp only
        by_cases hr : st.resetAfterCall = true
        · rw [if_pos hr]; exact nil _
        · rw [if_neg hr]
          intro i hi
          rcases Nat.lt_or_ge i E.length with hlt | hge
          · rw [List.getElem?_append_left hlt]; exact ih i hlt
          · rw [List.getElem?_append_right hge, h3 _ (by simp at hi; omega)]
            congr 1; omega
      · obtain ⟨m, rfl⟩ : ∃ m, n = some m := by
          cases n with
          | none => simp [asked] at hn
          | some m => exact ⟨m, rfl⟩
        have : (IterOp.call (some m)).runIter st = (.error .valueError, st) :=
          call_negative m (by simpa [asked] using hn) st
        rw [this]; exact ih
    | reset => exact nil _
    | setFactory f =>
      unfold iterAfter
      rcases (IterOp.runIter (.setFactory f) st).1 with e | vs
      · exact ih
      · exact nil _
    | setResetAfterCall b => exact ih

/-- **C26 (splitting).** Two histories over the same source that emitted equally many values since
their last reset emitted the same values, however they split them over calls. -/
theorem C26_splitting {st st' : IterSt α} {src : Src α} {E E' : List α} (h : IterRun st src E)
    (h' : IterRun st' src E') (hl : E.length = E'.length) : E = E' := by
  apply List.ext_getElem? ; intro i
  rcases Nat.lt_or_ge i E.length with hi | hi
  · rw [iterRun_emitted h i hi, iterRun_emitted h' i (by omega)]
  · rw [List.getElem?_eq_none hi, List.getElem?_eq_none (by omega)]

/-! ### reset_after_call -/

/-- **C27.** While `reset_after_call` is set, every call starts over: after any successful call, as
after a reset, the next call returns the first `n` values of the endless repetition. -/
theorem C27_reset_after_call {st : IterSt α} {src : Src α} {E : List α} (h : IterRun st src E)
    (hr : st.resetAfterCall = true) (m : Option Int) (hm : 0 ≤ asked m) (n : Option Int)
    (hn : 0 ≤ asked n) :
    ∃ us vs st' st'', Iterative.call m st = (.ok us, st') ∧ Iterative.call n st' = (.ok vs, st'') ∧
      vs.length = (asked n).toNat ∧ IsCyclicFrom src 0 vs := by
  obtain ⟨us, r, h1, h2, h3, h4⟩ := call_atPos m (iterRun_atPos h) hm
  rw [if_pos hr] at h4
  obtain ⟨vs, r', h5, h6, h7, _⟩ := call_atPos n h4 hn
  exact ⟨us, vs, _, _, h1, h5, h6, h7⟩

/-- The same for a `Sequential`. -/
theorem C27_sequential {st : SeqSt α} {src : Src α} {E : List α} (h : SeqRun st src E)
    (hr : st.it.resetAfterCall = true) (m : Option Int) (hm : 0 ≤ asked m) (n : Option Int)
    (hn : 0 ≤ asked n) :
    ∃ us vs st' st'', Sequential.call m st = (.ok us, st') ∧ Sequential.call n st' = (.ok vs, st'') ∧
      vs.length = (asked n).toNat ∧ IsCyclicFrom (.fin st.items) 0 vs := by
  obtain ⟨hp, l, rfl, rfl⟩ := seqRun_atPos h
  obtain ⟨us, r, h1, h2, h3, h4⟩ := call_atPos m hp hm
  rw [if_pos hr] at h4
  obtain ⟨vs, r', h5, h6, h7, _⟩ := call_atPos n h4 hn
  refine ⟨us, vs, { st with it := { st.it with cur := r } },
    { st with it := { st.it with cur := r' } }, ?_, ?_, h6, h7⟩
  · change ((Iterative.call m st.it).1, { st with it := (Iterative.call m st.it).2 }) = _
    rw [h1]
  · change ((Iterative.call n { st.it with cur := r }).1,
      ({ st with it := (Iterative.call n { st.it with cur := r }).2 } : SeqSt α)) = _
    rw [h5]

/-- **C27 (from construction).** An emitter built with `reset_after_call=True` and only called and
reset afterwards returns the first `n` values at every call, and successive calls with the same
number return the same values. -/
theorem C27_always {f : Factory α} {st : IterSt α} (h : Iterative.init f true = .ok st)
    (ops : List (Option (Option Int))) (n : Option Int) (hn : 0 ≤ asked n) :
    ∃ vs st', Iterative.call n
        ((ops.foldl (fun s o => match o with
          | none => (Iterative.reset s).2
          | some m => (Iterative.call m s).2) st)) = (.ok vs, st') ∧
      vs.length = (asked n).toNat ∧ IsCyclicFrom f.src 0 vs := by
  have inv : ∀ (ops : List (Option (Option Int))) (st : IterSt α), AtPos st f.src 0 →
      st.resetAfterCall = true →
      AtPos (ops.foldl (fun s o => match o with
          | none => (Iterative.reset s).2
          | some m => (Iterative.call m s).2) st) f.src 0 := by
    intro ops
    induction ops with
    | nil => intro st hp _; exact hp
    | cons o os ih =>
      intro st hp hr
      cases o with
      | none => exact ih _ (atPos_start hp.1 hp.2.1 rfl) hr
      | some m =>
        by_cases hm : 0 ≤ asked m
        · obtain ⟨us, r, h1, h2, h3, h4⟩ := call_atPos m hp hm
          rw [if_pos hr] at h4
          rw [List.foldl_cons]
          dsimp only
          rw [h1]
          exact ih _ h4 hr
        · obtain ⟨k, rfl⟩ : ∃ k, m = some k := by
            cases m with
            | none => simp [asked] at hm
            | some m => exact ⟨m, rfl⟩
          rw [List.foldl_cons]
          dsimp only
          rw [call_negative k (by simpa [asked] using hm)]
          exact ih _ hp hr
  have hst : AtPos st f.src 0 ∧ st.resetAfterCall = true := by
    refine ⟨iterRun_atPos (.init f true st h), ?_⟩
    unfold Iterative.init at h
    rw [setFactory_run] at h
    by_cases hc : Iterative.checkIterFactory f = .ok ()
    · rw [if_pos hc] at h; cases h; rfl
    · rw [if_neg hc] at h; cases h
  obtain ⟨vs, r, h1, h2, h3, _⟩ := call_atPos n (inv ops st hst.1 hst.2) hn
  exact ⟨vs, _, h1, h2, h3⟩

/-! ### Empty sources -/

/-- **C28 (construction).** An `Iterative` or `Sequential` cannot be built on an empty source. -/
theorem C28_construction (f : Factory α) (rac : Bool) (items : List α) :
    (¬ f.src.NonEmpty → Iterative.init f rac = .error .valueError) ∧
    (f.src.NonEmpty → ∃ st, Iterative.init f rac = .ok st) ∧
    (items = [] → Sequential.init items rac = .error .valueError) ∧
    (items ≠ [] → ∃ st, Sequential.init items rac = .ok st) := by
  refine ⟨fun h => ?_, fun h => ?_, fun h => by subst h; rfl, fun h => ?_⟩
  · unfold Iterative.init
    rw [setFactory_run]
    rcases check_eq f with hc | ⟨hc, _⟩
    · exact absurd (nonEmpty_of_check hc) h
    · rw [if_neg (by rw [hc]; simp)]
  · rcases check_eq f with hc | ⟨_, hx⟩
    · refine ⟨⟨f, rac, .fin []⟩, ?_⟩
      unfold Iterative.init
      rw [setFactory_run, if_pos hc]
    · exact absurd h hx
  · unfold Sequential.init
    rw [if_neg (by simpa using h)]
    exact ⟨_, rfl⟩

/-- **C28 (re-targeting).** Assigning a factory with an empty source is refused with `ValueError`
and the emitter is left exactly as it was; for a `Sequential` the same holds for iterators without
a length. -/
theorem C28_retarget (f : Factory α) (st : IterSt α) (sq : SeqSt α) :
    (¬ f.src.NonEmpty → Iterative.setFactory f st = (.error .valueError, st)) ∧
    (¬ f.src.NonEmpty ∨ f.hasLengthHint = false →
      Sequential.setFactory f sq = (.error .valueError, sq)) := by
  refine ⟨fun h => ?_, fun h => ?_⟩
  · rw [setFactory_run]
    rcases check_eq f with hc | ⟨hc, _⟩
    · exact absurd (nonEmpty_of_check hc) h
    · rw [if_neg (by rw [hc]; simp)]
  · rw [seqSetFactory_run]
    rcases check_eq f with hc | ⟨hc, hx⟩
    · rcases h with h | h
      · exact absurd (nonEmpty_of_check hc) h
      · rw [hc]; unfold Sequential.checkSeqIterFactory; rw [h]; rfl
    · rw [hc]

/-- **C28 (no endless loop).** In no history can a call loop forever: it returns, or raises
`ValueError` (for a negative number). -/
theorem C28_no_loop {st : IterSt α} {src : Src α} {E : List α} (h : IterRun st src E)
    {sq : SeqSt α} {src' : Src α} {E' : List α} (h' : SeqRun sq src' E') (n : Option Int) :
    (Iterative.call n st).1 ≠ .error .diverges ∧ (Sequential.call n sq).1 ≠ .error .diverges := by
  by_cases hn : 0 ≤ asked n
  · obtain ⟨vs, s', h1, _⟩ := C26_iterative h n hn
    obtain ⟨_, vs', s'', h2, _⟩ := C26_sequential h' n hn
    rw [h1, h2]; simp
  · obtain ⟨m, rfl⟩ : ∃ m, n = some m := by
      cases n with
      | none => simp [asked] at hn
      | some m => exact ⟨m, rfl⟩
    have hm : m < 0 := by simpa [asked] using hn
    rw [call_negative m hm]
    change _ ∧ (Iterative.call (some m) sq.it).1 ≠ _
    rw [call_negative m hm]; simp

/-- A concrete history: 8 values of `range(5)`, then 3 more. -/
example : ∃ st : IterSt Nat, IterRun st (.fin [0, 1, 2, 3, 4]) [0, 1, 2, 3, 4, 0, 1, 2] ∧
    (Iterative.call (some 3) st).1 = .ok [3, 4, 0] :=
  ⟨_, .op _ _ _ (.call (some 8)) (.init ⟨.fin [0, 1, 2, 3, 4], true⟩ false _ rfl), rfl⟩

example : ∃ st : SeqSt Nat, SeqRun st (.fin [7, 8]) [7, 8, 7] ∧
    (Sequential.call none st).1 = .ok [8] :=
  ⟨_, .op _ _ _ (.call (some 3)) (.init [7, 8] false _ rfl), rfl⟩

example : (Iterative.call (some 3) ⟨⟨.inf fun k => k * k, false⟩, true, .fin []⟩).1 =
    .ok [0, 1, 4] := by rfl

end Fauxdoc
