import Verif.Spec.LiveSeq
import Verif.Props.Fixed
import Mathlib.Data.List.Rotate
/-
Property C95: a `Sequential` over a list that is changed in place.
-/
namespace Fauxdoc
namespace LiveSeq
open PyM
variable {α : Type}

/-! ### One value, many values -/

/-- The iterator in use runs over the source, and its index is the place. -/
def Inv (s : St α) (p : Nat) : Prop :=
  s.cur = none ∧ p = 0 ∨ s.cur = some (target s s.factory, p)

theorem target_cur (s : St α) (c : Option (Held α × Nat)) (f : Fac) :
    target { s with cur := c } f = target s f := by cases f <;> rfl

theorem source_cur (s : St α) (c : Option (Held α × Nat)) : source { s with cur := c } = source s := by
  unfold source; rw [target_cur]

theorem nextRound_run {s : St α} {a : α} (h : (source s)[0]? = some a) :
    nextRound s = (.ok a, { s with cur := some (target s s.factory, 1) }) := by
  unfold nextRound
  unfold source at h
  cases hl : (target s s.factory).now s.lists with
  | nil => rw [hl] at h; cases h
  | cons b l => rw [hl] at h; cases h; rfl

theorem nextItem_run {s : St α} {p : Nat} (hi : Inv s p) (hne : source s ≠ []) :
    ∃ a, (source s)[startAt p (source s).length]? = some a ∧
      nextItem s = (.ok a, { s with
        cur := some (target s s.factory, startAt p (source s).length + 1) }) := by
  have hl : 0 < (source s).length := List.length_pos_of_ne_nil hne
  have h0 : (source s)[0]? = some (source s)[0] := List.getElem?_eq_getElem hl
  rcases hi with ⟨hc, rfl⟩ | hc
  · have hst : startAt 0 (source s).length = 0 := by unfold startAt; split <;> rfl
    rw [hst]
    refine ⟨_, h0, ?_⟩
    unfold nextItem; rw [hc]
    exact nextRound_run h0
  · by_cases hp : p < (source s).length
    · have hst : startAt p (source s).length = p := if_pos hp
      rw [hst]
      have hv : (source s)[p]? = some (source s)[p] := List.getElem?_eq_getElem hp
      refine ⟨_, hv, ?_⟩
      unfold nextItem; rw [hc]
      change (match (source s)[p]? with
        | some a => _
        | none => _) = _
      rw [hv]
    · have hst : startAt p (source s).length = 0 := if_neg hp
      rw [hst]
      refine ⟨_, h0, ?_⟩
      unfold nextItem; rw [hc]
      change (match (source s)[p]? with
        | some a => _
        | none => _) = _
      rw [List.getElem?_eq_none (by omega)]
      exact nextRound_run h0

theorem startAt_lt {p m : Nat} (hm : 0 < m) : startAt p m < m := by
  unfold startAt; split <;> omega

theorem startAt_succ {q m : Nat} (hq : q < m) : startAt (q + 1) m = (q + 1) % m := by
  unfold startAt
  split
  · rw [Nat.mod_eq_of_lt ‹_›]
  · have : q + 1 = m := by omega
    rw [this, Nat.mod_self]

theorem takeItems_run (n : Nat) {s : St α} {p : Nat} (hi : Inv s p) (hne : source s ≠ []) :
    ∃ vs c, takeItems n s = (.ok vs, { s with cur := c }) ∧ vs.length = n ∧
      IsCyclicFrom (.fin (source s)) (startAt p (source s).length) vs ∧
      Inv { s with cur := c } (placeAfter p (source s).length n) := by
  induction n generalizing s p with
  | zero =>
    refine ⟨[], s.cur, rfl, rfl, fun i h => absurd h (by simp), ?_⟩
    exact hi
  | succ n ih =>
    obtain ⟨a, ha, hn⟩ := nextItem_run hi hne
    have hl : 0 < (source s).length := List.length_pos_of_ne_nil hne
    have hq : startAt p (source s).length < (source s).length := startAt_lt hl
    generalize hqd : startAt p (source s).length = q at *
    have hi' : Inv { s with cur := some (target s s.factory, q + 1) } (q + 1) :=
      Or.inr (by cases hf : s.factory <;> rfl)
    obtain ⟨vs, c, h1, h2, h3, h4⟩ := ih hi' (by rw [source_cur]; exact hne)
    rw [source_cur] at h3 h4
    refine ⟨a :: vs, c, ?_, by simp [h2], ?_, ?_⟩
    · unfold takeItems
      rw [PyM.bind_ok hn, PyM.bind_ok h1]; rfl
    · intro i hlt
      cases i with
      | zero => simp only [List.getElem?_cons_zero, Src.cycle, Nat.add_zero]
                rw [Nat.mod_eq_of_lt hq, ha]
      | succ i =>
        have h := h3 i (by simpa using hlt)
        rw [List.getElem?_cons_succ, h]
        simp only [Src.cycle]
        rw [startAt_succ hq, Nat.mod_add_mod, Nat.add_assoc q 1 i, Nat.add_comm 1 i]
    · have hpl : placeAfter (q + 1) (source s).length n = placeAfter p (source s).length (n + 1) := by
        unfold placeAfter
        rw [startAt_succ hq, hqd, if_neg (by omega : ¬ n + 1 = 0)]
        cases n with
        | zero => simp [Nat.mod_eq_of_lt hq]
        | succ n =>
          rw [if_neg (by omega), Nat.mod_add_mod]
          congr 2; omega
      rw [← hpl]; exact h4

theorem afterCall_run (s : St α) :
    afterCall s = (.ok ⟨⟩, if s.resetAfterCall then { s with cur := none } else s) := by
  unfold afterCall
  rw [run_get_bind]
  split <;> rfl

theorem call_run {s : St α} {p : Nat} (hi : Inv s p) (hne : source s ≠ []) (n : Option Int)
    (hn : 0 ≤ asked n) :
    ∃ vs c, call n s = (.ok vs, { s with cur := c }) ∧ vs.length = (asked n).toNat ∧
      IsCyclicFrom (.fin (source s)) (startAt p (source s).length) vs ∧
      Inv { s with cur := c } (if s.resetAfterCall then 0
        else placeAfter p (source s).length vs.length) := by
  have one : ∃ vs c, (do return [← emit] : PyM (St α) (List α)) s = (.ok vs, { s with cur := c }) ∧
      vs.length = 1 ∧ IsCyclicFrom (.fin (source s)) (startAt p (source s).length) vs ∧
      Inv { s with cur := c } (if s.resetAfterCall then 0
        else placeAfter p (source s).length vs.length) := by
    obtain ⟨vs, c, h1, h2, h3, h4⟩ := takeItems_run 1 hi hne
    obtain ⟨a, ha, hnx⟩ := nextItem_run hi hne
    have h1' : takeItems 1 s = (.ok [a], { s with
        cur := some (target s s.factory, startAt p (source s).length + 1) }) := by
      unfold takeItems; rw [PyM.bind_ok hnx]; rfl
    rw [h1'] at h1
    have hv : vs = [a] := by injection h1 with h _; injection h with h; exact h.symm
    have hs : ({ s with cur := c } : St α) = { s with
        cur := some (target s s.factory, startAt p (source s).length + 1) } := by
      injection h1 with _ h; exact h.symm
    subst hv
    rw [hs] at h4
    refine ⟨[a], if s.resetAfterCall then none
        else some (target s s.factory, startAt p (source s).length + 1), ?_, rfl, h3, ?_⟩
    · rw [PyM.bind_apply]
      unfold emit
      rw [PyM.bind_ok hnx, PyM.bind_ok (afterCall_run _)]
      cases h : s.resetAfterCall <;> rfl
    · cases h : s.resetAfterCall
      · exact h4
      · exact Or.inl ⟨rfl, rfl⟩
  cases n with
  | none => exact one
  | some n =>
    unfold call asked
    by_cases h1 : n = 1
    · subst h1; exact one
    · simp only [h1, if_false]
      have hn' : ¬ n < 0 := by have : 0 ≤ n := hn; omega
      unfold emitMany
      rw [if_neg hn']
      obtain ⟨vs, c, h1, h2, h3, h4⟩ := takeItems_run n.toNat hi hne
      refine ⟨vs, if s.resetAfterCall then none else c, ?_, h2, h3, ?_⟩
      · rw [PyM.bind_ok h1, PyM.bind_ok (afterCall_run _)]
        cases h : s.resetAfterCall <;> rfl
      · rw [h2]
        cases h : s.resetAfterCall
        · exact h4
        · exact Or.inl ⟨rfl, rfl⟩

/-- With an empty source, no value ever comes. -/
theorem nextItem_empty {s : St α} {p : Nat} (hi : Inv s p) (he : source s = []) :
    nextItem s = (.error .diverges, s) := by
  have hr : nextRound s = (.error .diverges, s) := by
    unfold nextRound
    change (match source s with
      | [] => _
      | a :: _ => _) = _
    rw [he]
  rcases hi with ⟨hc, rfl⟩ | hc
  · unfold nextItem; rw [hc]; exact hr
  · unfold nextItem; rw [hc]
    change (match (source s)[p]? with
      | some a => _
      | none => _) = _
    rw [he]; exact hr

theorem call_empty {s : St α} {p : Nat} (hi : Inv s p) (he : source s = []) (n : Option Int)
    (hn : 1 ≤ asked n) : call n s = (.error .diverges, s) := by
  have one : (do return [← emit] : PyM (St α) (List α)) s = (.error .diverges, s) := by
    rw [PyM.bind_apply]; unfold emit; rw [PyM.bind_err (nextItem_empty hi he)]
  cases n with
  | none => exact one
  | some n =>
    unfold call
    by_cases h1 : n = 1
    · subst h1; exact one
    · have hn' : 1 ≤ n := hn
      simp only [h1, if_false]
      unfold emitMany
      rw [if_neg (by omega)]
      obtain ⟨k, hk⟩ : ∃ k, n.toNat = k + 1 := ⟨n.toNat - 1, by omega⟩
      rw [hk]; unfold takeItems
      rw [PyM.bind_err (PyM.bind_err (nextItem_empty hi he))]

theorem call_zero (s : St α) :
    call (some 0) s = (.ok [], if s.resetAfterCall then { s with cur := none } else s) := by
  change (emitMany 0) s = _
  unfold emitMany
  rw [if_neg (by omega)]
  rw [PyM.bind_ok (show takeItems (Int.toNat 0) s = (.ok [], s) from rfl),
    PyM.bind_ok (afterCall_run s)]
  rfl

theorem call_negative (s : St α) {n : Int} (hn : n < 0) :
    call (some n) s = (.error .valueError, s) := by
  unfold call
  simp only [show ¬ n = 1 by omega, if_false]
  unfold emitMany
  rw [if_pos hn]; rfl

theorem setFactory_run (s : St α) (f : Fac) :
    (Op.setFactory f).run s = if ((target s f).now s.lists).isEmpty then (.error .valueError, s)
      else (.ok [], { s with
        items := .tuple ((target s f).now s.lists), factory := f, cur := none }) := by
  change (LiveSeq.setFactory f >>= fun _ => pure []) s = _
  by_cases h : ((target s f).now s.lists).isEmpty
  · have he : LiveSeq.setFactory f s = (.error .valueError, s) := if_pos h
    rw [if_pos h, PyM.bind_err he]
  · have he : LiveSeq.setFactory f s = (.ok ⟨⟩, { s with
        items := .tuple ((target s f).now s.lists), factory := f, cur := none }) := if_neg h
    rw [if_neg h, PyM.bind_ok he]; rfl

/-- The place that the history gives is where the iterator is. -/
theorem inv_of_run {s : St α} {p : Nat} (h : Run s p) : Inv s p := by
  induction h with
  | init lists r rac s h =>
    unfold LiveSeq.init at h
    split at h
    · cases h
    · injection h with h; subst h; exact Or.inl ⟨rfl, rfl⟩
  | op s p o _ ih =>
    cases o with
    | call n =>
      change Inv (call n s).2 (place s p _ (call n s).1)
      by_cases hneg : asked n < 0
      · cases n with
        | none => exact absurd hneg (by decide)
        | some n => rw [call_negative s (n := n) hneg]; exact ih
      by_cases hne : source s = []
      · by_cases h1 : 1 ≤ asked n
        · rw [call_empty ih hne n h1]; exact ih
        · cases n with
          | none => exact absurd (by decide) h1
          | some n =>
            have : n = 0 := by
              have h2 : ¬ n < 0 := hneg
              have h3 : ¬ 1 ≤ n := h1
              omega
            subst this
            rw [call_zero]
            unfold place; dsimp only
            cases h : s.resetAfterCall
            · exact ih
            · exact Or.inl ⟨rfl, rfl⟩
      · obtain ⟨vs, c, h1, _, _, h4⟩ := call_run ih hne n (by omega)
        rw [h1]; exact h4
    | reset => exact Or.inl ⟨rfl, rfl⟩
    | setFactory f =>
      rw [setFactory_run]
      split
      · exact ih
      · exact Or.inl ⟨rfl, rfl⟩
    | setResetAfterCall b =>
      change Inv { s with resetAfterCall := b } p
      rcases ih with ih | ih
      · exact Or.inl ih
      · refine Or.inr (ih.trans ?_)
        cases hf : s.factory <;> rfl
    | change r l =>
      change Inv { s with lists := fun k => if k = r then l else s.lists k } p
      rcases ih with ih | ih
      · exact Or.inl ih
      · refine Or.inr (ih.trans ?_)
        cases hf : s.factory <;> rfl

theorem nextItem_keeps (s : St α) : ∃ r c, nextItem s = (r, { s with cur := c }) := by
  have hr : ∃ r c, nextRound s = (r, { s with cur := c }) := by
    unfold nextRound
    split
    · exact ⟨_, s.cur, rfl⟩
    · exact ⟨_, _, rfl⟩
  unfold nextItem
  split
  · exact hr
  · split
    · exact ⟨_, _, rfl⟩
    · exact hr

theorem takeItems_keeps (n : Nat) (s : St α) : ∃ r c, takeItems n s = (r, { s with cur := c }) := by
  induction n generalizing s with
  | zero => exact ⟨_, s.cur, rfl⟩
  | succ n ih =>
    obtain ⟨r, c, h⟩ := nextItem_keeps s
    unfold takeItems
    cases r with
    | error e => rw [PyM.bind_err h]; exact ⟨_, c, rfl⟩
    | ok a =>
      rw [PyM.bind_ok h]
      obtain ⟨r', c', h'⟩ := ih { s with cur := c }
      cases r' with
      | error e => rw [PyM.bind_err h']; exact ⟨_, c', rfl⟩
      | ok as => rw [PyM.bind_ok h']; exact ⟨_, c', rfl⟩

/-- A call changes nothing but the iterator. -/
theorem call_keeps (s : St α) (n : Option Int) : ∃ r c, call n s = (r, { s with cur := c }) := by
  have one : ∃ r c, (do return [← emit] : PyM (St α) (List α)) s = (r, { s with cur := c }) := by
    obtain ⟨r, c, h⟩ := nextItem_keeps s
    rw [PyM.bind_apply]; unfold emit
    cases r with
    | error e => rw [PyM.bind_err h]; exact ⟨_, c, rfl⟩
    | ok a =>
      rw [PyM.bind_ok h, PyM.bind_ok (afterCall_run _)]
      refine ⟨.ok [a], if s.resetAfterCall then none else c, ?_⟩
      cases hr : s.resetAfterCall <;> rfl
  cases n with
  | none => exact one
  | some n =>
    unfold call
    by_cases h1 : n = 1
    · subst h1; exact one
    · simp only [h1, if_false]
      unfold emitMany
      split
      · exact ⟨_, s.cur, rfl⟩
      · obtain ⟨r, c, h⟩ := takeItems_keeps n.toNat s
        cases r with
        | error e => rw [PyM.bind_err h]; exact ⟨_, c, rfl⟩
        | ok as =>
          rw [PyM.bind_ok h, PyM.bind_ok (afterCall_run _)]
          refine ⟨.ok as, if s.resetAfterCall then none else c, ?_⟩
          cases hr : s.resetAfterCall <;> rfl

/-- Operations other than the assignment keep `items` and the factory. -/
theorem run_keeps (s : St α) (o : Op α) (h : o.keepsFactory) :
    (o.run s).2.items = s.items ∧ (o.run s).2.factory = s.factory := by
  cases o with
  | setFactory f => exact absurd h (by simp [Op.keepsFactory])
  | reset => exact ⟨rfl, rfl⟩
  | setResetAfterCall b => exact ⟨rfl, rfl⟩
  | change r l => exact ⟨rfl, rfl⟩
  | call n =>
    obtain ⟨r', c, h⟩ := call_keeps s n
    change (call n s).2.items = _ ∧ (call n s).2.factory = _
    rw [h]; exact ⟨rfl, rfl⟩

/-! ### C95 -/

/-- **C95.** In every history, with any changes of lists, a call returns what the list holds at the
place that was reached, and so on around the list as it is now. -/
theorem C95_follows {s : St α} {p : Nat} (h : Run s p) (hne : source s ≠ []) (n : Option Int)
    (hn : 0 ≤ asked n) :
    ∃ vs, (call n s).1 = .ok vs ∧ vs.length = (asked n).toNat ∧
      IsCyclicFrom (.fin (source s)) (startAt p (source s).length) vs := by
  obtain ⟨vs, c, h1, h2, h3, _⟩ := call_run (inv_of_run h) hne n hn
  exact ⟨vs, by rw [h1], h2, h3⟩

/-- **C95 (only what is in the list).** No value is emitted that the list does not hold at the
time. -/
theorem C95_members {s : St α} {p : Nat} (h : Run s p) (n : Option Int) {vs : List α}
    (hc : (call n s).1 = .ok vs) : ∀ v ∈ vs, v ∈ source s := by
  by_cases hneg : asked n < 0
  · cases n with
    | none => exact absurd hneg (by decide)
    | some n => rw [call_negative s (n := n) hneg] at hc; cases hc
  by_cases hne : source s = []
  · by_cases h1 : 1 ≤ asked n
    · rw [call_empty (inv_of_run h) hne n h1] at hc; cases hc
    · cases n with
      | none => exact absurd (by decide) h1
      | some n =>
        have h2 : ¬ n < 0 := hneg
        have h3 : ¬ 1 ≤ n := h1
        obtain rfl : n = 0 := by omega
        rw [call_zero] at hc; cases hc; intro v hv; cases hv
  · obtain ⟨ws, h1, _, h3⟩ := C95_follows h hne n (by omega)
    rw [h1] at hc; injection hc with hc; subst hc
    intro v hv
    obtain ⟨i, hi, rfl⟩ := List.getElem_of_mem hv
    have := h3 i hi
    rw [List.getElem?_eq_getElem hi] at this
    exact List.mem_of_getElem? this.symm

/-- **C95 (a whole round).** In every history, as many values as the list now has items are the
items of the list, each once, rotated. -/
theorem C95_round {s : St α} {p : Nat} (h : Run s p) (hne : source s ≠ []) :
    (call (some (source s).length) s).1 =
        .ok ((source s).rotate (startAt p (source s).length)) ∧
      ((source s).rotate (startAt p (source s).length)).Perm (source s) := by
  refine ⟨?_, List.rotate_perm ..⟩
  obtain ⟨vs, h1, h2, h3⟩ := C95_follows h hne (some (source s).length) (by simp [asked])
  have h2' : vs.length = (source s).length := by rw [h2]; simp [asked]
  rw [h1]; congr 1
  apply List.ext_getElem?
  intro i
  by_cases hi : i < vs.length
  · rw [h3 i hi, List.getElem?_rotate (by omega)]
    simp only [Src.cycle]
    rw [Nat.add_comm]
  · rw [List.getElem?_eq_none (by omega), List.getElem?_eq_none (by rw [List.length_rotate]; omega)]

/-- **C95 (reset).** After a reset, the list is emitted from its start, as it is now. -/
theorem C95_reset {s : St α} {p : Nat} (h : Run s p) (hne : source s ≠ []) (n : Option Int)
    (hn : 0 ≤ asked n) :
    ∃ vs, (call n (Op.reset.run s).2).1 = .ok vs ∧ vs.length = (asked n).toNat ∧
      IsCyclicFrom (.fin (source s)) 0 vs := by
  have hr : Run (Op.reset.run s).2 0 := Run.op s p .reset h
  have hs : source (Op.reset.run s).2 = source s := source_cur s none
  have h0 : startAt 0 (source s).length = 0 := by unfold startAt; split <;> rfl
  have := C95_follows hr (by rw [hs]; exact hne) n hn
  rwa [hs, h0] at this

/-- **C95 (the list).** As long as `iterator_factory` is not assigned, the source and `items` are
the user's list as it is. -/
theorem C95_source {lists : Nat → List α} {r : Nat} {rac : Bool} {s : St α}
    (hs : LiveSeq.init lists r rac = .ok s) (ops : List (Op α)) (hk : ∀ o ∈ ops, o.keepsFactory) :
    source (after s ops) = (after s ops).lists r ∧ itemsNow (after s ops) = (after s ops).lists r := by
  have key : ∀ t : St α, t.items = .list r → t.factory = .own → ∀ ops : List (Op α),
      (∀ o ∈ ops, o.keepsFactory) → (after t ops).items = .list r ∧ (after t ops).factory = .own := by
    intro t hi hf ops
    induction ops generalizing t with
    | nil => exact fun _ => ⟨hi, hf⟩
    | cons o ops ih =>
      intro hk
      have hkeep := run_keeps t o (hk _ (List.mem_cons_self ..))
      exact ih _ (hkeep.1.trans hi) (hkeep.2.trans hf) fun o ho => hk o (List.mem_cons_of_mem _ ho)
  unfold LiveSeq.init at hs
  split at hs
  · cases hs
  · injection hs with hs
    subst hs
    obtain ⟨h1, h2⟩ := key ⟨lists, .list r, .own, rac, none⟩ rfl rfl ops hk
    refine ⟨?_, ?_⟩
    · unfold source; rw [h2]; unfold target; rw [h1]; rfl
    · unfold itemsNow; rw [h1]; rfl

/-- **C95 (num_unique_values).** It counts the distinct items that the list has now. -/
theorem C95_num_unique [DecidableEq α] [PyHash α] {lists : Nat → List α} {r : Nat} {rac : Bool}
    {s : St α} (hs : LiveSeq.init lists r rac = .ok s) (ops : List (Op α))
    (hk : ∀ o ∈ ops, o.keepsFactory) :
    numUniqueValues (after s ops) = pyLenSet ((after s ops).lists r) := by
  unfold numUniqueValues; rw [(C95_source hs ops hk).2]

/-- **C95 (the rest of the round).** If the list is changed in the middle of the first round, after
`k` values, then the round goes on with the items of the new list from the index `k` on. So items
that were appended are emitted in the same round, even if all the old ones were emitted already. -/
theorem C95_rest {lists : Nat → List α} {r : Nat} {s : St α}
    (hs : LiveSeq.init lists r false = .ok s) {k : Nat} (hk : 0 < k) (hk' : k ≤ (lists r).length)
    {L' : List α} (hL : k ≤ L'.length) (hL' : L' ≠ []) :
    results s [.call (some k), .change r L', .call (some (L'.length - k : Nat))] =
      [.ok ((lists r).take k), .ok [], .ok (L'.drop k)] := by
  have hne : lists r ≠ [] := by intro h; rw [h] at hk'; simp at hk'; omega
  have hsrc : source s = lists r ∧ s.resetAfterCall = false ∧ s.items = .list r ∧
      s.factory = .own := by
    unfold LiveSeq.init at hs
    split at hs
    · cases hs
    · injection hs with hs; subst hs; exact ⟨rfl, rfl, rfl, rfl⟩
  obtain ⟨hsrc, hrac, hit, hf⟩ := hsrc
  have hrun : Run s 0 := .init lists r false s hs
  obtain ⟨vs, c, h1, h2, h3, h4⟩ :=
    call_run (inv_of_run hrun) (by rw [hsrc]; exact hne) (some k) (by simp [asked])
  have h2' : vs.length = k := by rw [h2]; simp [asked]
  rw [hsrc] at h3
  have h0 : startAt 0 (lists r).length = 0 := by unfold startAt; split <;> rfl
  have hvs : vs = (lists r).take k := by
    apply List.ext_getElem?
    intro i
    by_cases hi : i < k
    · rw [h3 i (by omega), h0, List.getElem?_take, if_pos hi]
      simp only [Src.cycle, Nat.zero_add]
      rw [Nat.mod_eq_of_lt (by omega)]
    · rw [List.getElem?_eq_none (by omega), List.getElem?_eq_none (by rw [List.length_take]; omega)]
  have hp : placeAfter 0 (lists r).length k = k := by
    unfold placeAfter
    rw [if_neg (by omega), h0, Nat.zero_add, Nat.mod_eq_of_lt (by omega)]; omega
  rw [hrac, if_neg (by simp), hsrc, h2', hp] at h4
  have hrest : ∀ n : Nat, n = L'.length - k →
      (call (some (n : Int)) ((Op.change r L').run { s with cur := c }).2).1 = .ok (L'.drop k) := by
    intro n hn
    have hs2 : source ((Op.change r L').run { s with cur := c }).2 = L' := by
      change source { s with cur := c, lists := fun j => if j = r then L' else s.lists j } = L'
      unfold source
      change (target _ s.factory).now _ = _
      rw [hf]
      change Held.now _ s.items = _
      rw [hit]
      exact if_pos rfl
    have hi2 : Inv ((Op.change r L').run { s with cur := c }).2 k := by
      rcases h4 with ⟨_, h⟩ | h
      · omega
      · refine Or.inr (h.trans ?_)
        cases hf : s.factory <;> rfl
    obtain ⟨ws, d, g1, g2, g3, _⟩ :=
      call_run hi2 (by rw [hs2]; exact hL') (some (n : Int)) (by simp [asked])
    rw [g1]; dsimp only; congr 1
    rw [hs2] at g3
    have g2' : ws.length = n := by rw [g2]; simp [asked]
    apply List.ext_getElem?
    intro i
    by_cases hi : i < n
    · rw [g3 i (by omega), List.getElem?_drop]
      simp only [Src.cycle]
      rw [show startAt k L'.length = k from if_pos (by omega), Nat.mod_eq_of_lt (by omega)]
    · rw [List.getElem?_eq_none (by omega), List.getElem?_eq_none (by rw [List.length_drop]; omega)]
  have hc1 : (Op.call (some (k : Int))).run s = (.ok vs, { s with cur := c }) := h1
  simp only [results]
  rw [hc1, hvs]
  dsimp only
  have := hrest (L'.length - k) rfl
  rw [show ((Op.call (some ((L'.length - k : Nat) : Int))).run
    ((Op.change r L').run { s with cur := c }).2).1 = .ok (L'.drop k) from this]
  rfl

/-- **C95 (an emptied list).** When the list is empty, every call for at least one value hangs; so
it does after `reset`. -/
theorem C95_empty {s : St α} {p : Nat} (h : Run s p) (he : source s = []) (n : Option Int)
    (hn : 1 ≤ asked n) :
    (call n s).1 = .error .diverges ∧ (call n (Op.reset.run s).2).1 = .error .diverges := by
  have hs : source (Op.reset.run s).2 = [] := (source_cur s none).trans he
  exact ⟨by rw [call_empty (inv_of_run h) he n hn],
    by rw [call_empty (inv_of_run (Run.op s p .reset h)) hs n hn]⟩

/-- **C95 violated (an emptied list).** The constructor refuses an empty list "to prevent an
infinite loop", but the list can be emptied later: then a call for a value does not return. -/
theorem C95_empty_violated :
    ¬ ∀ (s : St Nat) (p : Nat), Run s p → ∀ n, 1 ≤ asked n → (call n s).1 ≠ .error .diverges := by
  intro h
  have h1 : Run (⟨fun _ => [7], .list 0, .own, false, none⟩ : St Nat) 0 :=
    .init (fun _ => [7]) 0 false _ rfl
  exact h _ _ (Run.op _ _ (.change 0 []) h1) none (by decide) (by rfl)

/-- **C95 (an assigned factory).** After `em.iterator_factory = lambda: iter(x)` the values follow
the list `x`, while `items` stays what `x` was at the assignment. -/
theorem C95_factory {s : St α} {x : Nat} (hx : s.lists x ≠ []) (ops : List (Op α))
    (hk : ∀ o ∈ ops, o.keepsFactory) :
    source (after s (.setFactory (.ext x) :: ops)) =
        (after s (.setFactory (.ext x) :: ops)).lists x ∧
      itemsNow (after s (.setFactory (.ext x) :: ops)) = s.lists x := by
  have key : ∀ t : St α, t.items = .tuple (s.lists x) → t.factory = .ext x → ∀ ops : List (Op α),
      (∀ o ∈ ops, o.keepsFactory) →
      (after t ops).items = .tuple (s.lists x) ∧ (after t ops).factory = .ext x := by
    intro t hi hf ops
    induction ops generalizing t with
    | nil => exact fun _ => ⟨hi, hf⟩
    | cons o ops ih =>
      intro hk
      have hkeep := run_keeps t o (hk _ (List.mem_cons_self ..))
      exact ih _ (hkeep.1.trans hi) (hkeep.2.trans hf) fun o ho => hk o (List.mem_cons_of_mem _ ho)
  have hrun : (Op.setFactory (.ext x)).run s = (.ok [], { s with
      items := .tuple (s.lists x), factory := .ext x, cur := none }) := by
    rw [setFactory_run]
    exact if_neg (by rw [List.isEmpty_iff]; exact hx)
  unfold after
  rw [hrun]
  obtain ⟨h1, h2⟩ := key { s with items := .tuple (s.lists x), factory := .ext x, cur := none }
    rfl rfl ops hk
  refine ⟨?_, ?_⟩
  · unfold source; dsimp only; rw [h2]; rfl
  · unfold itemsNow; dsimp only; rw [h1]; rfl

/-- **C95 violated (an assigned factory).** After such an assignment a value can be emitted that is
not among `items`, and `num_unique_values` is wrong. -/
theorem C95_factory_violated :
    ∃ (s : St Nat) (p : Nat) (vs : List Nat), Run s p ∧ (call (some 2) s).1 = .ok vs ∧
      vs = [5, 6] ∧ itemsNow s = [5] ∧ numUniqueValues s = .ok 1 := by
  have h1 : Run (⟨fun k => if k = 0 then [7] else [5], .list 0, .own, false, none⟩ : St Nat) 0 :=
    .init (fun k => if k = 0 then [7] else [5]) 0 false _ rfl
  have h2 := Run.op _ _ (.change 1 [5, 6]) (Run.op _ _ (.setFactory (.ext 1)) h1)
  exact ⟨_, _, [5, 6], h2, by rfl, rfl, by rfl, by decide +kernel⟩

/-! Cases. -/

example : results (⟨fun _ => [1, 2, 3], .list 0, .own, false, none⟩ : St Nat)
    [.call (some 3), .change 0 [1, 2, 3, 4], .call (some 3), .change 0 [8, 9], .call none,
      .change 0 [0, 8, 9], .call (some 2), .change 0 [5], .call (some 2), .reset, .call (some 1)] =
    [.ok [1, 2, 3], .ok [], .ok [4, 1, 2], .ok [], .ok [8], .ok [], .ok [8, 9], .ok [], .ok [5, 5],
      .ok [], .ok [5]] := by decide +kernel

end LiveSeq
end Fauxdoc
