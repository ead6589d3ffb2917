import Verif.Proofs.Choice
import Verif.Spec.Choice
/-
Lemmas about the emitting operations of `Choice`, and preservation of the invariants by every
operation.
-/
set_option linter.unusedSectionVars false
namespace Fauxdoc
variable {K : Type} [Field K] [LinearOrder K] [FloorRing K] {α : Type} [PyHash α] {R : Rng K}

namespace Choice

theorem onRng_bind {β γ : Type} (m : PyM R.G β) (k : β → ChoiceM α R γ)
    (s : ChoiceSt α R × Nat) : (onRng m >>= k) s =
      match m s.1.rng with
      | (.ok b, g) => k b ({ s.1 with rng := g }, s.2)
      | (.error x, g) => (.error x, ({ s.1 with rng := g }, s.2)) := by
  rw [PyM.bind_apply]
  unfold onRng
  rcases m s.1.rng with ⟨_ | b, g⟩ <;> rfl

theorem shuffledIndex_bind {γ : Type} (k : Int → ChoiceM α R γ) (s : ChoiceSt α R × Nat) :
    (shuffledIndex >>= k) s =
      match s.1.shuffledIndex with
      | some i => k i s
      | none => (.error .attributeError, s) := by
  rw [PyM.bind_apply]
  unfold shuffledIndex
  simp only [self_bind]
  rcases s.1.shuffledIndex with _ | i <;> rfl

theorem numUniqueValues_repl [DecidableEq α] (s : ChoiceSt α R × Nat) (hr : s.1.replace = true) :
    numUniqueValues s = (pyLenSet s.1.items, s) := by
  unfold numUniqueValues
  rw [self_bind, if_neg (not_not.2 hr)]
  rfl

theorem numUniqueValues_state [DecidableEq α] (s : ChoiceSt α R × Nat) : (numUniqueValues s).2 = s := by
  unfold numUniqueValues
  rw [self_bind]
  by_cases hr : ¬ s.1.replace = true
  · rw [if_pos hr, shuffledIndex_bind]
    cases s.1.shuffledIndex <;> rfl
  · rw [if_neg hr]; rfl

theorem pyLenSet_ok [DecidableEq α] {l : List α} {n : Nat} (h : pyLenSet l = .ok n) :
    n = l.dedup.length := by
  unfold pyLenSet at h
  split at h
  · cases h; rfl
  · cases h

theorem pyLenSet_ended [DecidableEq α] (l : List α) :
    (∃ n, pyLenSet l = .ok n) ∨ pyLenSet l = .error .typeError := by
  unfold pyLenSet
  split
  · exact .inl ⟨_, rfl⟩
  · exact .inr rfl

/-- What `_choice_without_replacement` reads from the shuffled list. -/
def grab (l : List α) (i number : Int) : Py (List α) :=
  if number = 1 then (pyListGet l i).map fun x => [x] else .ok (pyListSlice1 l i (i + number))

theorem withoutReplacement_norepl (number : Int) (s : ChoiceSt α R × Nat)
    (hr : s.1.replace = false) :
    withoutReplacement number s =
      match s.1.shuffledIndex with
      | none => (.error .attributeError, s)
      | some i =>
        if number > s.1.numUniqueItems then
          (.error (overAsked (pyListSlice1 s.1.shuffled i s.1.shuffled.length)), s)
        else match grab s.1.shuffled i number with
          | .error x => (.error x, s)
          | .ok l => (.ok l, ({ s.1 with
              shuffledIndex := some (i + number),
              numUniqueItems := s.1.numUniqueItems - number }, s.2)) := by
  obtain ⟨⟨items, w, cw, rep, roac, sh, idx, num, sd, rng⟩, e⟩ := s
  simp only at hr ⊢
  unfold withoutReplacement
  simp only [self_bind]
  by_cases hn : number > num
  · rw [if_pos hn]
    unfold raiseUniquenessViolation
    simp only [self_bind]
    rw [if_pos (by simp [hr]), shuffledIndex_bind]
    rcases idx with _ | i
    · rfl
    · simp only [if_pos hn]; rfl
  · rw [if_neg hn, if_pos (by simp [hr]), shuffledIndex_bind]
    rcases idx with _ | i
    · rfl
    · simp only [if_neg hn]
      unfold grab
      by_cases h1 : number = 1
      · simp only [if_pos h1]
        rcases hg : pyListGet sh i with x | x
        · rfl
        · rfl
      · simp only [if_neg h1]
        rfl

theorem withoutReplacement_repl (number : Int) (s : ChoiceSt α R × Nat)
    (hr : s.1.replace = true) :
    withoutReplacement number s =
      if number > s.1.numUniqueItems then (.error (overAsked s.1.items), s)
      else match (match s.1.weights with
          | none => R.samplePos s.1.items.length number
          | some ws => weightedShuffle R s.1.items.length ws (some number)) s.1.rng with
        | (.ok ps, g) => (.ok (pick s.1.items ps), ({ s.1 with rng := g }, s.2))
        | (.error x, g) => (.error x, ({ s.1 with rng := g }, s.2)) := by
  obtain ⟨⟨items, w, cw, rep, roac, sh, idx, num, sd, rng⟩, e⟩ := s
  simp only at hr ⊢
  unfold withoutReplacement
  simp only [self_bind]
  by_cases hn : number > num
  · rw [if_pos hn, if_pos hn]
    unfold raiseUniquenessViolation
    simp only [self_bind]
    rw [if_neg (by simp [hr])]; rfl
  · rw [if_neg hn, if_neg hn, if_neg (by simp [hr])]
    rcases w with _ | ws
    · simp only [onRng_bind]
      rcases R.samplePos items.length number rng with ⟨_ | _, _⟩ <;> rfl
    · simp only [onRng_bind]
      rcases weightedShuffle R items.length ws (some number) rng with ⟨_ | _, _⟩ <;> rfl

/-- The draw made by `_choice_with_replacement`, as positions. -/
def drawWith (c : ChoiceSt α R) (number : Int) : PyM R.G (List Nat) :=
  if c.weights.isNone ∧ number = 1 then do
    let p ← R.choice c.items.length
    return [p]
  else
    match c.cumWeights with
    | none => R.choicesUniform c.items.length number
    | some cum => R.choicesCum c.items.length cum number

theorem withReplacement_run (number : Int) (s : ChoiceSt α R × Nat) :
    withReplacement number s =
      if s.1.items.length = 1 then (.ok (List.replicate number.toNat s.1.items).flatten, s)
      else match drawWith s.1 number s.1.rng with
        | (.ok ps, g) => (.ok (pick s.1.items ps), ({ s.1 with rng := g }, s.2))
        | (.error x, g) => (.error x, ({ s.1 with rng := g }, s.2)) := by
  obtain ⟨⟨items, w, cw, rep, roac, sh, idx, num, sd, rng⟩, e⟩ := s
  simp only
  unfold withReplacement
  simp only [self_bind]
  by_cases h1 : items.length = 1
  · rw [if_pos h1, if_pos h1]; rfl
  · rw [if_neg h1, if_neg h1]
    unfold drawWith
    by_cases h2 : w.isNone ∧ number = 1
    · rw [if_pos h2, if_pos h2, onRng_bind, PyM.bind_apply]
      rcases R.choice items.length rng with ⟨_ | _, _⟩ <;> rfl
    · rw [if_neg h2, if_neg h2]
      rcases cw with _ | cum
      · simp only [onRng_bind]
        rcases R.choicesUniform items.length number rng with ⟨_ | _, _⟩ <;> rfl
      · simp only [onRng_bind]
        rcases R.choicesCum items.length cum number rng with ⟨_ | _, _⟩ <;> rfl

/-- What a call may do to the state. -/
inductive CallEffect (c : ChoiceSt α R) : ChoiceSt α R → Prop
  | norepl (i : Option Int) (n : Int) (h : c.replace = false) :
      CallEffect c { c with shuffledIndex := i, numUniqueItems := n }
  | repl (g : R.G) (h : c.replace = true) : CallEffect c { c with rng := g }

theorem withoutReplacement_effect (number : Int) (s : ChoiceSt α R × Nat) :
    CallEffect s.1 (withoutReplacement number s).2.1 ∧ (withoutReplacement number s).2.2 = s.2 := by
  cases hr : s.1.replace with
  | false =>
    rw [withoutReplacement_norepl number s hr]
    have hid : CallEffect s.1 s.1 :=
      .norepl s.1.shuffledIndex s.1.numUniqueItems hr
    rcases s.1.shuffledIndex with _ | i
    · exact ⟨hid, rfl⟩
    · by_cases hn : number > s.1.numUniqueItems
      · simp only [if_pos hn]; exact ⟨hid, trivial⟩
      · simp only [if_neg hn]
        rcases grab s.1.shuffled i number with x | l
        · exact ⟨hid, rfl⟩
        · exact ⟨.norepl _ _ hr, rfl⟩
  | true =>
    rw [withoutReplacement_repl number s hr]
    have hid : CallEffect s.1 s.1 := .repl s.1.rng hr
    by_cases hn : number > s.1.numUniqueItems
    · rw [if_pos hn]; exact ⟨hid, rfl⟩
    · rw [if_neg hn]
      generalize (match s.1.weights with
          | none => R.samplePos s.1.items.length number
          | some ws => weightedShuffle R s.1.items.length ws (some number)) s.1.rng = x
      rcases x with ⟨_ | _, g⟩
      · exact ⟨.repl g hr, rfl⟩
      · exact ⟨.repl g hr, rfl⟩

theorem withReplacement_effect (number : Int) (s : ChoiceSt α R × Nat)
    (hr : s.1.replace = true) :
    CallEffect s.1 (withReplacement number s).2.1 ∧ (withReplacement number s).2.2 = s.2 := by
  rw [withReplacement_run]
  by_cases h1 : s.1.items.length = 1
  · rw [if_pos h1]; exact ⟨.repl s.1.rng hr, rfl⟩
  · rw [if_neg h1]
    rcases drawWith s.1 number s.1.rng with ⟨_ | _, g⟩
    · exact ⟨.repl g hr, rfl⟩
    · exact ⟨.repl g hr, rfl⟩

/-- `[0]` on the result does not touch the state. -/
theorem first_bind_snd (m : ChoiceM α R (List α)) (s : ChoiceSt α R × Nat) :
    ((m >>= first) s).2 = (m s).2 := by
  rw [PyM.bind_apply]
  rcases m s with ⟨_ | _, _⟩ <;> rfl

theorem emit_eq (s : ChoiceSt α R × Nat) : emit s =
    if s.1.replace then (withReplacement 1 >>= first) s
    else (withoutReplacement 1 >>= first) s := by
  unfold emit
  simp only [self_bind]
  by_cases hb : s.1.replace = true
  · rw [if_pos hb, if_neg (by simp [hb])]
  · rw [if_neg hb, if_pos hb]

theorem emitMany_eq (n : Int) (s : ChoiceSt α R × Nat) : emitMany n s =
    if ¬ s.1.replace ∨ (s.1.roac ∧ n > 1) then withoutReplacement n s
    else withReplacement n s := by
  unfold emitMany
  simp only [self_bind]
  by_cases hb : ¬ s.1.replace ∨ (s.1.roac ∧ n > 1)
  · rw [if_pos hb, if_pos hb]
  · rw [if_neg hb, if_neg hb]

theorem emit_effect (s : ChoiceSt α R × Nat) :
    CallEffect s.1 (emit s).2.1 ∧ (emit s).2.2 = s.2 := by
  rw [emit_eq]
  by_cases hb : s.1.replace = true
  · rw [if_pos hb, first_bind_snd]; exact withReplacement_effect 1 s hb
  · rw [if_neg hb, first_bind_snd]; exact withoutReplacement_effect 1 s

theorem map_single_snd (m : ChoiceM α R α) (s : ChoiceSt α R × Nat) :
    ((do return [← m] : ChoiceM α R (List α)) s).2 = (m s).2 := by
  change ((m >>= fun a => pure [a]) s).2 = _
  rw [PyM.bind_apply]
  rcases m s with ⟨_ | _, _⟩ <;> rfl

theorem call_effect (n : Option Int) (s : ChoiceSt α R × Nat) :
    CallEffect s.1 (call n s).2.1 ∧ (call n s).2.2 = s.2 := by
  cases n with
  | none => unfold call; rw [map_single_snd]; exact emit_effect s
  | some n =>
    unfold call
    simp only
    by_cases h1 : n = 1
    · rw [if_pos h1, map_single_snd]; exact emit_effect s
    · rw [if_neg h1, emitMany_eq]
      by_cases hb : ¬ s.1.replace ∨ (s.1.roac ∧ n > 1)
      · rw [if_pos hb]; exact withoutReplacement_effect n s
      · rw [if_neg hb]
        push Not at hb
        exact withReplacement_effect n s hb.1

theorem WF.of_call {items : List α} {c c' : ChoiceSt α R} (h : WF items c)
    (he : CallEffect c c') : WF items c' := by
  cases he with
  | norepl i n hr => exact ⟨h.items_eq, h.ne, h.weights, h.roac, fun hx => by simp [hr] at hx⟩
  | repl g hr => exact h.rng g

theorem pyListGet_of_lt (l : List α) (i : Nat) (h : i < l.length) :
    pyListGet l (i : Int) = .ok l[i] := by
  unfold pyListGet
  simp only
  rw [if_neg (by omega), if_neg (by omega)]
  simp [h]

theorem pyListSlice1_nat (l : List α) (i n : Nat) (h : i + n ≤ l.length) :
    pyListSlice1 l (i : Int) ((i : Int) + (n : Int)) = (l.drop i).take n := by
  unfold pyListSlice1 sliceBound
  simp only
  rw [if_neg (by omega), if_neg (by omega), if_neg (by omega), if_neg (by omega)]
  congr 1
  omega

theorem pyListSlice1_toEnd (l : List α) (i : Nat) (h : i ≤ l.length) :
    pyListSlice1 l (i : Int) (l.length : Int) = l.drop i := by
  have := pyListSlice1_nat l i (l.length - i) (by omega)
  rw [show ((i : Int) + ((l.length - i : Nat) : Int)) = (l.length : Int) by omega] at this
  rw [this, List.take_of_length_le (by simp)]

theorem grab_nat (l : List α) (i n : Nat) (h : i + n ≤ l.length) :
    grab l (i : Int) (n : Int) = .ok ((l.drop i).take n) := by
  unfold grab
  by_cases h1 : (n : Int) = 1
  · have : n = 1 := by omega
    subst this
    rw [if_pos h1, pyListGet_of_lt l i (by omega)]
    change Except.ok [l[i]] = _
    rw [List.drop_eq_getElem_cons (by omega)]
    rfl
  · rw [if_neg h1, pyListSlice1_nat l i n h]

/-- A no-replacement request in a good state. -/
theorem withoutReplacement_good {items : List α} {E : List α} (n : Nat) (s : ChoiceSt α R × Nat)
    (hg : Good items s.1 E) (hr : s.1.replace = false) :
    withoutReplacement (n : Int) s =
      if E.length + n ≤ items.length then
        (.ok ((s.1.shuffled.drop E.length).take n),
          ({ s.1 with shuffledIndex := some ((E.length : Int) + n),
                      numUniqueItems := s.1.numUniqueItems - n }, s.2))
      else (.error (overAsked (s.1.shuffled.drop E.length)), s) := by
  obtain ⟨hp, hle, hE, hi, hn⟩ := hg.norepl hr
  rw [withoutReplacement_norepl _ s hr, hi]
  simp only
  by_cases h : E.length + n ≤ items.length
  · rw [if_neg (by omega), if_pos h, grab_nat _ _ _ (by rw [hp.length_eq]; exact h)]
  · rw [if_pos (by omega), if_neg h, pyListSlice1_toEnd _ _ (by rw [hp.length_eq]; exact hle)]

theorem call_norepl {items : List α} {E : List α} (n : Option Nat) (s : ChoiceSt α R × Nat)
    (hg : Good items s.1 E) (hr : s.1.replace = false) :
    call (n.map Int.ofNat) s =
      if E.length + wanted n ≤ items.length then
        (.ok ((s.1.shuffled.drop E.length).take (wanted n)),
          ({ s.1 with shuffledIndex := some ((E.length : Int) + wanted n),
                      numUniqueItems := s.1.numUniqueItems - wanted n }, s.2))
      else (.error (overAsked (s.1.shuffled.drop E.length)), s) := by
  obtain ⟨hp, hle, hE, hi, hn⟩ := hg.norepl hr
  have hone : (do return [← emit] : ChoiceM α R (List α)) s =
      if E.length + 1 ≤ items.length then
        (.ok ((s.1.shuffled.drop E.length).take 1),
          ({ s.1 with shuffledIndex := some ((E.length : Int) + (1 : Nat)),
                      numUniqueItems := s.1.numUniqueItems - (1 : Nat) }, s.2))
      else (.error (overAsked (s.1.shuffled.drop E.length)), s) := by
    change (emit >>= fun a => pure [a]) s = _
    have h1 := withoutReplacement_good 1 s hg hr
    rw [PyM.bind_apply, emit_eq, if_neg (by simp [hr]), PyM.bind_apply]
    rw [show (1 : Int) = ((1 : Nat) : Int) from rfl, h1]
    by_cases h : E.length + 1 ≤ items.length
    · rw [if_pos h]
      have hlt : E.length < s.1.shuffled.length := by rw [hp.length_eq]; omega
      rw [List.drop_eq_getElem_cons hlt]
      rfl
    · rw [if_neg h]
  cases n with
  | none => exact hone
  | some n =>
    unfold call
    simp only [Option.map_some]
    by_cases h1 : (Int.ofNat n) = 1
    · have : n = 1 := by simpa using h1
      subst this
      rw [if_pos h1]
      exact hone
    · rw [if_neg h1, emitMany_eq, if_pos (by simp [hr])]
      exact withoutReplacement_good n s hg hr

theorem Good.after_call {items : List α} {E : List α} (k : Nat) {c : ChoiceSt α R}
    (hg : Good items c E) (hr : c.replace = false) (hk : E.length + k ≤ items.length) :
    Good items { c with shuffledIndex := some ((E.length : Int) + k),
                        numUniqueItems := c.numUniqueItems - k }
      (E ++ (c.shuffled.drop E.length).take k) := by
  obtain ⟨hp, hle, hE, hi, hn⟩ := hg.norepl hr
  have hl : ((c.shuffled.drop E.length).take k).length = k := by
    rw [List.length_take, List.length_drop, hp.length_eq]; omega
  refine ⟨fun _ => ⟨hp, ?_, ?_, ?_, ?_⟩, fun hx => by simp [hr] at hx⟩
  · rw [List.length_append, hl]; exact hk
  · rw [List.length_append, hl]
    conv_lhs => rw [hE]
    rw [List.take_add]
    simp [← hE]
  · rw [List.length_append, hl]; push_cast; rfl
  · rw [List.length_append, hl]; simp only [hn]; push_cast; ring

end Choice
end Fauxdoc
