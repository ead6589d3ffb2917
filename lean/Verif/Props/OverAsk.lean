import Verif.Model.OverAsk
import Verif.Proofs.DtText2
import Verif.Props.Choice
import Verif.Spec.WorldDemo
/-
C115: what the error says when too many unique values are asked for.
-/
set_option linter.unusedSectionVars false
namespace Fauxdoc
open PyM Choice
variable {K : Type} [Field K] [LinearOrder K] [FloorRing K] {R : Rng K}
  {α : Type} [DecidableEq α] [PyHash α]

/-- In every state: `raise_uniqueness_violation` puts its message together and raises a `ValueError`
with it; if putting it together fails, it fails in the same way. -/
theorem raise_complaint {β : Type} (number : Int) (s : ChoiceSt α R × Nat) :
    (raiseUniquenessViolation s : Except Err β × (ChoiceSt α R × Nat)) =
      match complaint number s with
      | (.ok _, t) => (.error .valueError, t)
      | (.error x, t) => (.error x, t) := by
  have hnum : ∀ l : List α, pyLenSet l = if allHashable l then .ok l.dedup.length else .error .typeError :=
    fun _ => rfl
  unfold raiseUniquenessViolation complaint
  rw [self_bind]
  by_cases hr : s.1.replace = true
  · have hv : numUniqueValues s = (pyLenSet s.1.items, s) := by
      unfold numUniqueValues
      rw [self_bind, if_neg (by simp [hr])]
      rfl
    rw [if_neg (by simp [hr]), bind_apply, hv, hnum]
    unfold overAsked
    by_cases hh : allHashable s.1.items = true
    · rw [if_pos hh, if_pos hh]
      dsimp only
      rw [bind_apply, hv, hnum, if_pos hh]
      rfl
    · rw [if_neg hh, if_neg hh]; rfl
  · have hr' : s.1.replace = false := by simpa using hr
    rw [if_pos (by simp [hr']), bind_apply]
    rcases hi : s.1.shuffledIndex with _ | i
    · have hs : shuffledIndex s = (.error .attributeError, s) := by
        unfold shuffledIndex
        rw [self_bind, hi]
        rfl
      have hv : numUniqueValues s = (.error .attributeError, s) := by
        unfold numUniqueValues
        rw [self_bind, if_pos (by simp [hr']), bind_apply, hs]
      rw [hs, bind_apply, hv]
    · have hs : shuffledIndex s = (.ok i, s) := by
        unfold shuffledIndex
        rw [self_bind, hi]
        rfl
      have hv : numUniqueValues s = (pyLenSet (pyListSlice1 s.1.shuffled i s.1.shuffled.length), s) := by
        unfold numUniqueValues
        rw [self_bind, if_pos (by simp [hr']), bind_apply, hs]
        rfl
      rw [hs, bind_apply, hv, hnum]
      dsimp only
      unfold overAsked
      generalize hl : pyListSlice1 s.1.shuffled i s.1.shuffled.length = l at *
      by_cases hh : allHashable l = true
      · rw [if_pos hh, if_pos hh]
        dsimp only
        rw [bind_apply, hv, hnum, if_pos hh]
        rfl
      · rw [if_neg hh, if_neg hh]; rfl

/-- **C115 (without replacement).** If more values are asked for than are left (`rest`), and they can
be hashed, the call raises a `ValueError` whose message names the number asked for and the number of
different values left.  The latter is the smaller of the two, and so many values can still be had. -/
theorem C115_message {items : List α} {s : ChoiceSt α R × Nat} {E : List α}
    (h : ChoiceRun R items s E) (hr : s.1.replace = false) (n : Option Nat) (rest : List α)
    (hrest : (E ++ rest).Perm items) (hn : rest.length < wanted n)
    (hh : ∀ v ∈ rest, PyHash.hashable v = true) :
    call (n.map Int.ofNat) s = (.error .valueError, s) ∧
    complaint (wanted n) s = (.ok (overAskText (wanted n) rest.toFinset.card rest.toFinset.card), s) ∧
    rest.toFinset.card < wanted n ∧
    ∃ vs s', call (some (rest.toFinset.card : Int)) s = (.ok vs, s') ∧ vs.length = rest.toFinset.card := by
  have hlen : E.length + rest.length = items.length := by
    rw [← hrest.length_eq, List.length_append]
  have hcard : rest.toFinset.card ≤ rest.length := List.toFinset_card_le _
  refine ⟨?_, ?_, by omega, ?_⟩
  · obtain ⟨x, h1, ⟨_, rfl⟩ | ⟨⟨v, hv, hf⟩, _⟩⟩ := C13_over_ask_exact h hr n (by omega) rest hrest
    · exact h1
    · rw [hh v hv] at hf; cases hf
  · have hv := (C17_without_replacement_partial h hr rest hrest hh).2.1
    unfold complaint
    rw [bind_ok hv, bind_ok hv]
    rfl
  · obtain ⟨vs, s', h1, h2, _⟩ := C12_available h hr (some rest.toFinset.card) (by
      change E.length + rest.toFinset.card ≤ _
      omega)
    exact ⟨vs, s', h1, h2⟩

/-- **C115 (the number given).** If the values left are different, the number the message gives is
exactly the greatest number of values that can be had. -/
theorem C115_exact {items : List α} {s : ChoiceSt α R × Nat} {E : List α} (h : ChoiceRun R items s E)
    (hr : s.1.replace = false) (rest : List α) (hrest : (E ++ rest).Perm items) (hnd : rest.Nodup)
    (n : Option Nat) : (call (n.map Int.ofNat) s).1.isOk = true ↔ wanted n ≤ rest.toFinset.card := by
  have hlen : E.length + rest.length = items.length := by
    rw [← hrest.length_eq, List.length_append]
  rw [List.toFinset_card_of_nodup hnd, call_norepl n s (run_good h) hr]
  split
  · exact ⟨fun _ => by omega, fun _ => rfl⟩
  · refine ⟨fun hx => ?_, fun _ => by omega⟩
    cases hx

/-- **C115 (replace_only_after_call).** The same for one call of more values than there are items. -/
theorem C115_message_roac {items : List α} {s : ChoiceSt α R × Nat} (h : ChoiceReach R items s)
    (hro : s.1.roac = true) (n : Nat) (hn : items.length < n)
    (hh : ∀ v ∈ items, PyHash.hashable v = true) :
    call (some (n : Int)) s = (.error .valueError, s) ∧
    complaint n s = (.ok (overAskText n items.toFinset.card items.toFinset.card), s) ∧
    items.toFinset.card < n := by
  refine ⟨C13_over_ask_roac_partial h hro n hn hh, ?_, lt_of_le_of_lt (List.toFinset_card_le _) hn⟩
  have hv := (C17_with_replacement_partial h ((reach_wf h).roac hro)).2.1
  rw [if_pos hh] at hv
  unfold complaint
  rw [bind_ok hv, bind_ok hv]
  rfl

theorem cut_at_space {a b t u : List Char} (ha : ' ' ∉ a) (hb : ' ' ∉ b)
    (h : a ++ ' ' :: t = b ++ ' ' :: u) : a = b ∧ t = u := by
  induction a generalizing b with
  | nil =>
    cases b with
    | nil => cases h; exact ⟨rfl, rfl⟩
    | cons y b => cases h; exact absurd (by simp) hb
  | cons x a ih =>
    cases b with
    | nil => cases h; exact absurd (by simp) ha
    | cons y b =>
      rw [List.cons_append, List.cons_append, List.cons.injEq] at h
      obtain ⟨rfl, h⟩ := h
      obtain ⟨h1, h2⟩ := ih (fun hx => ha (by simp [hx])) (fun hx => hb (by simp [hx])) h
      exact ⟨by rw [h1], h2⟩

/-- **C115 (both numbers can be read).** The message is different for different numbers. -/
theorem C115_read {m n : Int} {j k : Nat} (h : overAskText m j j = overAskText n k k) : m = n ∧ j = k := by
  have hs : ∀ i : Int, ' ' ∉ decInt i := fun i => not_decInt (by decide) (by decide)
  have hd : ∀ i : Nat, ' ' ∉ dec i := fun i hi => absurd (dec_digit hi) (by decide)
  unfold overAskText at h
  simp only [List.append_assoc] at h
  have h1 := List.append_cancel_left h
  obtain ⟨e1, e2⟩ := cut_at_space (hs m) (hs n) h1
  have hm := decInt_inj e1
  subst hm
  refine ⟨rfl, ?_⟩
  have h2 : dec j ++ (" possible selection".toList ++ ((if j = 1 then [] else ['s']) ++ ['.'])) =
      dec k ++ (" possible selection".toList ++ ((if k = 1 then [] else ['s']) ++ ['.'])) := by
    have h3 := List.append_cancel_left h1
    exact List.append_cancel_left (List.append_cancel_left (List.append_cancel_left h3))
  exact dec_inj (cut_at_space (hd j) (hd k) h2).1

/-! ### Examples -/

/-- The message as a Python string. -/
example : String.ofList (overAskText 4 2 2) =
      "Could not emit: 4 new unique values were requested, out of 2 possible selections." ∧
    String.ofList (overAskText 1 0 0) =
      "Could not emit: 1 new unique value was requested, out of 0 possible selections." ∧
    String.ofList (overAskText 12 1 1) =
      "Could not emit: 12 new unique values were requested, out of 1 possible selection." := by
  decide +kernel

/-- `['a', 'a', 'b']`. -/
def twinItems : List Val := [.str ['a'], .str ['a'], .str ['b']]

/-- The state of `Choice(['a', 'a', 'b'], replace=False, rng_seed=5)`. -/
def twinState : ChoiceSt Val demoRng :=
  match (Choice.init twinItems none false false (some 5) none 0 :
      Except Err (ChoiceSt Val demoRng) × Nat).1 with
  | .ok st => st
  | .error _ => ⟨[], none, none, false, false, [], none, 0, none, (0 : Nat)⟩

theorem twinState_run : ChoiceRun demoRng twinItems (twinState, 0) [] := by
  have h1 : (Choice.init (R := demoRng) twinItems none false false (some 5) none 0).1.isOk = true := by
    decide +kernel
  have h2 : (Choice.init (R := demoRng) twinItems none false false (some 5) none 0).2 = 0 := by
    decide +kernel
  refine .init none false false (some 5) none 0 0 _ (Prod.ext ?_ h2)
  unfold twinState
  rcases hi : (Choice.init (R := demoRng) twinItems none false false (some 5) none 0).1 with x | st
  · rw [hi] at h1; cases h1
  · rfl

/-- **C115 (the number given), violated.** `Choice(['a', 'a', 'b'], replace=False)` asked for four
values says that two selections are possible, but asked for three it gives three. -/
theorem C115_violated : ∃ s, ChoiceRun demoRng twinItems s [] ∧ s.1.replace = false ∧
    (call (some 4) s).1 = .error .valueError ∧
    (complaint 4 s).1 = .ok
      "Could not emit: 4 new unique values were requested, out of 2 possible selections.".toList ∧
    (call (some 3) (call (some 4) s).2).1.isOk = true :=
  ⟨_, twinState_run, by decide +kernel, by decide +kernel, by decide +kernel, by decide +kernel⟩

/-- `C115_message` applies to it. -/
example : (complaint 4 (twinState, 0)).1 = .ok (overAskText 4 2 2) :=
  congrArg Prod.fst (C115_message twinState_run (by decide +kernel) (some 4) twinItems (.refl _) (by decide)
    (by decide)).2.1

end Fauxdoc
