import Verif.Props.Choice3
/-
C81: asking a `Choice` for a negative number of values.
-/
set_option linter.unusedSectionVars false
namespace Fauxdoc
open Choice

variable {K : Type} [Field K] [LinearOrder K] [FloorRing K] {α : Type} [PyHash α] {R : Rng K}

theorem Rng.rands_zero (R : Rng K) (g : R.G) : R.rands 0 g = (.ok [], g) := rfl

/-- **C81, partial (with replacement).** A `Choice` with replacement (or with
`replace_only_after_call`) that is asked for a negative number of values gives none and stays as it
is.  Like every other call of several values it raises `ValueError` if its weights have no positive
total.  Missing from the full claim: no replacement, see `C81_take_back_violated`. -/
theorem C81_with_replacement_partial [IsStrictOrderedRing K] {items : List α}
    {s : ChoiceSt α R × Nat} (h : ChoiceReach R items s) (hr : s.1.replace = true) {n : Int}
    (hn : n < 0) :
    ((∀ ws, s.1.weights = some ws → 0 < ws.sum) ∨ items.length = 1 →
      call (some n) s = (.ok [], s)) ∧
    (∀ ws, s.1.weights = some ws → ws.sum ≤ 0 → items.length ≠ 1 →
      call (some n) s = (.error .valueError, s)) := by
  have hwf := reach_wf h
  have hcall : call (some n) s = withReplacement n s := by
    unfold call
    dsimp only
    rw [if_neg (by omega), emitMany_eq, if_neg (by simp [hr]; omega)]
  have htn : n.toNat = 0 := by omega
  rw [hcall, withReplacement_run, hwf.items_eq]
  have hd : s.1.weights = none → drawWith s.1 n s.1.rng = (.ok [], s.1.rng) := by
    intro h0
    have hc : s.1.cumWeights = none := by
      rcases hwf.weights with ⟨_, h1⟩ | ⟨ws, h1, _⟩
      · exact h1
      · rw [h0] at h1; cases h1
    unfold drawWith
    rw [if_neg (by simp; omega), hc]
    dsimp only
    unfold Rng.choicesUniform
    rw [if_neg (by omega), htn]
    rfl
  have hds : ∀ ws, s.1.weights = some ws → ws ≠ [] ∧ drawWith s.1 n = R.choicesCum ws.length (accumulate ws) n := by
    intro ws hws
    rcases hwf.weights with ⟨h1, _⟩ | ⟨ws', h1, h2, h3⟩
    · rw [hws] at h1; cases h1
    · rw [hws] at h1; cases h1
      refine ⟨fun hx => ?_, ?_⟩
      · rw [hx] at h3; exact hwf.ne (List.length_eq_zero_iff.1 h3.symm)
      · unfold drawWith
        rw [if_neg (by simp; omega), h2, h3, hwf.items_eq]
  refine ⟨fun hw => ?_, fun ws hws hle hl => ?_⟩
  · by_cases h1 : items.length = 1
    · rw [if_pos h1, htn]; rfl
    · rw [if_neg h1]
      rcases hc : s.1.weights with _ | ws
      · rw [hd hc]; rfl
      · obtain ⟨hne, e⟩ := hds ws hc
        obtain ⟨us, g', h2, h3, _, h4⟩ := choicesCum_ok R ws hne
          ((hw.resolve_right h1) ws hc) n s.1.rng
        rw [htn] at h2 h3
        rw [Rng.rands_zero] at h2
        cases h2
        rw [e, h4]; rfl
  · rw [if_neg hl]
    obtain ⟨hne, e⟩ := hds ws hws
    rw [e, choicesCum_fail R ws hne hle]

/-- A call with a negative number in a state without replacement. -/
theorem Choice.call_negative {items : List α} {s : ChoiceSt α R × Nat} {E : List α}
    (h : ChoiceRun R items s E) (hr : s.1.replace = false) {m : Nat} (hm : 0 < m) :
    call (some (-(m : Int))) s =
      (.ok (if m ≤ E.length then [] else (s.1.shuffled.drop E.length).take (items.length - m)),
        ({ s.1 with shuffledIndex := some ((E.length : Int) - m),
                    numUniqueItems := (items.length : Int) - E.length + m }, s.2)) := by
  obtain ⟨hp, hle, hE, hi, hnum⟩ := (run_good h).norepl hr
  unfold call
  dsimp only
  rw [if_neg (by omega), emitMany_eq, if_pos (by simp [hr]), withoutReplacement_norepl _ s hr, hi]
  dsimp only
  rw [hnum, if_neg (by omega)]
  have hg : grab s.1.shuffled (E.length : Int) (-(m : Int)) =
      .ok (if m ≤ E.length then [] else (s.1.shuffled.drop E.length).take (items.length - m)) := by
    unfold grab
    rw [if_neg (by omega)]
    congr 1
    unfold pyListSlice1 sliceBound
    have hl := hp.length_eq
    dsimp only
    rw [hl]
    rw [if_neg (show ¬ ((E.length : Int) < 0) by omega), if_neg (show ¬ ((E.length : Int) > items.length) by omega)]
    by_cases h1 : m ≤ E.length
    · rw [if_pos h1, if_neg (by omega), if_neg (by omega)]
      rw [show ((E.length : Int) + -(m : Int) - E.length).toNat = 0 by omega]
      rfl
    · rw [if_neg h1, if_pos (by omega)]
      by_cases h2 : (E.length : Int) + -(m : Int) + items.length < 0
      · rw [if_pos h2]
        rw [show ((0 : Int) - E.length).toNat = 0 by omega, show items.length - m = 0 by omega]
        simp
      · rw [if_neg h2]
        congr 1
        omega
  rw [hg, show (items.length : Int) - E.length - -(m : Int) = items.length - E.length + m by omega,
    show (E.length : Int) + -(m : Int) = E.length - m by omega]

/-- **C81 violated (values are taken back).** Without replacement, asking for `-m` values makes the
emitter forget the last `m` values: it returns an empty list, and the next `m` values are the last
`m` values again, after which everything is as before.  So items are emitted twice. -/
theorem C81_take_back_violated {items : List α} {s : ChoiceSt α R × Nat} {E vs : List α}
    (h : ChoiceRun R items s (E ++ vs)) (hr : s.1.replace = false) (hv : vs ≠ []) :
    ∃ s', call (some (-(vs.length : Int))) s = (.ok [], s') ∧ s' ≠ s ∧
      call (some (vs.length : Int)) s' = (.ok vs, s) := by
  obtain ⟨hp, hle, hE, hi, hnum⟩ := (run_good h).norepl hr
  have hpos : 0 < vs.length := List.length_pos_of_ne_nil hv
  rw [List.length_append] at hle hE hi hnum
  have hcall := call_negative h hr hpos
  rw [if_pos (by simp)] at hcall
  refine ⟨_, hcall, ?_, ?_⟩
  · intro hx
    have := congrArg (fun s => s.1.shuffledIndex) hx
    dsimp only at this
    rw [hi] at this
    have := Option.some.inj this
    rw [List.length_append] at this
    push_cast at this
    omega
  · have hE1 : E = s.1.shuffled.take E.length := by
      have := congrArg (List.take E.length) hE
      rw [List.take_left, List.take_take] at this
      rwa [Nat.min_eq_left (Nat.le_add_right _ _)] at this
    have hg : Good items ({ s.1 with
        shuffledIndex := some (((E ++ vs).length : Int) - vs.length)
        numUniqueItems := (items.length : Int) - ((E ++ vs).length : Int) + (vs.length : Int) } : ChoiceSt α R) E :=
      { norepl := fun _ => ⟨hp, by omega, hE1, by simp, (by simp; omega)⟩
        repl := fun hx => absurd (hr.symm.trans hx) (by simp) }
    have := call_norepl (some vs.length)
      (({ s.1 with
        shuffledIndex := some (((E ++ vs).length : Int) - vs.length)
        numUniqueItems := (items.length : Int) - ((E ++ vs).length : Int) + (vs.length : Int) } : ChoiceSt α R), s.2)
      hg hr
    rw [if_pos (show E.length + wanted (some vs.length) ≤ items.length from by simpa [wanted] using hle)] at this
    refine this.trans ?_
    have hd : (s.1.shuffled.drop E.length).take vs.length = vs := by
      have := congrArg (List.drop E.length) hE
      rw [List.drop_left, List.drop_take] at this
      rw [Nat.add_sub_cancel_left] at this
      exact this.symm
    obtain ⟨⟨it, w, cw, rep, roac, sh, idx, num, sd, rng⟩, e⟩ := s
    dsimp only at hd hi hnum hr ⊢
    simp only [wanted, Option.getD_some]
    subst hi hnum
    rw [hd]
    simp only [List.length_append]
    congr 3
    push_cast
    omega

/-- **C81 violated (values for a negative number).** If fewer than `m` values have been emitted, asking
for `-m` values returns values: all but `m` of as many as there are items.  Afterwards
`num_unique_items` exceeds the number of items. -/
theorem C81_values_violated {items : List α} {s : ChoiceSt α R × Nat} {E : List α}
    (h : ChoiceRun R items s E) (hr : s.1.replace = false) {m : Nat} (hm : E.length < m)
    (hml : m < items.length) :
    ∃ vs s', call (some (-(m : Int))) s = (.ok vs, s') ∧ vs ≠ [] ∧
      vs.length = min (items.length - m) (items.length - E.length) ∧
      Choice.numUniqueItems s' = (.ok ((items.length : Int) - E.length + m), s') ∧
      (items.length : Int) < items.length - E.length + m := by
  obtain ⟨hp, hle, hE, hi, hnum⟩ := (run_good h).norepl hr
  refine ⟨_, _, call_negative h hr (by omega), ?_, ?_, rfl, by omega⟩
  · rw [if_neg (by omega)]
    apply List.ne_nil_of_length_pos
    rw [List.length_take, List.length_drop, hp.length_eq]; omega
  · rw [if_neg (by omega), List.length_take, List.length_drop, hp.length_eq]

end Fauxdoc
