import Verif.Model.ChoiceVal
import Verif.Proofs.Choice
/-
A `Choice` called with a number that is not an integer.
-/
namespace Fauxdoc
namespace Choice
variable {K : Type} [Field K] [LinearOrder K] [FloorRing K] {R : Rng K}

omit [FloorRing K] in
theorem choicesCum_zero (m : Nat) (cum : List K) (g : R.G) :
    (∃ l, R.choicesCum m cum 0 g = (.ok l, g)) ∨
    ∃ e : Err, (e = .valueError ∨ e = .indexError) ∧ R.choicesCum m cum 0 g = (.error e, g) ∧
      ¬ (cum.length = m ∧ ∃ t, cum.getLast? = some t ∧ 0 < t) := by
  unfold Rng.choicesCum
  by_cases h : cum.length ≠ m
  · rw [if_pos h]
    exact .inr ⟨_, .inl rfl, rfl, fun h' => h h'.1⟩
  · rw [if_neg h]
    rcases hl : cum.getLast? with _ | t
    · exact .inr ⟨_, .inr rfl, rfl, by rintro ⟨_, t, ht, _⟩; cases ht⟩
    · dsimp only
      by_cases ht : t ≤ 0
      · rw [if_pos ht]
        refine .inr ⟨_, .inl rfl, rfl, ?_⟩
        rintro ⟨_, t', ht', h0⟩
        cases ht'
        exact absurd h0 (not_lt.2 ht)
      · rw [if_neg ht]; exact .inl ⟨_, rfl⟩

/-- A number that is not an integer is refused, and nothing happens. -/
theorem emitBad_run (v : Val) (c : ChoiceSt Val R) :
    ∃ e : Err, (e = .typeError ∨ e = .valueError ∨ e = .indexError) ∧
      (∀ n, emitBad v (c, n) = (.error e, (c, n))) ∧
      ((∀ cum, c.cumWeights = some cum → cum.length = c.items.length ∧
        ∃ t, cum.getLast? = some t ∧ 0 < t) → e = .typeError) := by
  have hself : ∀ n, emitBad v (c, n) = (match c.replace, c.roac, c.cumWeights with
      | true, false, some cum =>
        if c.items.length = 1 then PyM.raise .typeError
        else do
          let _ ← onRng (R.choicesCum c.items.length cum 0)
          PyM.raise .typeError
      | _, _, _ => PyM.raise .typeError : ChoiceM Val R Val) (c, n) := by
    intro n
    unfold emitBad
    rw [self_bind]
    rfl
  have ht : (∀ n, emitBad v (c, n) = (PyM.raise .typeError : ChoiceM Val R Val) (c, n)) →
      ∃ e : Err, (e = .typeError ∨ e = .valueError ∨ e = .indexError) ∧
      (∀ n, emitBad v (c, n) = (.error e, (c, n))) ∧
      ((∀ cum, c.cumWeights = some cum → cum.length = c.items.length ∧
        ∃ t, cum.getLast? = some t ∧ 0 < t) → e = .typeError) :=
    fun h => ⟨_, .inl rfl, h, fun _ => rfl⟩
  rcases hr : c.replace with _ | _
  · exact ht fun n => by rw [hself, hr]
  rcases hro : c.roac with _ | _
  · rcases hw : c.cumWeights with _ | cum
    · rw [hw] at ht
      exact ht fun n => by rw [hself, hr, hro, hw]
    · have hs : ∀ n, emitBad v (c, n) = (if c.items.length = 1 then PyM.raise .typeError
          else do
            let _ ← onRng (R.choicesCum c.items.length cum 0)
            PyM.raise .typeError : ChoiceM Val R Val) (c, n) := fun n => by rw [hself, hr, hro, hw]
      by_cases h1 : c.items.length = 1
      · rw [hw] at ht
        exact ht fun n => by rw [hs, if_pos h1]
      · rcases choicesCum_zero (R := R) c.items.length cum c.rng with ⟨l, h⟩ | ⟨e, he, h, hn⟩
        · rw [hw] at ht
          refine ht fun n => ?_
          have : onRng (R.choicesCum c.items.length cum 0) (c, n) =
              (.ok l, ((c, n) : ChoiceSt Val R × Nat)) := by unfold onRng; rw [h]
          rw [hs, if_neg h1, PyM.bind_ok this]
        · refine ⟨e, .inr he, fun n => ?_, fun h' => absurd (h' cum rfl) hn⟩
          have : onRng (R.choicesCum c.items.length cum 0) (c, n) =
              (.error e, ((c, n) : ChoiceSt Val R × Nat)) := by unfold onRng; rw [h]
          rw [hs, if_neg h1, PyM.bind_err this]
  · exact ht fun n => by
      rw [hself, hr, hro]

end Choice
end Fauxdoc
