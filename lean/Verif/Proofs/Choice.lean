import Verif.Model.Choice
import Verif.Proofs.MathTools2
import Verif.Spec.Lists
/-
Lemmas about `Choice`: how each operation acts on the state, and the invariants.
-/
set_option linter.unusedSectionVars false
namespace Fauxdoc
variable {K : Type} [Field K] [LinearOrder K] [FloorRing K] {α : Type} {R : Rng K}

namespace Choice

@[simp] theorem self_bind {β : Type} (k : ChoiceSt α R → ChoiceM α R β) (s : ChoiceSt α R × Nat) :
    (self >>= k) s = k s.1 s := rfl

@[simp] theorem upd_bind {β : Type} (f : ChoiceSt α R → ChoiceSt α R)
    (k : PUnit → ChoiceM α R β) (s : ChoiceSt α R × Nat) :
    (upd f >>= k) s = k ⟨⟩ (f s.1, s.2) := rfl

@[simp] theorem upd_run (f : ChoiceSt α R → ChoiceSt α R) (s : ChoiceSt α R × Nat) :
    upd f s = (.ok ⟨⟩, (f s.1, s.2)) := rfl

/-- Weights used by `_global_shuffle`. -/
def shufWeights (c : ChoiceSt α R) : List K :=
  match c.weights with
  | none => List.replicate c.items.length 1
  | some ws => if ws.isEmpty then List.replicate c.items.length 1 else ws

theorem globalShuffle_run (s : ChoiceSt α R × Nat) :
    globalShuffle s =
      match weightedShuffle R s.1.items.length (shufWeights s.1) none s.1.rng with
      | (.ok ps, g) => (.ok ⟨⟩, ({ s.1 with
          rng := g, shuffled := pick s.1.items ps, shuffledIndex := some 0,
          numUniqueItems := s.1.items.length }, s.2))
      | (.error x, g) => (.error x, ({ s.1 with rng := g }, s.2)) := by
  unfold globalShuffle
  simp only [self_bind]
  change (onRng (weightedShuffle R s.1.items.length (shufWeights s.1) none) >>= _) s = _
  rw [PyM.bind_apply]
  unfold onRng
  rcases weightedShuffle R s.1.items.length (shufWeights s.1) none s.1.rng with ⟨_ | ps, g⟩ <;> rfl

theorem newRng_run (seed : Option Int) (s : ChoiceSt α R × Nat) :
    ∃ g e, newRng seed s = (.ok ⟨⟩, ({ s.1 with rng := g }, e)) ∧
      ∀ x, seed = some x → g = R.ofSeed x ∧ e = s.2 := by
  cases seed with
  | none => exact ⟨_, _, rfl, by simp⟩
  | some x => exact ⟨_, _, rfl, by simp⟩

/-- `if not self._replace: self._global_shuffle()`. -/
def shuffleIf (b : Bool) : ChoiceM α R PUnit := if ¬ b then globalShuffle else pure ⟨⟩

/-- The effect of a shuffle, success or not: either a fresh permutation at index 0, or only the
RNG moved. -/
inductive ShuffleEffect (c : ChoiceSt α R) : Except Err PUnit → ChoiceSt α R → Prop
  | done (g : R.G) (l : List α) (hl : l.Perm c.items) : ShuffleEffect c (.ok ⟨⟩)
      { c with rng := g, shuffled := l, shuffledIndex := some 0,
               numUniqueItems := c.items.length }
  | failed (x : Err) (g : R.G) : ShuffleEffect c (.error x) { c with rng := g }

theorem weightedShuffle_none_ok {n : Nat} {ws : List K} {g g' : R.G} {ps : List Nat}
    (h : weightedShuffle R n ws none g = (.ok ps, g')) :
    ps.Nodup ∧ (∀ i ∈ ps, i < n) ∧ ps.length = n := by
  unfold weightedShuffle at h
  simp only [Option.getD_none] at h
  by_cases hn : n ≠ ws.length
  · rw [if_pos hn] at h; cases h
  · rw [if_neg hn] at h
    push Not at hn
    by_cases hk : (n : Int) * 100 ≤ (n : Int) * 42
    · rw [if_pos hk] at h
      obtain ⟨⟨ws', hi⟩, hl⟩ := lowK_ok _ (LowInv.start ws) (by simp) h
      exact ⟨hi.nodup, fun i hm => hn ▸ hi.lt i hm, by omega⟩
    · rw [if_neg hk] at h
      obtain ⟨a, b, c, _⟩ := highK_ok h
      exact ⟨a, fun i hm => hn ▸ b i hm, by rw [c, ← hn]; simp⟩

theorem globalShuffle_effect (s : ChoiceSt α R × Nat) :
    ∃ r c', globalShuffle s = (r, (c', s.2)) ∧ ShuffleEffect s.1 r c' := by
  rw [globalShuffle_run]
  rcases h : weightedShuffle R s.1.items.length (shufWeights s.1) none s.1.rng with ⟨x | ps, g⟩
  · exact ⟨_, _, rfl, .failed x g⟩
  · obtain ⟨a, b, c⟩ := weightedShuffle_none_ok h
    obtain ⟨d, e⟩ := distinctPick_of_positions s.1.items ps a b
    exact ⟨_, _, rfl, .done g _ (d.perm (by rw [e, c]))⟩

/-! ### Invariants -/

/-- `weights` and `cum_weights` describe the same distribution, one entry per item. -/
def WeightsOK (items : List α) (w cw : Option (List K)) : Prop :=
  (w = none ∧ cw = none) ∨
    ∃ ws, w = some ws ∧ cw = some (accumulate ws) ∧ ws.length = items.length

/-- Facts that hold in every reachable state, whatever failed before. -/
structure WF (items : List α) (c : ChoiceSt α R) : Prop where
  items_eq : c.items = items
  ne : items ≠ []
  weights : WeightsOK items c.weights c.cumWeights
  roac : c.roac = true → c.replace = true
  num : c.replace = true → c.numUniqueItems = items.length

/-- Without replacement, `E` (what was emitted since the last shuffle) is the consumed prefix of a
permutation of the items. -/
structure Good (items : List α) (c : ChoiceSt α R) (E : List α) : Prop where
  norepl : c.replace = false → c.shuffled.Perm items ∧ E.length ≤ items.length ∧
    E = c.shuffled.take E.length ∧ c.shuffledIndex = some (E.length : Int) ∧
    c.numUniqueItems = (items.length : Int) - E.length
  repl : c.replace = true → E = []

theorem accumulate_deCumulateFrom (prev : K) (cs : List K) :
    accumulateFrom prev (deCumulateFrom prev cs) = cs := by
  induction cs generalizing prev with
  | nil => rfl
  | cons c cs ih => simp [deCumulateFrom, accumulateFrom, ih]

theorem deCumulateFrom_length (prev : K) (cs : List K) :
    (deCumulateFrom prev cs).length = cs.length := by
  induction cs generalizing prev with
  | nil => rfl
  | cons c cs ih => simp [deCumulateFrom, ih]

theorem allWeights_ok {items : List α} {toSet : Option (List K)} {b : Bool}
    {w cw : Option (List K)} (h : allWeights items toSet b = .ok (w, cw)) :
    WeightsOK items w cw := by
  cases toSet with
  | none => cases h; exact Or.inl ⟨rfl, rfl⟩
  | some ws =>
    unfold allWeights at h
    simp only at h
    by_cases hl : items.length ≠ ws.length
    · rw [if_pos hl] at h; cases h
    · rw [if_neg hl] at h
      push Not at hl
      cases b with
      | false =>
        rw [if_neg (by simp)] at h; cases h
        exact Or.inr ⟨ws, rfl, rfl, hl.symm⟩
      | true =>
        rw [if_pos rfl] at h; cases h
        refine Or.inr ⟨_, rfl, ?_, by rw [deCumulateFrom_length, hl]⟩
        rw [accumulate, accumulate_deCumulateFrom]

theorem WF.of_shuffle {items : List α} {c c' : ChoiceSt α R} {r : Except Err PUnit}
    (h : WF items c) (hr : c.replace = false) (he : ShuffleEffect c r c') : WF items c' := by
  cases he with
  | done g l hl => exact ⟨h.items_eq, h.ne, h.weights, h.roac, fun hx => by simp [hr] at hx⟩
  | failed x g => exact ⟨h.items_eq, h.ne, h.weights, h.roac, h.num⟩

theorem WF.rng {items : List α} {c : ChoiceSt α R} (h : WF items c) (g : R.G) :
    WF items { c with rng := g } := ⟨h.items_eq, h.ne, h.weights, h.roac, h.num⟩

theorem Good.rng {items : List α} {c : ChoiceSt α R} {E : List α} (h : Good items c E) (g : R.G) :
    Good items { c with rng := g } E := ⟨h.norepl, h.repl⟩

theorem Good.of_shuffle {items : List α} {c c' : ChoiceSt α R}
    (hi : c.items = items) (hr : c.replace = false) (he : ShuffleEffect c (.ok ⟨⟩) c') :
    Good items c' [] := by
  cases he with
  | done g l hl =>
    subst hi
    refine ⟨fun _ => ⟨hl, by simp, by simp, by simp, by simp⟩, fun hx => by simp [hr] at hx⟩

theorem Good.of_fail {items : List α} {c c' : ChoiceSt α R} {E : List α} {x : Err}
    (h : Good items c E) (he : ShuffleEffect c (.error x) c') : Good items c' E := by
  cases he with
  | failed x g => exact h.rng g

/-- `reset`, as an effect. -/
theorem reset_run (s : ChoiceSt α R × Nat) :
    ∃ g e, (∀ x, s.1.rngSeed = some x → g = R.ofSeed x ∧ e = s.2) ∧
      reset s = if s.1.replace then (.ok ⟨⟩, ({ s.1 with rng := g }, e))
        else globalShuffle ({ s.1 with rng := g }, e) := by
  obtain ⟨g, e, h, hs⟩ := newRng_run s.1.rngSeed s
  refine ⟨g, e, hs, ?_⟩
  unfold reset
  simp only [self_bind]
  rw [PyM.bind_ok h]
  by_cases hb : s.1.replace = true
  · rw [if_pos hb, if_neg (by simp [hb])]; rfl
  · rw [if_neg hb, if_pos hb]

theorem seed_run (x : Option Int) (s : ChoiceSt α R × Nat) :
    ∃ g e, (∀ y, x = some y → g = R.ofSeed y ∧ e = s.2) ∧
      seed x s = if s.1.replace then (.ok ⟨⟩, ({ s.1 with rngSeed := x, rng := g }, e))
        else globalShuffle ({ s.1 with rngSeed := x, rng := g }, e) := by
  obtain ⟨g, e, h, hs⟩ := newRng_run x ({ s.1 with rngSeed := x }, s.2)
  refine ⟨g, e, hs, ?_⟩
  unfold seed
  simp only [upd_bind]
  rw [PyM.bind_ok h]
  simp only [self_bind]
  by_cases hb : s.1.replace = true
  · rw [if_pos hb, if_neg (by simp [hb])]; rfl
  · rw [if_neg hb, if_pos hb]

/-- Both weight setters. -/
theorem setAll_run (ws : Option (List K)) (cum : Bool) (s : ChoiceSt α R × Nat) :
    (if cum then setCumWeights ws else setWeights ws) s =
      match allWeights s.1.items ws cum with
      | .error x => (.error x, s)
      | .ok (w, cw) =>
        if s.1.replace then (.ok ⟨⟩, ({ s.1 with weights := w, cumWeights := cw }, s.2))
        else globalShuffle ({ s.1 with weights := w, cumWeights := cw }, s.2) := by
  cases cum with
  | true =>
    rw [if_pos rfl]
    unfold setCumWeights
    simp only [self_bind]
    rw [PyM.bind_apply]
    simp only [PyM.lift_apply]
    rcases allWeights s.1.items ws true with x | ⟨w, cw⟩
    · rfl
    · simp only [upd_bind]
      by_cases hb : s.1.replace = true
      · rw [if_pos hb, if_neg (by simp [hb])]; rfl
      · rw [if_neg hb, if_pos hb]
  | false =>
    rw [if_neg (by simp)]
    unfold setWeights
    simp only [self_bind]
    rw [PyM.bind_apply]
    simp only [PyM.lift_apply]
    rcases allWeights s.1.items ws false with x | ⟨w, cw⟩
    · rfl
    · simp only [upd_bind]
      by_cases hb : s.1.replace = true
      · rw [if_pos hb, if_neg (by simp [hb])]; rfl
      · rw [if_neg hb, if_pos hb]

theorem setReplace_run (b : Bool) (s : ChoiceSt α R × Nat) :
    setReplace b s =
      if b = s.1.replace then (.ok ⟨⟩, s)
      else if b then (.ok ⟨⟩, ({ s.1 with replace := true, numUniqueItems := s.1.items.length }, s.2))
      else globalShuffle ({ s.1 with replace := false, roac := false }, s.2) := by
  unfold setReplace
  simp only [self_bind]
  cases b <;> cases hb : s.1.replace <;> rfl

theorem setRoac_run (b : Bool) (s : ChoiceSt α R × Nat) :
    setRoac b s =
      if b then
        (if s.1.replace then (.ok ⟨⟩, ({ s.1 with roac := true }, s.2))
         else (.ok ⟨⟩, ({ s.1 with roac := true, replace := true,
                                   numUniqueItems := s.1.items.length }, s.2)))
      else (.ok ⟨⟩, ({ s.1 with roac := false }, s.2)) := by
  unfold setRoac
  simp only [upd_bind]
  cases b with
  | false => rfl
  | true =>
    rw [if_pos rfl, if_pos rfl, setReplace_run]
    cases hb : s.1.replace <;> simp

end Choice
end Fauxdoc
