import Verif.Props.Heap4
/-
C25 and C61: what `num_unique_values` says of the objects of a program that draw from a list.
-/
namespace Fauxdoc
open PyM World
set_option linter.unusedSectionVars false
variable {K : Type} [Field K] [LinearOrder K] [FloorRing K] [IsStrictOrderedRing K] {R : Rng K}

/-- `num_unique_values` of a `Static` or `Sequential` is the number of its different items. -/
theorem World.numUniqueValues_fixed {w : World R} {r : Ref} {k : ItemsKind} {l : List Val}
    (hn : (w.obj r).node = some .static ∨ ∃ k, (w.obj r).node = some (.sequential k))
    (hi : (w.obj r).items = some (k, l)) :
    numUniqueValues r w =
      (if ∀ v ∈ l, PyHash.hashable v = true then .ok (some (l.toFinset.card : ℚ))
        else .error .typeError, w) := by
  have hp : pyLenSet l = if ∀ v ∈ l, PyHash.hashable v = true then .ok l.toFinset.card
      else .error .typeError := by
    unfold pyLenSet
    by_cases h : ∀ v ∈ l, PyHash.hashable v = true
    · rw [if_pos h, if_pos (allHashable_iff.2 h), List.card_toFinset]
    · rw [if_neg h, if_neg (fun hc => h (allHashable_iff.1 hc))]
  unfold numUniqueValues
  rw [run_get_bind]
  unfold Attrs.items at hi
  rcases hn with hn | ⟨k', hn⟩ <;> rw [hn] at hi ⊢ <;> cases hi <;>
    dsimp only
  · change (PyM.lift (pyLenSet (w.obj r).static.items) >>= _) w = _
    rw [hp]
    by_cases h : ∀ v ∈ (w.obj r).static.items, PyHash.hashable v = true
    · rw [if_pos h, if_pos h]; rfl
    · rw [if_neg h, if_neg h]; rfl
  · change (PyM.lift (pyLenSet (w.obj r).seq.items) >>= _) w = _
    rw [hp]
    by_cases h : ∀ v ∈ (w.obj r).seq.items, PyHash.hashable v = true
    · rw [if_pos h, if_pos h]; rfl
    · rw [if_neg h, if_neg h]; rfl

/-- **C25 (in a program).** Whatever happens after `s = Static(v)`, `s.num_unique_values` is 1, or a
`TypeError` if `v` is not hashable. -/
theorem C25_store (str : Val → List Char) {v : Val} {w w1 w2 : World R} {r : Ref}
    (h : newStatic v w = (.ok r, w1)) (hs : Steps str w1 w2) :
    numUniqueValues r w2 =
      (if PyHash.hashable v then .ok (some 1) else .error .typeError, w2) := by
  have hr : r = w.next ∧ (w1.obj r).node = some .static ∧ (w1.obj r).items = some (.list, [v]) ∧
      w1.next = w.next + 1 := by
    cases h
    refine ⟨rfl, ?_, ?_, rfl⟩ <;> simp [Attrs.items, Static.init]
  obtain ⟨e, hn, hi, hx⟩ := hr
  have hb := (hs.old.2 r (by rw [hx, e]; exact Nat.lt_succ_self _)).1
  rw [numUniqueValues_fixed (.inl ((node_of_base hb).trans hn)) ((items_of_base hb).trans hi)]
  simp

/-- **C61 (items).** Whatever happens after `s = Sequential(items)`, `s.num_unique_values` is the number
of different items, or a `TypeError` if some item is not hashable. -/
theorem C61_sequential (str : Val → List Char) {k : ItemsKind} {l : List Val} {rac : Bool}
    {w w1 w2 : World R} {r : Ref} (h : newSequential k l rac w = (.ok r, w1)) (hs : Steps str w1 w2) :
    numUniqueValues r w2 =
      (if ∀ v ∈ l, PyHash.hashable v = true then .ok (some (l.toFinset.card : ℚ))
        else .error .typeError, w2) := by
  have hr : r = w.next ∧ (w1.obj r).node = some (.sequential k) ∧
      (w1.obj r).items = some (k, l) ∧ w1.next = w.next + 1 := by
    unfold newSequential at h
    rcases hst : Sequential.init l rac with x | st
    · rw [hst] at h; cases h
    · rw [hst] at h
      have hsi : st.items = l := by
        unfold Sequential.init at hst
        split at hst
        · cases hst
        · cases hst; rfl
      cases h
      refine ⟨rfl, ?_, ?_, rfl⟩ <;> simp [Attrs.items, hsi]
  obtain ⟨e, hn, hi, hx⟩ := hr
  have hb := (hs.old.2 r (by rw [hx, e]; exact Nat.lt_succ_self _)).1
  exact numUniqueValues_fixed (.inr ⟨k, (node_of_base hb).trans hn⟩) ((items_of_base hb).trans hi)

-- `a = Static('x'); b = Sequential(['p', 'q', 'p']); b(5)`
example : (numUniqueValues 0 (World.call demoStr 5 1 (some (.int 5))
      ((newStatic (.str ['x']) >>= fun _ => newSequential .list
        [.str ['p'], .str ['q'], .str ['p']] false) (emptyWorld : World demoRng)).2).2).1 =
    .ok (some 1) ∧
  (numUniqueValues 1 (World.call demoStr 5 1 (some (.int 5))
      ((newStatic (.str ['x']) >>= fun _ => newSequential .list
        [.str ['p'], .str ['q'], .str ['p']] false) (emptyWorld : World demoRng)).2).2).1 =
    .ok (some 2) := by decide +kernel
-- the hypotheses of `C25_store` with a call in between
example : Steps demoStr (newStatic (.str ['x']) (emptyWorld : World demoRng)).2
    (World.call demoStr 5 0 (some (.int 5)) (newStatic (.str ['x']) (emptyWorld : World demoRng)).2).2 :=
  .step .start (.call 5 0 _ (fun i h => by cases h; decide))

end Fauxdoc
