import Verif.Props.Same
/-
C138: how likely it is that values are missing from a run.
-/
set_option linter.unusedSectionVars false
namespace Fauxdoc
open MeasureTheory World ProbabilityTheory
variable {R : Rng ℝ}

/-- **C138 (one value).** Take a field, in every document, with values from a `Choice` of its own.  No
document among `n` has the value `x` with the probability `(1 - q) ^ n`, where `q` is the share of its
weights. -/
theorem C138_missing [MeasurableSpace R.G] (μ : Measure R.G) {V : Ref → Val → Prop}
    (str : Val → List Char) {w : World R} {fields : Dict Ref} {name : String} {f e : Ref} {items : List Val}
    {ws : List ℝ} (h : DrawnField w fields name f e items ws) (hnn : ∀ x ∈ ws, 0 ≤ x)
    (ht : TypedOn V (fun _ => True) w) (fuel n : Nat) (hU : UniformDraws R μ n)
    (docs : R.G → List (Dict Val))
    (hd : ∀ g, World.documents str fuel fields n (w.withGen e g) = (docs g).map .ok)
    (ho : ∀ g, OneEach name (docs g)) (x : Val) :
    μ {g | ∀ d ∈ docs g, d.get? name ≠ some x} = ENNReal.ofReal ((1 - shareOf items ws x) ^ n) := by
  have := C134_values μ str h hnn ht fuel n hU docs hd ho x 0
  simp only [Nat.choose_zero_right, Nat.cast_one, pow_zero, one_mul, Nat.sub_zero] at this
  rw [← this]
  congr 1
  ext g
  simp [howMany, List.countP_eq_zero]

/-- **C138 (all values).** The probability that some item is in none of the `n` documents is at most
`∑ (1 - q_x) ^ n`, over the items `x`. -/
theorem C138_cover [MeasurableSpace R.G] (μ : Measure R.G) {V : Ref → Val → Prop}
    (str : Val → List Char) {w : World R} {fields : Dict Ref} {name : String} {f e : Ref} {items : List Val}
    {ws : List ℝ} (h : DrawnField w fields name f e items ws) (hnn : ∀ x ∈ ws, 0 ≤ x)
    (ht : TypedOn V (fun _ => True) w) (fuel n : Nat) (hU : UniformDraws R μ n)
    (docs : R.G → List (Dict Val))
    (hd : ∀ g, World.documents str fuel fields n (w.withGen e g) = (docs g).map .ok)
    (ho : ∀ g, OneEach name (docs g)) :
    μ {g | ∃ x ∈ items, ∀ d ∈ docs g, d.get? name ≠ some x} ≤
      ∑ x ∈ items.toFinset, ENNReal.ofReal ((1 - shareOf items ws x) ^ n) := by
  rw [show {g | ∃ x ∈ items, ∀ d ∈ docs g, d.get? name ≠ some x} =
      ⋃ x ∈ items.toFinset, {g | ∀ d ∈ docs g, d.get? name ≠ some x} by ext g; simp]
  exact (measure_biUnion_finset_le _ _).trans (Finset.sum_le_sum fun x _ =>
    (C138_missing μ str h hnn ht fuel n hU docs hd ho x).le)

/-! ### Examples -/

/-- Ten shirts are all of other sizes than S with the probability 1/1024. -/
example : ∃ docs : replayRng.G → List (Dict Val),
    (∀ g, World.documents demoStr 5 shirtFields 10 ((shirtWorld replayRng).withGen 4 g) = (docs g).map .ok) ∧
    replayMeasure {g | ∀ d ∈ docs g, d.get? "size" ≠ some (.str ['S'])} = ENNReal.ofReal (1 / 1024) := by
  have hex := fun (g : replayRng.G) => shirt_documents demoStr 3 10
    (World.withGen_alike (w := shirtWorld replayRng) (fun _ => rfl) (k := .list) (r := 4) rfl g)
  choose docs hd h1 h2 using hex
  refine ⟨docs, hd, ?_⟩
  rw [C138_missing replayMeasure demoStr (shirt_size (R := replayRng))
    (by intro x hx; simp at hx; rcases hx with rfl | rfl <;> norm_num) shirt_typed 5 10 (replayRng_uniform 10)
    docs hd h2 (.str ['S'])]
  rw [show shareOf [Val.str ['S'], .str ['M'], .str ['L']] [2, 1, 1] (.str ['S']) = 1 / 2 by
    have hM : ¬ ('M' : Char) = 'S' := by decide
    have hL : ¬ ('L' : Char) = 'S' := by decide
    norm_num [shareOf, List.filter_cons, hM, hL]]
  norm_num

/-- A size is missing from eight shirts with a probability of at most 21 percent. -/
example : ∃ docs : replayRng.G → List (Dict Val),
    (∀ g, World.documents demoStr 5 shirtFields 8 ((shirtWorld replayRng).withGen 4 g) = (docs g).map .ok) ∧
    replayMeasure {g | ∃ x ∈ [Val.str ['S'], .str ['M'], .str ['L']], ∀ d ∈ docs g, d.get? "size" ≠ some x} ≤
      ENNReal.ofReal (21 / 100) := by
  have hex := fun (g : replayRng.G) => shirt_documents demoStr 3 8
    (World.withGen_alike (w := shirtWorld replayRng) (fun _ => rfl) (k := .list) (r := 4) rfl g)
  choose docs hd h1 h2 using hex
  refine ⟨docs, hd, ?_⟩
  refine (C138_cover replayMeasure demoStr (shirt_size (R := replayRng))
    (by intro x hx; simp at hx; rcases hx with rfl | rfl <;> norm_num) shirt_typed 5 8 (replayRng_uniform 8)
    docs hd h2).trans ?_
  have hs : ([Val.str ['S'], .str ['M'], .str ['L']] : List Val).toFinset =
      {Val.str ['S'], .str ['M'], .str ['L']} := by simp
  have hMS : ¬ ('M' : Char) = 'S' := by decide
  have hLS : ¬ ('L' : Char) = 'S' := by decide
  have hSM : ¬ ('S' : Char) = 'M' := by decide
  have hLM : ¬ ('L' : Char) = 'M' := by decide
  have hSL : ¬ ('S' : Char) = 'L' := by decide
  have hML : ¬ ('M' : Char) = 'L' := by decide
  rw [hs, Finset.sum_insert (by simp [hSM, hSL]), Finset.sum_insert (by simp [hML]), Finset.sum_singleton]
  rw [show shareOf [Val.str ['S'], .str ['M'], .str ['L']] [2, 1, 1] (.str ['S']) = 1 / 2 by
      norm_num [shareOf, List.filter_cons, hMS, hLS],
    show shareOf [Val.str ['S'], .str ['M'], .str ['L']] [2, 1, 1] (.str ['M']) = 1 / 4 by
      norm_num [shareOf, List.filter_cons, hSM, hLM],
    show shareOf [Val.str ['S'], .str ['M'], .str ['L']] [2, 1, 1] (.str ['L']) = 1 / 4 by
      norm_num [shareOf, List.filter_cons, hSL, hML]]
  rw [← ENNReal.ofReal_add (by norm_num) (by norm_num), ← ENNReal.ofReal_add (by norm_num) (by norm_num)]
  exact ENNReal.ofReal_le_ofReal (by norm_num)

end Fauxdoc
