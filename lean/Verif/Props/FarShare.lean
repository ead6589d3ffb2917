import Verif.Props.NearShare
import Mathlib.Probability.Moments.SubGaussian
/-
C136: shares far from the weights and chances are exponentially rare.
-/
set_option linter.unusedSectionVars false
namespace Fauxdoc
open MeasureTheory World ProbabilityTheory
variable {R : Rng ℝ}

/-- Shares of the draws in a set far from its length are exponentially rare. -/
theorem draws_far [MeasurableSpace R.G] {μ : Measure R.G} (hU : FairDraws R μ) {A : Set ℝ}
    (hA : MeasurableSet A) {v : ℝ} (hv : (volume.restrict (Set.Ico (0 : ℝ) 1)).real A = v) {n : ℕ} (hn : 0 < n)
    {ε : ℝ} (hε : 0 < ε) :
    μ.real {g | ε ≤ |(∑ i ∈ Finset.range n, A.indicator (fun _ => (1 : ℝ)) (R.nthDraw i g)) / n - v|} ≤
      2 * Real.exp (-2 * n * ε ^ 2) := by
  have hprob := fair_prob hU
  let Z : ℝ → ℝ := fun y => A.indicator (fun _ => (1 : ℝ)) y - v
  let X : ℕ → R.G → ℝ := fun i g => Z (R.nthDraw i g)
  have hind : Measurable (A.indicator fun _ => (1 : ℝ)) := measurable_const.indicator hA
  have hZ : Measurable Z := hind.sub_const v
  have hmean : ∀ i, ∫ g, A.indicator (fun _ => (1 : ℝ)) (R.nthDraw i g) ∂μ = v := fun i => by
    have h1 : (fun g => A.indicator (fun _ => (1 : ℝ)) (R.nthDraw i g)) =
        (R.nthDraw i ⁻¹' A).indicator fun _ => (1 : ℝ) := by
      ext g
      by_cases h : R.nthDraw i g ∈ A <;> simp [h]
    rw [h1, integral_indicator (fair_measurable hU i hA)]
    simp only [integral_const, smul_eq_mul, mul_one, measureReal_restrict_apply MeasurableSet.univ, Set.univ_inter]
    rw [← hv, Measure.real, Measure.real, ← Measure.map_apply (fair_measurable hU i) hA, fair_law hU]
  have hsub : ∀ i, HasSubgaussianMGF (X i) ((‖(1 : ℝ) - 0‖₊ / 2) ^ 2) μ := fun i => by
    have := hasSubgaussianMGF_of_mem_Icc (μ := μ) (a := 0) (b := 1)
      (X := fun g => A.indicator (fun _ => (1 : ℝ)) (R.nthDraw i g))
      (hind.comp (fair_measurable hU i)).aemeasurable
      (ae_of_all _ fun g => by by_cases h : R.nthDraw i g ∈ A <;> simp [h])
    rw [hmean] at this
    exact this
  have hneg : ∀ i, HasSubgaussianMGF (fun g => -X i g) ((‖(1 : ℝ) - 0‖₊ / 2) ^ 2) μ := fun i => (hsub i).neg
  have hi1 : iIndepFun X μ := (fair_indep hU).comp (fun _ => Z) fun _ => hZ
  have hi2 : iIndepFun (fun i g => -X i g) μ :=
    (fair_indep hU).comp (fun _ y => -Z y) fun _ => hZ.neg
  have hn' : (0 : ℝ) < n := by exact_mod_cast hn
  have hc : (((‖(1 : ℝ) - 0‖₊ / 2) ^ 2 : NNReal) : ℝ) = 1 / 4 := by
    norm_num
  have e1 : -(n * ε) ^ 2 / (2 * n * (1 / 4)) = -2 * n * ε ^ 2 := by
    field_simp
    ring
  have k1 := HasSubgaussianMGF.measure_sum_range_ge_le_of_iIndepFun hi1 (n := n) (fun i _ => hsub i) (ε := n * ε) (by positivity)
  have k2 := HasSubgaussianMGF.measure_sum_range_ge_le_of_iIndepFun hi2 (n := n) (fun i _ => hneg i) (ε := n * ε) (by positivity)
  rw [hc, e1] at k1 k2
  have hsum : ∀ g, ∑ i ∈ Finset.range n, X i g =
      n * ((∑ i ∈ Finset.range n, A.indicator (fun _ => (1 : ℝ)) (R.nthDraw i g)) / n - v) := fun g => by
    simp only [X, Z, Finset.sum_sub_distrib, Finset.sum_const, Finset.card_range, nsmul_eq_mul]
    field_simp
  refine (measureReal_mono (fun g hg => ?_) (measure_ne_top _ _)).trans
    ((measureReal_union_le _ _).trans ((add_le_add k1 k2).trans (two_mul _).ge))
  simp only [Set.mem_union, Set.mem_ofPred_eq, Finset.sum_neg_distrib, hsum] at hg ⊢
  rcases le_abs.1 hg with h | h
  · exact Or.inl (mul_le_mul_of_nonneg_left h hn'.le)
  · exact Or.inr (by rw [← mul_neg]; exact mul_le_mul_of_nonneg_left h hn'.le)

/-- **C136 (values).** Take a field, in every document, with values from a `Choice` of its own.  The
probability that the share of the value `x` in `n` documents is at least `ε` away from the share of its
weights is at most `2 exp (-2 n ε ^ 2)`. -/
theorem C136_values [MeasurableSpace R.G] (μ : Measure R.G) (hU : FairDraws R μ) {V : Ref → Val → Prop}
    (str : Val → List Char) {w : World R} {fields : Dict Ref} {name : String} {f e : Ref} {items : List Val}
    {ws : List ℝ} (h : DrawnField w fields name f e items ws) (hnn : ∀ x ∈ ws, 0 ≤ x)
    (ht : TypedOn V (fun _ => True) w) (fuel : Nat) {n : Nat} (hn : 0 < n) (docs : R.G → List (Dict Val))
    (hd : ∀ g, World.documents str fuel fields n (w.withGen e g) = (docs g).map .ok)
    (ho : ∀ g, OneEach name (docs g)) (x : Val) {ε : ℝ} (hε : 0 < ε) :
    μ.real {g | ε ≤ |shareWhere (fun d => d.get? name = some x) (docs g) - shareOf items ws x|} ≤
      2 * Real.exp (-2 * n * ε ^ 2) := by
  obtain ⟨kd, hk⟩ := h.picks.node
  refine le_of_eq_of_le ?_ (draws_far hU (hits_measurable (items := items) (ws := ws) x)
    (hits_volume h.picks.same.symm hnn h.picks.total x) hn hε)
  congr 1
  ext g
  simp only [Set.mem_ofPred_eq]
  have al := World.withGen_alike (w := w) (fun _ => rfl) hk g
  have hlen : (docs g).length = n := by
    have := World.documents_length str fuel fields n (w.withGen e g)
    rwa [hd, List.length_map] at this
  rw [shareWhere_eq _ (hits items ws x) (fun i => R.nthDraw i g), hlen]
  intro i d hi
  have := drawn_iff str (h.congr al) hnn (withGen_typed (r := e) g ht) (hd g) (ho g) x hi
  rwa [World.withGen_obj, if_pos rfl] at this

/-- **C136 (filled).** Take a field with the gate `chance(p)` and an emitter that never returns `None`.  The
probability that the share of the documents among `n` in which it is filled is at least `ε` away from `p` is
at most `2 exp (-2 n ε ^ 2)`. -/
theorem C136_filled [MeasurableSpace R.G] (μ : Measure R.G) (hU : FairDraws R μ) (str : Val → List Char)
    {w : World R} {fields : Dict Ref} {name : String} {f e rp g : Ref} {p : ℝ}
    (h : GateOf w fields name f e rp g p) (h0 : 0 ≤ p) (h1 : p ≤ 1) (he : NeverNone str w e) (fuel : Nat)
    {n : Nat} (hn : 0 < n) (docs : R.G → List (Dict Val))
    (hd : ∀ x, World.documents str fuel fields n (w.withGen g x) = (docs x).map .ok) {ε : ℝ} (hε : 0 < ε) :
    μ.real {x | ε ≤ |shareWhere (fun d => Filled d name) (docs x) - p|} ≤ 2 * Real.exp (-2 * n * ε ^ 2) := by
  obtain ⟨kd, hk⟩ := h.chance.node
  have hvol := gateDraws_volume h0 h1 true
  rw [if_pos rfl] at hvol
  refine le_of_eq_of_le ?_ (draws_far hU (gateDraws_measurable p true) hvol hn hε)
  congr 1
  ext x
  simp only [Set.mem_ofPred_eq]
  have al := World.withGen_alike (w := w) (fun _ => rfl) hk x
  have hlen : (docs x).length = n := by
    have := World.documents_length str fuel fields n (w.withGen g x)
    rwa [hd, List.length_map] at this
  rw [shareWhere_eq _ (gateDraws p true) (fun i => R.nthDraw i x), hlen]
  intro i d hi
  have := filled_iff (h.congr al) (he.congr al) (hd x) hi
  rw [World.withGen_obj, if_pos rfl] at this
  exact this

/-! ### Examples -/

/-- Among 10000 shirts the share of size S is between 45 and 55 percent but for a probability of at most
`2 exp (-50)`. -/
example : ∃ docs : replayRng.G → List (Dict Val),
    (∀ g, World.documents demoStr 5 shirtFields 10000 ((shirtWorld replayRng).withGen 4 g) = (docs g).map .ok) ∧
    replayMeasure.real {g | 1 / 20 ≤
      |shareWhere (fun d => d.get? "size" = some (.str ['S'])) (docs g) - 1 / 2|} ≤ 2 * Real.exp (-50) := by
  have hex := fun (g : replayRng.G) => shirt_documents demoStr 3 10000
    (World.withGen_alike (w := shirtWorld replayRng) (fun _ => rfl) (k := .list) (r := 4) rfl g)
  choose docs hd h1 h2 using hex
  refine ⟨docs, hd, ?_⟩
  have := C136_values replayMeasure replayRng_fair demoStr (shirt_size (R := replayRng))
    (by intro x hx; simp at hx; rcases hx with rfl | rfl <;> norm_num) shirt_typed 5 (by norm_num)
    docs hd h2 (.str ['S']) (ε := 1 / 20) (by norm_num)
  rw [show shareOf [Val.str ['S'], .str ['M'], .str ['L']] [2, 1, 1] (.str ['S']) = 1 / 2 by
    have hM : ¬ ('M' : Char) = 'S' := by decide
    have hL : ¬ ('L' : Char) = 'S' := by decide
    norm_num [shareOf, List.filter_cons, hM, hL]] at this
  refine this.trans (le_of_eq ?_)
  norm_num

/-- With the chance 1/3 the field `a` is in 30 to 37 percent of 9000 documents but for a probability of at
most `2 exp (-20)`. -/
example : ∃ docs : replayRng.G → List (Dict Val),
    (∀ x, World.documents demoStr 5 coinFields 9000 ((coinWorld replayRng (1 / 3) (1 / 2)).withGen 2 x) =
      (docs x).map .ok) ∧
    replayMeasure.real {x | 1 / 30 ≤ |shareWhere (fun d => Filled d "a") (docs x) - 1 / 3|} ≤
      2 * Real.exp (-20) := by
  have hex := fun (g : replayRng.G) => coin_documents demoStr 3 9000
    (World.withGen_alike (w := coinWorld replayRng (1 / 3) (1 / 2)) (fun _ => rfl) (k := .list) (r := 2) rfl g)
  choose docs hd using hex
  refine ⟨docs, hd, ?_⟩
  refine (C136_filled replayMeasure replayRng_fair demoStr (coin_a (R := replayRng) (p := 1 / 3) (q := 1 / 2))
    (by norm_num) (by norm_num) (coin_never_a demoStr) 5 (by norm_num) docs hd (ε := 1 / 30) (by norm_num)).trans
    (le_of_eq ?_)
  norm_num

end Fauxdoc
