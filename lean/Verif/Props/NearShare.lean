import Verif.Props.Binomial
import Mathlib.Probability.Moments.Variance
/-
C135: how near the shares are to the weights and chances after a given number of documents.
-/
set_option linter.unusedSectionVars false
namespace Fauxdoc
open MeasureTheory World ProbabilityTheory
variable {R : Rng ℝ}

/-- How far the share of the draws in a set can be from its length. -/
theorem draws_near [MeasurableSpace R.G] {μ : Measure R.G} (hU : FairDraws R μ) {A : Set ℝ}
    (hA : MeasurableSet A) {v : ℝ} (hv : (volume.restrict (Set.Ico (0 : ℝ) 1)).real A = v) {n : ℕ} (hn : 0 < n)
    {ε : ℝ} (hε : 0 < ε) :
    μ {g | ε ≤ |(∑ i ∈ Finset.range n, A.indicator (fun _ => (1 : ℝ)) (R.nthDraw i g)) / n - v|} ≤
      ENNReal.ofReal (v * (1 - v) / (n * ε ^ 2)) := by
  have hprob := fair_prob hU
  let X : ℕ → R.G → ℝ := fun i g => A.indicator (fun _ => (1 : ℝ)) (R.nthDraw i g)
  have hind : Measurable (A.indicator fun _ => (1 : ℝ)) := measurable_const.indicator hA
  have hXm : ∀ i, Measurable (X i) := fun i => hind.comp (fair_measurable hU i)
  have hXb : ∀ i g, ‖X i g‖ ≤ 1 := fun i g => by
    by_cases h : R.nthDraw i g ∈ A <;> simp [X, h]
  have hXL : ∀ i, MemLp (X i) 2 μ := fun i =>
    MemLp.of_bound (hXm i).aestronglyMeasurable 1 (ae_of_all _ (hXb i))
  have hmean : ∀ i, ∫ g, X i g ∂μ = v := fun i => by
    have h1 : X i = (R.nthDraw i ⁻¹' A).indicator fun _ => (1 : ℝ) := by
      ext g
      by_cases h : R.nthDraw i g ∈ A <;> simp [X, h]
    rw [h1, integral_indicator (fair_measurable hU i hA)]
    simp only [integral_const, smul_eq_mul, mul_one, measureReal_restrict_apply MeasurableSet.univ, Set.univ_inter]
    rw [← hv, Measure.real, Measure.real, ← Measure.map_apply (fair_measurable hU i) hA, fair_law hU]
  have hvar : ∀ i, variance (X i) μ = v * (1 - v) := fun i => by
    rw [variance_eq_sub (hXL i), hmean]
    have : X i ^ 2 = X i := by
      ext g
      by_cases h : R.nthDraw i g ∈ A <;> simp [X, h]
    rw [this, hmean]
    ring
  have hsum : variance (∑ i ∈ Finset.range n, X i) μ = n * (v * (1 - v)) := by
    rw [IndepFun.variance_sum (fun i _ => hXL i) fun i _ j _ hij =>
      ((fair_indep hU).indepFun hij).comp hind hind, Finset.sum_congr rfl fun i _ => hvar i]
    simp
  have hmeanS : ∫ g, (∑ i ∈ Finset.range n, X i) g ∂μ = n * v := by
    simp only [Finset.sum_apply]
    rw [integral_finsetSum _ fun i _ => (hXL i).integrable (by norm_num), Finset.sum_congr rfl fun i _ => hmean i]
    simp
  have hn' : (0 : ℝ) < n := by exact_mod_cast hn
  have key := meas_ge_le_variance_div_sq (μ := μ) (memLp_finsetSum' (Finset.range n) fun i _ => hXL i)
    (show (0 : ℝ) < n * ε by positivity)
  rw [hsum, hmeanS] at key
  have e1 : (n : ℝ) * (v * (1 - v)) / (n * ε) ^ 2 = v * (1 - v) / (n * ε ^ 2) := by
    field_simp
  rw [e1] at key
  refine le_trans (measure_mono fun g hg => ?_) key
  simp only [Set.mem_ofPred_eq] at hg ⊢
  have e2 : (∑ i ∈ Finset.range n, X i) g - n * v =
      n * ((∑ i ∈ Finset.range n, A.indicator (fun _ => (1 : ℝ)) (R.nthDraw i g)) / n - v) := by
    rw [Finset.sum_apply]
    field_simp
    rfl
  rw [e2, abs_mul, abs_of_pos hn']
  exact mul_le_mul_of_nonneg_left hg hn'.le

/-- **C135 (values).** Take a field, in every document, with values from a `Choice` of its own.  The
probability that the share of the value `x` in `n` documents is at least `ε` away from the share `q` of its
weights is at most `q (1 - q) / (n ε ^ 2)`. -/
theorem C135_values [MeasurableSpace R.G] (μ : Measure R.G) (hU : FairDraws R μ) {V : Ref → Val → Prop}
    (str : Val → List Char) {w : World R} {fields : Dict Ref} {name : String} {f e : Ref} {items : List Val}
    {ws : List ℝ} (h : DrawnField w fields name f e items ws) (hnn : ∀ x ∈ ws, 0 ≤ x)
    (ht : TypedOn V (fun _ => True) w) (fuel : Nat) {n : Nat} (hn : 0 < n) (docs : R.G → List (Dict Val))
    (hd : ∀ g, World.documents str fuel fields n (w.withGen e g) = (docs g).map .ok)
    (ho : ∀ g, OneEach name (docs g)) (x : Val) {ε : ℝ} (hε : 0 < ε) :
    μ {g | ε ≤ |shareWhere (fun d => d.get? name = some x) (docs g) - shareOf items ws x|} ≤
      ENNReal.ofReal (shareOf items ws x * (1 - shareOf items ws x) / (n * ε ^ 2)) := by
  obtain ⟨kd, hk⟩ := h.picks.node
  refine le_of_eq_of_le ?_ (draws_near hU (hits_measurable (items := items) (ws := ws) x)
    (hits_volume h.picks.same.symm hnn h.picks.total x) hn hε)
  congr 1
  ext g
  simp only [Set.mem_ofPred_eq]
  have al := World.withGen_alike (w := w) (fun _ => rfl) hk g
  have hlen : (docs g).length = n := by
    have := World.documents_length str fuel fields n (w.withGen e g)
    rwa [hd, List.length_map] at this
  rw [shareWhere_eq _ (hits items ws x) (fun i => R.nthDraw i g), hlen]
  intro i d hi
  have := drawn_iff str (h.congr al) hnn (withGen_typed (r := e) g ht) (hd g) (ho g) x hi
  rwa [World.withGen_obj, if_pos rfl] at this

/-- **C135 (filled).** Take a field with the gate `chance(p)` and an emitter that never returns `None`.  The
probability that the share of the documents among `n` in which it is filled is at least `ε` away from `p` is
at most `p (1 - p) / (n ε ^ 2)`. -/
theorem C135_filled [MeasurableSpace R.G] (μ : Measure R.G) (hU : FairDraws R μ) (str : Val → List Char)
    {w : World R} {fields : Dict Ref} {name : String} {f e rp g : Ref} {p : ℝ}
    (h : GateOf w fields name f e rp g p) (h0 : 0 ≤ p) (h1 : p ≤ 1) (he : NeverNone str w e) (fuel : Nat)
    {n : Nat} (hn : 0 < n) (docs : R.G → List (Dict Val))
    (hd : ∀ x, World.documents str fuel fields n (w.withGen g x) = (docs x).map .ok) {ε : ℝ} (hε : 0 < ε) :
    μ {x | ε ≤ |shareWhere (fun d => Filled d name) (docs x) - p|} ≤
      ENNReal.ofReal (p * (1 - p) / (n * ε ^ 2)) := by
  obtain ⟨kd, hk⟩ := h.chance.node
  have hvol := gateDraws_volume h0 h1 true
  rw [if_pos rfl] at hvol
  refine le_of_eq_of_le ?_ (draws_near hU (gateDraws_measurable p true) hvol hn hε)
  congr 1
  ext x
  simp only [Set.mem_ofPred_eq]
  have al := World.withGen_alike (w := w) (fun _ => rfl) hk x
  have hlen : (docs x).length = n := by
    have := World.documents_length str fuel fields n (w.withGen g x)
    rwa [hd, List.length_map] at this
  rw [shareWhere_eq _ (gateDraws p true) (fun i => R.nthDraw i x), hlen]
  intro i d hi
  have := filled_iff (h.congr al) (he.congr al) (hd x) hi
  rw [World.withGen_obj, if_pos rfl] at this
  exact this

/-! ### Examples -/

/-- Among 10000 shirts the share of size S is between 45 and 55 percent with the probability 99 percent. -/
example : ∃ docs : replayRng.G → List (Dict Val),
    (∀ g, World.documents demoStr 5 shirtFields 10000 ((shirtWorld replayRng).withGen 4 g) = (docs g).map .ok) ∧
    replayMeasure {g | 1 / 20 ≤ |shareWhere (fun d => d.get? "size" = some (.str ['S'])) (docs g) - 1 / 2|} ≤
      ENNReal.ofReal (1 / 100) := by
  have hex := fun (g : replayRng.G) => shirt_documents demoStr 3 10000
    (World.withGen_alike (w := shirtWorld replayRng) (fun _ => rfl) (k := .list) (r := 4) rfl g)
  choose docs hd h1 h2 using hex
  refine ⟨docs, hd, ?_⟩
  have := C135_values replayMeasure replayRng_fair demoStr (shirt_size (R := replayRng))
    (by intro x hx; simp at hx; rcases hx with rfl | rfl <;> norm_num) shirt_typed 5 (by norm_num)
    docs hd h2 (.str ['S']) (ε := 1 / 20) (by norm_num)
  rw [show shareOf [Val.str ['S'], .str ['M'], .str ['L']] [2, 1, 1] (.str ['S']) = 1 / 2 by
    have hM : ¬ ('M' : Char) = 'S' := by decide
    have hL : ¬ ('L' : Char) = 'S' := by decide
    norm_num [shareOf, List.filter_cons, hM, hL]] at this
  exact this.trans (ENNReal.ofReal_le_ofReal (by norm_num))

/-- With the chance 1/3 the field `a` is in 30 to 37 percent of 20000 documents with the probability 98
percent. -/
example : ∃ docs : replayRng.G → List (Dict Val),
    (∀ x, World.documents demoStr 5 coinFields 20000 ((coinWorld replayRng (1 / 3) (1 / 2)).withGen 2 x) =
      (docs x).map .ok) ∧
    replayMeasure {x | 1 / 30 ≤ |shareWhere (fun d => Filled d "a") (docs x) - 1 / 3|} ≤
      ENNReal.ofReal (1 / 50) := by
  have hex := fun (g : replayRng.G) => coin_documents demoStr 3 20000
    (World.withGen_alike (w := coinWorld replayRng (1 / 3) (1 / 2)) (fun _ => rfl) (k := .list) (r := 2) rfl g)
  choose docs hd using hex
  refine ⟨docs, hd, ?_⟩
  exact (C135_filled replayMeasure replayRng_fair demoStr (coin_a (R := replayRng) (p := 1 / 3) (q := 1 / 2))
    (by norm_num) (by norm_num) (coin_never_a demoStr) 5 (by norm_num) docs hd (ε := 1 / 30) (by norm_num)).trans
    (ENNReal.ofReal_le_ofReal (by norm_num))

end Fauxdoc
