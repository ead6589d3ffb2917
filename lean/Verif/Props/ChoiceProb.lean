import Verif.Props.Choice3
import Mathlib.MeasureTheory.Constructions.Pi
import Mathlib.MeasureTheory.Measure.Lebesgue.Basic
import Mathlib.Probability.ProductMeasure
import Mathlib.MeasureTheory.Function.Floor
import Mathlib.Algebra.Order.Floor.Ring
import Mathlib.Analysis.SpecialFunctions.Log.Basic
/-
C10 and C11 as statements about probability: if the generator's draws are independent and uniform on
[0, 1), weighted picks are independent and item `i` has probability `weights[i] / sum(weights)`.
-/
set_option linter.unusedSectionVars false
namespace Fauxdoc
open Choice MeasureTheory

section
variable {K : Type} [Field K] [LinearOrder K] {R : Rng K}

/-- The value of the `j`-th call of `random()` from state `g` (counting from 0). -/
def Rng.nthDraw (R : Rng K) : Nat → R.G → K
  | 0, g => (R.random g).1
  | j + 1, g => R.nthDraw j (R.random g).2

theorem rands_nthDraw (n : Nat) : ∀ (g : R.G), ∃ g', R.rands n g =
    (.ok (List.ofFn fun j : Fin n => R.nthDraw j g), g') := by
  induction n with
  | zero => exact fun g => ⟨g, rfl⟩
  | succ n ih =>
    intro g
    obtain ⟨g', h⟩ := ih (R.random g).2
    refine ⟨g', ?_⟩
    change (R.rand >>= fun u => R.rands n >>= fun us => pure (u :: us)) g = _
    rw [PyM.bind_ok (m := R.rand) (a := (R.random g).1) (s' := (R.random g).2) rfl, PyM.bind_ok h,
      List.ofFn_succ]
    rfl

theorem take_sum_mono [IsStrictOrderedRing K] (ws : List K) (hnn : ∀ w ∈ ws, 0 ≤ w) {i j : Nat}
    (h : i ≤ j) : (ws.take i).sum ≤ (ws.take j).sum := by
  induction j, h using Nat.le_induction with
  | base => exact le_rfl
  | succ j _ ih =>
    refine ih.trans ?_
    by_cases hj : j < ws.length
    · rw [take_succ_sum ws j hj]
      have : 0 ≤ ws.getD j 0 := by
        rw [List.getD_eq_getElem _ _ hj]; exact hnn _ (List.getElem_mem _)
      linarith
    · rw [List.take_of_length_le (by omega), List.take_of_length_le (by omega)]

theorem choicesPick_iff [IsStrictOrderedRing K] (ws : List K) (hne : ws ≠ [])
    (hnn : ∀ w ∈ ws, 0 ≤ w) (hpos : 0 < ws.sum) (u : K) (h0 : 0 ≤ u) (h1 : u < 1) (i : Nat) :
    choicesPick (accumulate ws) ws.sum u = i ↔
      (ws.take i).sum / ws.sum ≤ u ∧ u < (ws.take (i + 1)).sum / ws.sum := by
  obtain ⟨_, b, c⟩ := choicesPick_spec ws hne hpos u h0 h1
  rw [div_le_iff₀ hpos, lt_div_iff₀ hpos]
  constructor
  · rintro rfl; exact ⟨b, c⟩
  · rintro ⟨b', c'⟩
    rcases lt_trichotomy (choicesPick (accumulate ws) ws.sum u) i with h | h | h
    · have := take_sum_mono ws hnn (show choicesPick (accumulate ws) ws.sum u + 1 ≤ i from h)
      linarith
    · exact h
    · have := take_sum_mono ws hnn (show i + 1 ≤ choicesPick (accumulate ws) ws.sum u from h)
      linarith
end

variable {α : Type} [PyHash α] {R : Rng ℝ}

/-- The draws of the generator, started in a `μ`-random state, are independent and uniform on
`[0, 1)`. -/
def UniformDraws (R : Rng ℝ) [MeasurableSpace R.G] (μ : Measure R.G) (n : Nat) : Prop :=
  Measurable (fun g => fun j : Fin n => R.nthDraw j g) ∧
  μ.map (fun g => fun j : Fin n => R.nthDraw j g) =
    Measure.pi fun _ : Fin n => volume.restrict (Set.Ico (0 : ℝ) 1)

theorem nthDraw_mem (R : Rng ℝ) (j : Nat) : ∀ g, 0 ≤ R.nthDraw j g ∧ R.nthDraw j g < 1 := by
  induction j with
  | zero => exact fun g => ⟨R.random_nonneg g, R.random_lt_one g⟩
  | succ j ih => exact fun g => ih _

theorem ico_prob (ws : List ℝ) (hnn : ∀ w ∈ ws, 0 ≤ w) (hpos : 0 < ws.sum) (i : Nat)
    (hi : i < ws.length) :
    volume.restrict (Set.Ico (0 : ℝ) 1)
      (Set.Ico ((ws.take i).sum / ws.sum) ((ws.take (i + 1)).sum / ws.sum)) =
      ENNReal.ofReal (ws.getD i 0 / ws.sum) := by
  rw [Measure.restrict_apply measurableSet_Ico, Set.inter_eq_left.2, Real.volume_Ico,
    take_succ_sum ws i hi]
  · congr 1; ring
  · intro u hu
    have h0 : 0 ≤ (ws.take i).sum :=
      List.sum_nonneg fun w hw => hnn w (List.mem_of_mem_take hw)
    have h1 : (ws.take (i + 1)).sum ≤ ws.sum := by
      have := take_sum_mono ws hnn (show i + 1 ≤ ws.length from hi)
      rwa [List.take_length] at this
    refine ⟨le_trans (div_nonneg h0 hpos.le) hu.1, lt_of_lt_of_le hu.2 ?_⟩
    rw [div_le_one hpos]; exact h1

/-- **C10 (probability, independence).** In every reachable with-replacement state with non-negative
weights of positive total over pairwise different items: if the draws are independent and uniform,
the probability that `em(n)` returns the items at positions `is` is the product of
`weights[i] / sum(weights)`, i.e. picks are independent with exactly the requested
probabilities. -/
theorem C10_probability [MeasurableSpace R.G] (μ : Measure R.G) {items : List α}
    {s : ChoiceSt α R × Nat} (h : ChoiceReach R items s) (hr : s.1.replace = true) (n : Nat)
    (hU : UniformDraws R μ n) (hro : s.1.roac = true → n ≤ 1) (hl : items.length ≠ 1)
    (hnd : items.Nodup) {ws : List ℝ} (hw : s.1.weights = some ws) (hnn : ∀ w ∈ ws, 0 ≤ w)
    (hsum : 0 < ws.sum) (is : Fin n → Fin items.length) :
    μ {g | (call (some (n : Int)) ({ s.1 with rng := g }, s.2)).1 =
        .ok (List.ofFn fun j => items[is j])} =
      ∏ j, ENNReal.ofReal (ws.getD (is j) 0 / ws.sum) := by
  have hwf := reach_wf h
  have hlen : ws.length = items.length := by
    rcases hwf.weights with ⟨h0, _⟩ | ⟨ws', h1, h2, h3⟩
    · rw [hw] at h0; cases h0
    · rw [hw] at h1; cases h1; exact h3
  have hne : ws ≠ [] := by
    intro hx; rw [hx] at hlen; exact hwf.ne (List.length_eq_zero_iff.1 hlen.symm)
  have hset : {g | (call (some (n : Int)) ({ s.1 with rng := g }, s.2)).1 =
      .ok (List.ofFn fun j => items[is j])} =
      (fun g => fun j : Fin n => R.nthDraw j g) ⁻¹' (Set.univ.pi fun j =>
        Set.Ico ((ws.take (is j)).sum / ws.sum) ((ws.take (is j + 1)).sum / ws.sum)) := by
    ext g
    obtain ⟨us, g1, hd, hc, hul, hu⟩ := call_weighted (s := ({ s.1 with rng := g }, s.2))
      (hwf.rng g) hr (some n) hro hl hw hsum
    obtain ⟨g2, hd'⟩ := rands_nthDraw (R := R) n g
    have hd1 : R.rands n g = (.ok us, g1) := hd
    rw [hd'] at hd1
    have hus : us = List.ofFn fun j : Fin n => R.nthDraw j g := by cases hd1; rfl
    have hc1 : (call (some (n : Int)) ({ s.1 with rng := g }, s.2)).1 =
        .ok (pick items (us.map (choicesPick (accumulate ws) ws.sum))) := congrArg Prod.fst hc
    have hlt : ∀ j : Fin n, choicesPick (accumulate ws) ws.sum (R.nthDraw j g) < items.length := by
      intro j
      rw [← hlen]
      exact (choicesPick_spec ws hne hsum _ (nthDraw_mem R j g).1 (nthDraw_mem R j g).2).1
    have hp : pick items (us.map (choicesPick (accumulate ws) ws.sum)) =
        List.ofFn fun j : Fin n =>
          items[choicesPick (accumulate ws) ws.sum (R.nthDraw j g)]'(hlt j) := by
      have h1 := filterMap_positions items (us.map (choicesPick (accumulate ws) ws.sum)) (by
        intro i hi
        rw [hus] at hi
        simp only [List.map_ofFn, List.mem_ofFn, Function.comp] at hi
        obtain ⟨j, rfl⟩ := hi
        exact hlt j)
      apply List.map_injective_iff.2 (Option.some_injective α)
      refine Eq.trans h1 ?_
      rw [hus, List.map_ofFn, List.map_ofFn, List.map_ofFn]
      congr 1
      funext j
      simp only [Function.comp]
      exact List.getElem?_eq_getElem _
    simp only [Set.mem_ofPred_eq, Set.mem_preimage, Set.mem_univ_pi, Set.mem_Ico]
    rw [hc1, hp]
    simp only [Except.ok.injEq, List.ofFn_inj, funext_iff]
    refine forall_congr' fun j => ?_
    rw [← choicesPick_iff ws hne hnn hsum _ (nthDraw_mem R j g).1 (nthDraw_mem R j g).2]
    exact hnd.getElem_inj_iff
  rw [hset, ← Measure.map_apply hU.1 (MeasurableSet.univ_pi fun _ => measurableSet_Ico), hU.2,
    Measure.pi_pi]
  exact Finset.prod_congr rfl fun j _ => ico_prob ws hnn hsum _ (by rw [hlen]; exact (is j).2)

/-- **C11 (probability).** If the draw is uniform, `chance(p)()` is `True` with probability exactly
`p`, for every `p` between 0 and 1. -/
theorem C11_probability [MeasurableSpace R.G] (μ : Measure R.G) (hU : UniformDraws R μ 1) (p : ℝ)
    (_h0 : 0 ≤ p) (h1 : p ≤ 1) (seed : Option Int) (ent : Nat) :
    ∃ st ent', chance (R := R) p seed ent = (.ok st, ent') ∧
      μ {g | (call none ({ st with rng := g }, ent')).1 = .ok [true]} = ENNReal.ofReal p := by
  obtain ⟨st, ent', hc, hall⟩ := C11_chance (R := R) p seed ent
  refine ⟨st, ent', hc, ?_⟩
  have hset : {g | (call none ({ st with rng := g }, ent')).1 = .ok [true]} =
      (fun g => fun j : Fin 1 => R.nthDraw j g) ⁻¹' (Set.univ.pi fun _ => Set.Ico 0 p) := by
    ext g
    obtain ⟨us, g', hd, hul, hu, hcall⟩ := hall g none
    have hcall' : (call none ({ st with rng := g }, ent')).1 =
        .ok (us.map fun u => decide (u < p)) := congrArg Prod.fst hcall
    obtain ⟨g2, hd'⟩ := rands_nthDraw (R := R) 1 g
    have hd1 : R.rands 1 g = (.ok us, g') := hd
    rw [hd'] at hd1
    have hus : us = [R.nthDraw 0 g] := by cases hd1; rfl
    simp only [Set.mem_ofPred_eq, Set.mem_preimage, Set.mem_univ_pi, Set.mem_Ico]
    rw [hcall', hus]
    have := (nthDraw_mem R 0 g).1
    simp [this]
  rw [hset, ← Measure.map_apply hU.1 (MeasurableSet.univ_pi fun _ => measurableSet_Ico), hU.2,
    Measure.pi_pi]
  simp only [Finset.univ_unique, Finset.prod_singleton]
  rw [Measure.restrict_apply measurableSet_Ico, Set.inter_eq_left.2, Real.volume_Ico, sub_zero]
  exact fun u hu => ⟨hu.1, lt_of_lt_of_le hu.2 h1⟩

/-! ### The hypothesis is satisfiable

A generator that replays an infinite stream of numbers, started with a random stream. -/

/-- Replays `g 0, g 1, ...` (fractional parts). -/
noncomputable def replayRng : Rng ℝ where
  G := ℕ → ℝ
  ofSeed _ := fun _ => 1 / 2
  ofEntropy _ := fun _ => 1 / 2
  random g := (Int.fract (g 0), fun i => g (i + 1))
  randbelow n g := (⌊Int.fract (g 0) * n⌋.toNat, fun i => g (i + 1))
  sample n k g := ((List.range n).take k, fun i => g (i + 1))
  log := Real.log
  random_nonneg _ := Int.fract_nonneg _
  random_lt_one _ := Int.fract_lt_one _
  randbelow_lt n _ hn := Choice.floor_lt_of_draw _ n (Int.fract_nonneg _) (Int.fract_lt_one _) hn
  sample_length n k g h := by simp [h]
  sample_nodup n k g h := (List.take_sublist k _).nodup List.nodup_range
  sample_lt n k g h i hi := List.mem_range.1 (List.mem_of_mem_take hi)
  log_neg x h0 h1 := Real.log_neg h0 h1

theorem replayRng_nthDraw (j : Nat) : ∀ g : ℕ → ℝ, replayRng.nthDraw j g = Int.fract (g j) := by
  induction j with
  | zero => exact fun g => rfl
  | succ j ih => exact fun g => ih _

instance : MeasurableSpace replayRng.G := inferInstanceAs (MeasurableSpace (ℕ → ℝ))

instance uniform01 : IsProbabilityMeasure (volume.restrict (Set.Ico (0 : ℝ) 1)) :=
  ⟨by simp⟩

/-- Independent uniform numbers. -/
noncomputable def replayMeasure : Measure replayRng.G :=
  Measure.infinitePi fun _ : ℕ => volume.restrict (Set.Ico (0 : ℝ) 1)

theorem replayRng_uniform (n : Nat) : UniformDraws replayRng replayMeasure n := by
  have hfun : (fun (g : replayRng.G) => fun j : Fin n => replayRng.nthDraw j g) =
      fun (g : ℕ → ℝ) => fun j : Fin n => Int.fract (g j) := by
    funext g j; exact replayRng_nthDraw j g
  have hm : Measurable fun (g : ℕ → ℝ) => fun j : Fin n => Int.fract (g j) :=
    measurable_pi_lambda _ fun j => measurable_fract.comp (measurable_pi_apply _)
  suffices hmap : (Measure.infinitePi fun _ : ℕ => volume.restrict (Set.Ico (0 : ℝ) 1)).map
      (fun (g : ℕ → ℝ) => fun j : Fin n => Int.fract (g j)) =
      Measure.pi fun _ : Fin n => volume.restrict (Set.Ico (0 : ℝ) 1) from by
    refine ⟨by rw [hfun]; exact hm, ?_⟩
    rw [hfun]; exact hmap
  symm
  apply Measure.pi_eq
  intro s hs
  rw [Measure.map_apply hm (MeasurableSet.univ_pi hs)]
  have hset : (fun (g : ℕ → ℝ) => fun j : Fin n => Int.fract (g j)) ⁻¹' Set.univ.pi s =
      Set.pi (Finset.range n) fun j => if h : j < n then Int.fract ⁻¹' s ⟨j, h⟩ else Set.univ := by
    ext g
    simp only [Set.mem_preimage, Set.mem_pi, Finset.coe_range, Set.mem_Iio]
    constructor
    · intro h j hj
      rw [dif_pos hj]; exact h ⟨j, hj⟩ trivial
    · intro h j _
      have := h j j.2
      rw [dif_pos j.2] at this; exact this
  rw [hset]
  have := Measure.infinitePi_pi (μ := fun _ : ℕ => volume.restrict (Set.Ico (0 : ℝ) 1))
    (s := Finset.range n) (t := fun j => if h : j < n then Int.fract ⁻¹' s ⟨j, h⟩ else Set.univ)
    (by
      intro j hj
      have hj' : j < n := Finset.mem_range.1 hj
      simp only [dif_pos hj']
      exact measurable_fract (hs _))
  refine this.trans ?_
  rw [Finset.prod_range]
  refine Finset.prod_congr rfl fun j _ => ?_
  simp only [j.2, dif_pos]
  rw [Measure.restrict_apply (measurable_fract (hs j)), Measure.restrict_apply (hs j)]
  congr 1
  ext u
  simp only [Set.mem_inter_iff, Set.mem_preimage]
  constructor
  · rintro ⟨h1, h2⟩
    rw [Int.fract_eq_self.2 h2] at h1
    exact ⟨h1, h2⟩
  · rintro ⟨h1, h2⟩
    refine ⟨?_, h2⟩
    rw [Int.fract_eq_self.2 h2]; exact h1

/-- An instance of `C10_probability`: weights 1, 0, 3; the second item comes first never, the third
then the first with probability 3/4 * 1/4. -/
example : ∃ s : ChoiceSt Char replayRng × Nat, ChoiceReach replayRng ['a', 'b', 'c'] s ∧
    replayMeasure {g | (call (some 2) ({ s.1 with rng := g }, s.2)).1 = .ok ['c', 'a']} =
      ENNReal.ofReal (3 / 4) * ENNReal.ofReal (1 / 4) := by
  have hreach : ∃ st : ChoiceSt Char replayRng,
      Choice.init ['a', 'b', 'c'] (some [1, 0, 3]) true false (some 1) none 0 = (.ok st, 0) ∧
      st.weights = some [1, 0, 3] ∧ st.replace = true ∧ st.roac = false :=
    ⟨_, rfl, rfl, rfl, rfl⟩
  obtain ⟨st, h1, h2, h3, h4⟩ := hreach
  refine ⟨(st, 0), .init _ _ _ _ _ _ _ _ h1, ?_⟩
  have := C10_probability replayMeasure (.init _ _ _ _ _ _ _ _ h1) h3 2 (replayRng_uniform 2)
    (fun h => absurd (h4.symm.trans h) (by simp)) (by simp) (by decide) h2 (by
      intro w hw
      simp only [List.mem_cons, List.not_mem_nil, or_false] at hw
      rcases hw with rfl | rfl | rfl <;> norm_num) (by norm_num) ![2, 0]
  rw [Fin.prod_univ_two] at this
  norm_num at this ⊢
  exact this

end Fauxdoc
