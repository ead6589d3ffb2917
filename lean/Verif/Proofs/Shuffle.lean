import Mathlib.MeasureTheory.Constructions.Pi
import Mathlib.MeasureTheory.Measure.Lebesgue.Basic
import Mathlib.Analysis.SpecialFunctions.Integrals.Basic
/-
Volumes behind the probabilities of C70: the numbers `v` in the unit cube whose scores
`v i ^ (1 / w i)` are highest at position 0, second highest at position 1, and so on for the first `k`
positions.
-/
namespace Fauxdoc
open MeasureTheory

/-- `(0, a)` or `(0, a]`. -/
def below (strict : Bool) (a : ℝ) : Set ℝ := if strict then Set.Ioo 0 a else Set.Ioc 0 a

theorem below_measurable : ∀ strict : Bool,
    MeasurableSet {p : ℝ × ℝ | p.2 ∈ below strict p.1} := by
  rintro (_ | _)
  · simp only [below, Set.mem_Ioc, Bool.false_eq_true, if_false]
    exact (measurableSet_lt measurable_const measurable_snd).inter
      (measurableSet_le measurable_snd measurable_fst)
  · simp only [below, Set.mem_Ioo, if_true]
    exact (measurableSet_lt measurable_const measurable_snd).inter
      (measurableSet_lt measurable_snd measurable_fst)

theorem volume_below (strict : Bool) (a : ℝ) : volume (below strict a) = ENNReal.ofReal a := by
  cases strict <;> simp [below]

theorem restrict_below (strict : Bool) (a : ℝ) :
    volume.restrict (below strict a) = volume.restrict (Set.Ioc 0 a) := by
  cases strict
  · rfl
  · exact Measure.restrict_congr_set Ioo_ae_eq_Ioc

/-- The first `k` positions have descending scores, all others lower ones, all at most `t`. -/
def Chain (strict : Bool) : (k n : Nat) → (Fin n → ℝ) → ℝ → Set (Fin n → ℝ)
  | 0, _, w, t => {v | ∀ i, v i ∈ below strict (t ^ w i)}
  | _ + 1, 0, _, _ => Set.univ
  | k + 1, _ + 1, w, t => {v | v 0 ∈ below strict (t ^ w 0) ∧
      Fin.tail v ∈ Chain strict k _ (Fin.tail w) (v 0 ^ (1 / w 0))}

/-- The product of `w j / (w j + w (j + 1) + ...)` for the first `k` positions. -/
noncomputable def chainProb : (k n : Nat) → (Fin n → ℝ) → ℝ
  | 0, _, _ => 1
  | _ + 1, 0, _ => 1
  | k + 1, _ + 1, w => w 0 / (∑ i, w i) * chainProb k _ (Fin.tail w)

theorem chainProb_nonneg (k n : Nat) (w : Fin n → ℝ) (hw : ∀ i, 0 < w i) : 0 ≤ chainProb k n w := by
  induction k generalizing n with
  | zero => exact zero_le_one
  | succ k ih =>
    cases n with
    | zero => exact zero_le_one
    | succ n =>
      exact mul_nonneg (div_nonneg (hw 0).le (Finset.sum_nonneg fun i _ => (hw i).le))
        (ih n _ fun i => hw _)

theorem chain_measurable (strict : Bool) (k n : Nat) (w : Fin n → ℝ) :
    MeasurableSet {p : ℝ × (Fin n → ℝ) | p.2 ∈ Chain strict k n w p.1} := by
  induction k generalizing n with
  | zero =>
    have hs : {p : ℝ × (Fin n → ℝ) | p.2 ∈ Chain strict 0 n w p.1} =
        ⋂ i, {p | p.2 i ∈ below strict (p.1 ^ w i)} := by
      ext p; simp [Chain]
    rw [hs]
    refine MeasurableSet.iInter fun i => ?_
    have hm : Measurable fun p : ℝ × (Fin n → ℝ) => (p.1 ^ w i, p.2 i) :=
      (measurable_fst.pow_const _).prodMk ((measurable_pi_apply i).comp measurable_snd)
    exact hm (below_measurable strict)
  | succ k ih =>
    cases n with
    | zero => simp only [Chain, Set.mem_univ, Set.ofPred_true]; exact MeasurableSet.univ
    | succ n =>
      simp only [Chain, Set.mem_ofPred_eq]
      have hm : Measurable fun p : ℝ × (Fin (n + 1) → ℝ) => (p.1 ^ w 0, p.2 0) :=
        (measurable_fst.pow_const _).prodMk ((measurable_pi_apply 0).comp measurable_snd)
      have ht : Measurable fun p : ℝ × (Fin (n + 1) → ℝ) => (p.2 0 ^ (1 / w 0), Fin.tail p.2) := by
        refine (((measurable_pi_apply 0).comp measurable_snd).pow_const _).prodMk ?_
        exact measurable_pi_lambda _ fun i => (measurable_pi_apply (Fin.succ i)).comp measurable_snd
      exact (hm (below_measurable strict)).inter (ht (ih n (Fin.tail w)))

theorem chain_slice_measurable (strict : Bool) (k n : Nat) (w : Fin n → ℝ) (t : ℝ) :
    MeasurableSet (Chain strict k n w t) :=
  (measurable_const.prodMk measurable_id : Measurable fun v : Fin n → ℝ => (t, v))
    (chain_measurable strict k n w)

/-- The volume of a chain. -/
theorem volume_chain (strict : Bool) (k n : Nat) (w : Fin n → ℝ) (hw : ∀ i, 0 < w i) (t : ℝ)
    (ht : 0 < t) :
    volume (Chain strict k n w t) = ENNReal.ofReal (chainProb k n w * t ^ (∑ i, w i)) := by
  induction k generalizing n t with
  | zero =>
    have : Chain strict 0 n w t = Set.univ.pi fun i => below strict (t ^ w i) := by
      ext v; simp [Chain]
    rw [this, volume_pi_pi]
    simp only [volume_below, chainProb, one_mul]
    rw [← ENNReal.ofReal_prod_of_nonneg fun i _ => (Real.rpow_nonneg ht.le _),
      Real.rpow_sum_of_pos ht]
  | succ k ih =>
    cases n with
    | zero => simp [Chain, chainProb, volume_pi]
    | succ n =>
      set W' : ℝ := ∑ i, Fin.tail w i with hW'
      set C : ℝ := chainProb k n (Fin.tail w) with hC
      have hW : ∑ i, w i = w 0 + W' := by rw [Fin.sum_univ_succ]; rfl
      have hW'0 : 0 ≤ W' := Finset.sum_nonneg fun i _ => (hw _).le
      have hC0 : 0 ≤ C := chainProb_nonneg k n _ fun i => hw _
      have e := (volume_preserving_piFinSuccAbove (fun _ : Fin (n + 1) => ℝ) 0)
      have hset : Chain strict (k + 1) (n + 1) w t =
          MeasurableEquiv.piFinSuccAbove (fun _ : Fin (n + 1) => ℝ) 0 ⁻¹'
            {p | p.1 ∈ below strict (t ^ w 0) ∧
              p.2 ∈ Chain strict k n (Fin.tail w) (p.1 ^ (1 / w 0))} := by
        ext v
        rfl
      have hmeas : MeasurableSet {p : ℝ × (Fin n → ℝ) | p.1 ∈ below strict (t ^ w 0) ∧
          p.2 ∈ Chain strict k n (Fin.tail w) (p.1 ^ (1 / w 0))} := by
        have hm : Measurable fun p : ℝ × (Fin n → ℝ) => (t ^ w 0, p.1) :=
          measurable_const.prodMk measurable_fst
        have hm' : Measurable fun p : ℝ × (Fin n → ℝ) => (p.1 ^ (1 / w 0), p.2) :=
          (measurable_fst.pow_const _).prodMk measurable_snd
        exact (hm (below_measurable strict)).inter (hm' (chain_measurable strict k n _))
      rw [hset, e.measure_preimage hmeas.nullMeasurableSet]
      change (volume.prod volume) _ = _
      rw [Measure.prod_apply hmeas]
      have hb : MeasurableSet (below strict (t ^ w 0)) :=
        (measurable_const.prodMk measurable_id : Measurable fun x : ℝ => (t ^ w 0, x))
          (below_measurable strict)
      have hslice : ∀ x, volume (Prod.mk x ⁻¹' {p : ℝ × (Fin n → ℝ) | p.1 ∈ below strict (t ^ w 0) ∧
          p.2 ∈ Chain strict k n (Fin.tail w) (p.1 ^ (1 / w 0))}) =
          (below strict (t ^ w 0)).indicator
            (fun x => ENNReal.ofReal (C * x ^ (W' / w 0))) x := by
        intro x
        by_cases hx : x ∈ below strict (t ^ w 0)
        · have hx0 : 0 < x := by cases strict <;> simp [below] at hx <;> exact hx.1
          rw [Set.indicator_of_mem hx]
          have : (Prod.mk x ⁻¹' {p : ℝ × (Fin n → ℝ) | p.1 ∈ below strict (t ^ w 0) ∧
              p.2 ∈ Chain strict k n (Fin.tail w) (p.1 ^ (1 / w 0))}) =
              Chain strict k n (Fin.tail w) (x ^ (1 / w 0)) := by
            ext v; simp [hx]
          rw [this, ih n (Fin.tail w) (fun i => hw _) _ (Real.rpow_pos_of_pos hx0 _),
            ← Real.rpow_mul hx0.le]
          congr 3
          ring
        · rw [Set.indicator_of_notMem hx]
          have : (Prod.mk x ⁻¹' {p : ℝ × (Fin n → ℝ) | p.1 ∈ below strict (t ^ w 0) ∧
              p.2 ∈ Chain strict k n (Fin.tail w) (p.1 ^ (1 / w 0))}) = ∅ := by
            ext v; simp [hx]
          rw [this, measure_empty]
      simp only [hslice]
      rw [lintegral_indicator hb, restrict_below]
      have hr : (-1 : ℝ) < W' / w 0 := lt_of_lt_of_le (by norm_num) (div_nonneg hW'0 (hw 0).le)
      have htw : 0 < t ^ w 0 := Real.rpow_pos_of_pos ht _
      rw [← ofReal_integral_eq_lintegral_ofReal]
      · congr 1
        rw [← intervalIntegral.integral_of_le htw.le, intervalIntegral.integral_const_mul,
          integral_rpow (.inl hr), Real.zero_rpow (by linarith), sub_zero, ← Real.rpow_mul ht.le]
        rw [chainProb, hW, ← hC]
        have h0 := (hw 0).ne'
        have h1 : w 0 * (W' / w 0 + 1) = w 0 + W' := by field_simp; ring
        rw [h1]
        have h2 : W' / w 0 + 1 = (w 0 + W') / w 0 := by field_simp; ring
        rw [h2]
        have h3 : w 0 + W' ≠ 0 := by have := hw 0; positivity
        field_simp
      · have := (intervalIntegral.intervalIntegrable_rpow' (a := 0) (b := t ^ w 0) hr).const_mul C
        rwa [intervalIntegrable_iff_integrableOn_Ioc_of_le htw.le] at this
      · refine (ae_restrict_iff' measurableSet_Ioc).2 (.of_forall fun x hx => ?_)
        exact mul_nonneg hC0 (Real.rpow_nonneg hx.1.le _)

end Fauxdoc
