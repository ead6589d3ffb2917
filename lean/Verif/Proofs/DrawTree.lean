import Verif.Props.ChoiceProb
/-
Programs that make weighted picks one after the other, each depending on the picks before, and the
probability of their results.
-/
set_option linter.unusedSectionVars false
namespace Fauxdoc
open MeasureTheory

/-- A program that stops or makes a weighted pick and goes on. -/
inductive DTree (ρ : Type) where
  | leaf (r : ρ)
  | draw (weights : List ℝ) (next : Nat → DTree ρ)

namespace DTree
variable {ρ : Type} [DecidableEq ρ]

/-- The result, given the numbers drawn. -/
noncomputable def eval : DTree ρ → (Nat → ℝ) → ρ
  | leaf r, _ => r
  | draw W next, u => (next (choicesPick (accumulate W) W.sum (u 0))).eval fun i => u (i + 1)

/-- The probability of a result: picks have probability weight / sum of weights. -/
noncomputable def prob (a : ρ) : DTree ρ → ℝ
  | leaf r => if r = a then 1 else 0
  | draw W next => ∑ i ∈ Finset.range W.length, W.getD i 0 / W.sum * (next i).prob a

/-- At most `N` picks, all with non-negative weights of positive sum. -/
def Good : Nat → DTree ρ → Prop
  | _, leaf _ => True
  | 0, draw _ _ => False
  | N + 1, draw W next => (∀ w ∈ W, 0 ≤ w) ∧ 0 < W.sum ∧ ∀ i, (next i).Good N

theorem Good.mono {t : DTree ρ} : ∀ {N M : Nat}, t.Good N → N ≤ M → t.Good M := by
  induction t with
  | leaf r => intro N M _ _; cases M <;> trivial
  | draw W next ih =>
    intro N M h hNM
    cases N with
    | zero => exact h.elim
    | succ N =>
      cases M with
      | zero => omega
      | succ M => exact ⟨h.1, h.2.1, fun i => ih i (h.2.2 i) (by omega)⟩

theorem eval_congr {t : DTree ρ} : ∀ {N : Nat} {u v : Nat → ℝ}, t.Good N → (∀ i < N, u i = v i) →
    t.eval u = t.eval v := by
  induction t with
  | leaf r => intros; rfl
  | draw W next ih =>
    intro N u v h huv
    cases N with
    | zero => exact h.elim
    | succ N =>
      rw [eval, eval, huv 0 (by omega)]
      exact ih _ (h.2.2 _) fun i hi => huv (i + 1) (by omega)

theorem prob_nonneg {t : DTree ρ} (a : ρ) : ∀ {N : Nat}, t.Good N → 0 ≤ t.prob a := by
  induction t with
  | leaf r => intro N _; rw [prob]; split <;> norm_num
  | draw W next ih =>
    intro N h
    cases N with
    | zero => exact h.elim
    | succ N =>
      rw [prob]
      refine Finset.sum_nonneg fun i hi => mul_nonneg (div_nonneg ?_ h.2.1.le) (ih i (h.2.2 i))
      rw [List.getD_eq_getElem _ _ (Finset.mem_range.1 hi)]
      exact h.1 _ (List.getElem_mem _)

/-- The numbers of `v`, then zeros. -/
def ext {N : Nat} (v : Fin N → ℝ) (i : Nat) : ℝ := if h : i < N then v ⟨i, h⟩ else 0

/-- The numbers in the unit cube that lead to a result. -/
def event (t : DTree ρ) (a : ρ) (N : Nat) : Set (Fin N → ℝ) :=
  {v | (∀ i, v i ∈ Set.Ico (0 : ℝ) 1) ∧ t.eval (ext v) = a}

theorem unit_eq (N : Nat) : {v : Fin N → ℝ | ∀ i, v i ∈ Set.Ico (0 : ℝ) 1} =
    Set.univ.pi fun _ => Set.Ico (0 : ℝ) 1 := by ext v; simp

theorem event_volume {t : DTree ρ} (a : ρ) : ∀ {N : Nat}, t.Good N →
    MeasurableSet (t.event a N) ∧ volume (t.event a N) = ENNReal.ofReal (t.prob a) := by
  induction t with
  | leaf r =>
    intro N _
    by_cases hr : r = a
    · have : (leaf r).event a N = Set.univ.pi fun _ => Set.Ico (0 : ℝ) 1 := by
        rw [← unit_eq]; ext v; simp [event, eval, hr]
      rw [this]
      refine ⟨MeasurableSet.univ_pi fun _ => measurableSet_Ico, ?_⟩
      rw [volume_pi_pi]
      simp [prob, hr]
    · have : (leaf r).event a N = ∅ := by ext v; simp [event, eval, hr]
      rw [this]
      exact ⟨MeasurableSet.empty, by simp [prob, hr]⟩
  | draw W next ih =>
    intro N h
    cases N with
    | zero => exact h.elim
    | succ N =>
      obtain ⟨hnn, hpos, hg⟩ := h
      have hne : W ≠ [] := by rintro rfl; simp at hpos
      have hset : (draw W next).event a (N + 1) =
          MeasurableEquiv.piFinSuccAbove (fun _ : Fin (N + 1) => ℝ) 0 ⁻¹'
            ⋃ i ∈ Finset.range W.length,
              (Set.Ico ((W.take i).sum / W.sum) ((W.take (i + 1)).sum / W.sum) ∩ Set.Ico 0 1) ×ˢ
                (next i).event a N := by
        ext v
        simp only [event, Set.mem_preimage, Set.mem_iUnion, Set.mem_prod, Set.mem_ofPred_eq,
          Finset.mem_range, Set.mem_inter_iff, exists_prop]
        change (_ ∧ (next (choicesPick (accumulate W) W.sum (v 0))).eval
          (fun i => ext v (i + 1)) = a) ↔ ∃ i, i < W.length ∧
            ((v 0 ∈ _ ∧ v 0 ∈ _) ∧ (∀ j, v (Fin.succ j) ∈ Set.Ico (0 : ℝ) 1) ∧
              (next i).eval (ext fun j : Fin N => v (Fin.succ j)) = a)
        have hext : (fun i => ext v (i + 1)) = ext fun j : Fin N => v (Fin.succ j) := by
          funext i
          unfold ext
          by_cases hi : i < N
          · rw [dif_pos hi, dif_pos (by omega)]; rfl
          · rw [dif_neg hi, dif_neg (by omega)]
        rw [hext]
        constructor
        · rintro ⟨h1, h2⟩
          have h0 := h1 0
          refine ⟨_, (choicesPick_spec W hne hpos (v 0) h0.1 h0.2).1, ⟨?_, h0⟩, fun j => h1 _, h2⟩
          exact (choicesPick_iff W hne hnn hpos (v 0) h0.1 h0.2 _).1 rfl
        · rintro ⟨i, hi, ⟨h1, h0⟩, h2, h3⟩
          have := (choicesPick_iff W hne hnn hpos (v 0) h0.1 h0.2 i).2 h1
          refine ⟨fun j => ?_, by rw [this]; exact h3⟩
          exact Fin.cases h0 h2 j
      have hm : ∀ i ∈ Finset.range W.length, MeasurableSet
          ((Set.Ico ((W.take i).sum / W.sum) ((W.take (i + 1)).sum / W.sum) ∩ Set.Ico 0 1) ×ˢ
            (next i).event a N) := fun i _ =>
        (measurableSet_Ico.inter measurableSet_Ico).prod (ih i (hg i)).1
      have hM := Finset.measurableSet_biUnion _ hm
      rw [hset]
      refine ⟨MeasurableEquiv.measurable _ hM, ?_⟩
      rw [(volume_preserving_piFinSuccAbove (fun _ : Fin (N + 1) => ℝ) 0).measure_preimage
        hM.nullMeasurableSet]
      change (volume.prod volume) _ = _
      rw [measure_biUnion_finset _ hm, prob, ENNReal.ofReal_sum_of_nonneg]
      · refine Finset.sum_congr rfl fun i hi => ?_
        have hi' := Finset.mem_range.1 hi
        rw [Measure.prod_prod, (ih i (hg i)).2, ← Measure.restrict_apply measurableSet_Ico,
          ico_prob W hnn hpos i hi', ENNReal.ofReal_mul]
        rw [List.getD_eq_getElem _ _ hi']
        exact div_nonneg (hnn _ (List.getElem_mem _)) hpos.le
      · intro i hi
        have hi' := Finset.mem_range.1 hi
        refine mul_nonneg ?_ (prob_nonneg a (hg i))
        rw [List.getD_eq_getElem _ _ hi']
        exact div_nonneg (hnn _ (List.getElem_mem _)) hpos.le
      · intro i _ j _ hij
        refine Set.disjoint_left.2 fun p h1 h2 => hij ?_
        have h0 := h1.1.2
        rw [← (choicesPick_iff W hne hnn hpos p.1 h0.1 h0.2 i).2 h1.1.1]
        exact (choicesPick_iff W hne hnn hpos p.1 h0.1 h0.2 j).2 h2.1.1

/-- With independent uniform draws, a result has its probability. -/
theorem measure_eval {R : Rng ℝ} [MeasurableSpace R.G] (μ : Measure R.G) {t : DTree ρ} {N : Nat}
    (ht : t.Good N) (hU : UniformDraws R μ N) (a : ρ) :
    μ {g | t.eval (fun i => R.nthDraw i g) = a} = ENNReal.ofReal (t.prob a) := by
  obtain ⟨hm, hv⟩ := event_volume a ht
  have hset : {g | t.eval (fun i => R.nthDraw i g) = a} =
      (fun g => fun j : Fin N => R.nthDraw j g) ⁻¹' t.event a N := by
    ext g
    have : t.eval (fun i => R.nthDraw i g) = t.eval (ext fun j : Fin N => R.nthDraw j g) :=
      eval_congr ht fun i hi => by rw [ext, dif_pos hi]
    simp only [event, Set.mem_preimage, Set.mem_ofPred_eq, this]
    exact ⟨fun h => ⟨fun i => nthDraw_mem R i g, h⟩, fun h => h.2⟩
  rw [hset, ← Measure.map_apply hU.1 hm, hU.2, ← hv, volume_pi, ← Measure.restrict_pi_pi,
    Measure.restrict_eq_self]
  intro v hv i _
  exact hv.1 i

end DTree
end Fauxdoc
