import Verif.Proofs.Shuffle
import Verif.Props.ChoiceProb
import Verif.Props.MathTools
/-
C70: if the generator's draws are independent and uniform on [0, 1), `weighted_shuffle` draws without
replacement exactly in proportion to the weights of what is left.
-/
set_option linter.unusedSectionVars false
namespace Fauxdoc
open MeasureTheory

/-- The probability of drawing values with the weights `ws` in this order, one after the other, from a
pool of the weight `total`: each time in proportion to the weights of what is left. -/
noncomputable def succProb (total : ℝ) : List ℝ → ℝ
  | [] => 1
  | w :: ws => w / total * succProb (total - w) ws

/-! ### Sorting -/

/-- `<` or `≤`. -/
def lessBy (strict : Bool) (a b : ℝ) : Prop := if strict then a < b else a ≤ b

theorem lessBy_trans {strict : Bool} {a b c : ℝ} (h1 : lessBy strict a b) (h2 : lessBy strict b c) :
    lessBy strict a c := by
  cases strict
  · exact le_trans (α := ℝ) h1 h2
  · exact lt_trans (α := ℝ) h1 h2

theorem sortDesc_sorted (l : List (ℝ × Nat)) :
    (sortDesc l).Pairwise fun a b => b.1 ≤ a.1 :=
  haveI : Std.Total fun a b : ℝ × Nat => a.1 ≥ b.1 := ⟨fun a b => le_total b.1 a.1⟩
  haveI : IsTrans (ℝ × Nat) fun a b => a.1 ≥ b.1 := ⟨fun _ _ _ h1 h2 => le_trans h2 h1⟩
  List.pairwise_insertionSort _ l

/-- A sorted list starts with elements that are strictly higher than all others. -/
theorem take_of_top : ∀ (l₁ l₂ m : List (ℝ × Nat)), m.Perm (l₁ ++ l₂) →
    m.Pairwise (fun a b => b.1 ≤ a.1) → l₁.Pairwise (fun a b => b.1 < a.1) →
    (∀ a ∈ l₁, ∀ b ∈ l₂, b.1 < a.1) → m.take l₁.length = l₁
  | [], _, _, _, _, _, _ => by simp
  | a :: l₁, l₂, m, hp, hm, h1, h2 => by
    rw [List.pairwise_cons] at h1
    have hlt : ∀ b ∈ l₁ ++ l₂, b.1 < a.1 := by
      intro b hb
      rcases List.mem_append.1 hb with hb | hb
      · exact h1.1 b hb
      · exact h2 a (by simp) b hb
    cases m with
    | nil => have := hp.length_eq; simp at this
    | cons b m =>
      rw [List.pairwise_cons] at hm
      have hba : b = a := by
        by_contra hne
        have hb : b ∈ l₁ ++ l₂ := by
          have := hp.mem_iff (a := b)
          simp only [List.mem_cons, true_or, List.cons_append, true_iff] at this
          exact this.resolve_left hne
        have ha : a ∈ m := by
          have := hp.mem_iff (a := a)
          simp only [List.mem_cons, List.cons_append, true_or, iff_true] at this
          exact this.resolve_left fun h => hne h.symm
        exact absurd (hm.1 a ha) (not_le.2 (hlt b hb))
      subst hba
      have hp' : m.Perm (l₁ ++ l₂) := by simpa using hp
      rw [List.length_cons, List.take_succ_cons,
        take_of_top l₁ l₂ m hp' hm.2 h1.2 fun a ha => h2 a (by simp [ha])]

/-- The positions `ps` have descending scores, all of `rest` lower ones. -/
def Tops (strict : Bool) (score : Nat → ℝ) (ps rest : List Nat) : Prop :=
  ps.Pairwise (fun p q => lessBy strict (score q) (score p)) ∧
    ∀ p ∈ ps, ∀ q ∈ rest, lessBy strict (score q) (score p)

/-- What sorting returns, given the scores. -/
noncomputable def topK (score : Nat → ℝ) (n k : Nat) : List Nat :=
  ((sortDesc ((List.range n).map fun i => (score i, i))).take k).map (·.2)

theorem topK_of_tops {score : Nat → ℝ} {n : Nat} {ps rest : List Nat}
    (hp : (ps ++ rest).Perm (List.range n)) (h : Tops true score ps rest) :
    topK score n ps.length = ps := by
  unfold topK
  have := take_of_top (ps.map fun i => (score i, i)) (rest.map fun i => (score i, i))
    (sortDesc ((List.range n).map fun i => (score i, i)))
    ((sortDesc_perm _).trans (by rw [← List.map_append]; exact (hp.map _).symm)) (sortDesc_sorted _)
    (List.pairwise_map.2 h.1) (by
      intro a ha b hb
      obtain ⟨p, hp, rfl⟩ := List.mem_map.1 ha
      obtain ⟨q, hq, rfl⟩ := List.mem_map.1 hb
      exact h.2 p hp q hq)
  rw [List.length_map] at this
  rw [this, List.map_map]
  exact List.map_id'' (fun _ => rfl) ps

theorem tops_of_topK {score : Nat → ℝ} {n k : Nat} {ps rest : List Nat}
    (hp : (ps ++ rest).Perm (List.range n)) (h : topK score n k = ps) : Tops false score ps rest := by
  unfold topK at h
  set m := sortDesc ((List.range n).map fun i => (score i, i)) with hm
  have hs := sortDesc_sorted ((List.range n).map fun i => (score i, i))
  rw [← hm] at hs
  have hpm : m.Perm ((List.range n).map fun i => (score i, i)) := sortDesc_perm _
  have hsc : ∀ a ∈ m, a = (score a.2, a.2) := by
    intro a ha
    obtain ⟨i, _, rfl⟩ := List.mem_map.1 (hpm.mem_iff.1 ha)
    rfl
  have h1 : m.take k = ps.map fun i => (score i, i) := by
    rw [← h, List.map_map]
    conv_lhs => rw [← List.map_id (m.take k)]
    exact List.map_congr_left fun a ha => hsc a (List.mem_of_mem_take ha)
  have h2 : (m.drop k).Perm (rest.map fun i => (score i, i)) := by
    have h3 : (m.take k ++ m.drop k).Perm
        ((ps.map fun i => (score i, i)) ++ rest.map fun i => (score i, i)) := by
      rw [List.take_append_drop, ← List.map_append]
      exact hpm.trans (hp.map _).symm
    rw [h1] at h3
    exact (List.perm_append_left_iff _).1 h3
  rw [← List.take_append_drop k m, List.pairwise_append, h1] at hs
  refine ⟨List.pairwise_map.1 hs.1, fun p hp q hq => ?_⟩
  exact hs.2.2 (score p, p) (List.mem_map.2 ⟨p, hp, rfl⟩) (score q, q)
    (h2.mem_iff.2 (List.mem_map.2 ⟨q, hq, rfl⟩))

/-! ### Chains are descending scores -/

theorem below_iff {strict : Bool} {t a x : ℝ} (ht : 0 < t) (ha : 0 < a) :
    x ∈ below strict (t ^ a) ↔ 0 < x ∧ lessBy strict (Real.log x / a) (Real.log t) := by
  have hta : 0 < t ^ a := Real.rpow_pos_of_pos ht a
  cases strict
  · simp only [below, lessBy, Bool.false_eq_true, if_false, Set.mem_Ioc]
    refine and_congr_right fun hx => ?_
    rw [← Real.log_le_log_iff hx hta, Real.log_rpow ht, div_le_iff₀ ha, mul_comm]
  · simp only [below, lessBy, if_true, Set.mem_Ioo]
    refine and_congr_right fun hx => ?_
    rw [← Real.log_lt_log_iff hx hta, Real.log_rpow ht, div_lt_iff₀ ha, mul_comm]

theorem chain_iff (strict : Bool) (k n : Nat) (w : Fin n → ℝ) (hw : ∀ i, 0 < w i) (t : ℝ)
    (ht : 0 < t) (v : Fin n → ℝ) :
    v ∈ Chain strict k n w t ↔
      (∀ i, 0 < v i ∧ lessBy strict (Real.log (v i) / w i) (Real.log t)) ∧
      ∀ i j : Fin n, i < j → (i : Nat) < k →
        lessBy strict (Real.log (v j) / w j) (Real.log (v i) / w i) := by
  induction k generalizing n t with
  | zero =>
    simp only [Chain, Set.mem_ofPred_eq, Nat.not_lt_zero, false_imp_iff, implies_true, and_true]
    exact forall_congr' fun i => below_iff ht (hw i)
  | succ k ih =>
    cases n with
    | zero => simp [Chain]
    | succ n =>
      simp only [Chain, Set.mem_ofPred_eq]
      rw [below_iff ht (hw 0)]
      by_cases h0 : 0 < v 0
      swap
      · exact ⟨fun h => absurd h.1.1 h0, fun h => absurd (h.1 0).1 h0⟩
      rw [ih n (Fin.tail w) (fun i => hw _) _ (Real.rpow_pos_of_pos h0 _) (Fin.tail v),
        Real.log_rpow h0, one_div_mul_eq_div]
      constructor
      · rintro ⟨⟨_, h1⟩, h2, h3⟩
        refine ⟨fun i => ?_, fun i j hij hik => ?_⟩
        · refine Fin.cases ⟨h0, h1⟩ (fun i => ?_) i
          exact ⟨(h2 i).1, lessBy_trans (h2 i).2 h1⟩
        · obtain ⟨j, rfl⟩ := Fin.exists_succ_eq.2 (Fin.ne_zero_of_lt hij)
          revert hij hik
          refine Fin.cases (fun _ _ => (h2 j).2) (fun i hik hij => ?_) i
          exact h3 i j (Fin.succ_lt_succ_iff.1 hij) (by simpa using hik)
      · rintro ⟨h1, h2⟩
        refine ⟨h1 0, fun i => ⟨(h1 i.succ).1, h2 0 i.succ (Fin.succ_pos i) (Nat.succ_pos k)⟩, ?_⟩
        intro i j hij hik
        exact h2 i.succ j.succ (Fin.succ_lt_succ_iff.2 hij) (by simpa using hik)

theorem chainProb_eq (k n : Nat) (w : Fin n → ℝ) :
    chainProb k n w = succProb (∑ i, w i) ((List.ofFn w).take k) := by
  induction k generalizing n with
  | zero => rfl
  | succ k ih =>
    cases n with
    | zero => rfl
    | succ n =>
      rw [chainProb, ih, List.ofFn_succ, List.take_succ_cons, succProb]
      congr 2
      rw [Fin.sum_univ_succ]
      simp [Fin.tail]

/-! ### Probabilities -/

theorem volume_reindex {n : Nat} (e : Fin n ≃ Fin n) {S : Set (Fin n → ℝ)} (hS : MeasurableSet S) :
    volume {u : Fin n → ℝ | (fun i => u (e i)) ∈ S} = volume S := by
  have h := (volume_measurePreserving_piCongrLeft (fun _ : Fin n => ℝ) e.symm).measure_preimage
    hS.nullMeasurableSet
  rw [← h]
  congr 1
  ext u
  simp only [Set.mem_ofPred_eq, Set.mem_preimage]
  have : (fun i => u (e i)) = MeasurableEquiv.piCongrLeft (fun _ : Fin n => ℝ) e.symm u := by
    funext i
    have := Equiv.piCongrLeft_apply_apply (P := fun _ : Fin n => ℝ) e.symm u (e i)
    rw [Equiv.symm_apply_apply] at this
    exact this.symm
  rw [this]

/-- The list as a permutation. -/
theorem exists_equiv {n : Nat} {l : List Nat} (hl : l.Perm (List.range n)) :
    ∃ e : Fin n ≃ Fin n, ∀ i : Fin n, l[(i : Nat)]? = some (e i : Nat) := by
  have hlen : l.length = n := by rw [hl.length_eq, List.length_range]
  have hmem : ∀ i : Fin n, l[(i : Nat)]'(by rw [hlen]; exact i.2) < n := fun i =>
    List.mem_range.1 (hl.mem_iff.1 (List.getElem_mem _))
  have hinj : Function.Injective fun i : Fin n =>
      (⟨l[(i : Nat)]'(by rw [hlen]; exact i.2), hmem i⟩ : Fin n) := by
    intro i j hij
    have hnd : l.Nodup := hl.nodup_iff.2 List.nodup_range
    exact Fin.ext ((hnd.getElem_inj_iff).1 (congrArg Fin.val hij))
  refine ⟨Equiv.ofBijective _ (Finite.injective_iff_bijective.1 hinj), fun i => ?_⟩
  rw [List.getElem?_eq_getElem (by rw [hlen]; exact i.2)]
  rfl

variable {R : Rng ℝ}

/-- The score of position `i`. -/
noncomputable def drawScore (R : Rng ℝ) (g : R.G) (ws : List ℝ) (i : Nat) : ℝ :=
  Real.log (R.nthDraw i g) / ws.getD i 0

theorem tops_iff {n : Nat} {strict : Bool} {score : Nat → ℝ} {ps rest : List Nat}
    {e : Fin n ≃ Fin n} (he : ∀ i : Fin n, (ps ++ rest)[(i : Nat)]? = some (e i : Nat))
    (hn : (ps ++ rest).length = n) :
    Tops strict score ps rest ↔ ∀ i j : Fin n, i < j → (i : Nat) < ps.length →
      lessBy strict (score (e j)) (score (e i)) := by
  have hge : ∀ i : Fin n, ∃ h : (i : Nat) < (ps ++ rest).length, (ps ++ rest)[(i : Nat)] = (e i : Nat) :=
    fun i => ⟨by rw [hn]; exact i.2, by
      have := he i
      rw [List.getElem?_eq_getElem (by rw [hn]; exact i.2)] at this
      exact Option.some.inj this⟩
  rw [List.length_append] at hn
  constructor
  · rintro ⟨h1, h2⟩ i j hij hi
    obtain ⟨hi', ei⟩ := hge i
    obtain ⟨hj', ej⟩ := hge j
    rw [← ei, ← ej, List.getElem_append_left hi]
    by_cases hj : (j : Nat) < ps.length
    · rw [List.getElem_append_left hj]
      exact List.pairwise_iff_getElem.1 h1 i j hi hj hij
    · rw [List.getElem_append_right (not_lt.1 hj)]
      exact h2 _ (List.getElem_mem _) _ (List.getElem_mem _)
  · intro h
    constructor
    · refine List.pairwise_iff_getElem.2 fun i j hi hj hij => ?_
      have := h ⟨i, by omega⟩ ⟨j, by omega⟩ hij hi
      rw [← (hge ⟨i, by omega⟩).2, ← (hge ⟨j, by omega⟩).2] at this
      rwa [List.getElem_append_left hi, List.getElem_append_left hj] at this
    · intro p hp q hq
      obtain ⟨i, hi, rfl⟩ := List.mem_iff_getElem.1 hp
      obtain ⟨j, hj, rfl⟩ := List.mem_iff_getElem.1 hq
      have := h ⟨i, by omega⟩ ⟨ps.length + j, by omega⟩ (by rw [Fin.lt_def]; simp; omega) hi
      rw [← (hge ⟨i, by omega⟩).2, ← (hge ⟨ps.length + j, by omega⟩).2] at this
      rw [List.getElem_append_left hi, List.getElem_append_right (by simp)] at this
      simpa using this

/-- An event that differs from "the positions `ps` have the highest scores, in this order" at most by
ties has the probability of successive draws. -/
theorem tops_prob [MeasurableSpace R.G] (μ : Measure R.G) (ws : List ℝ) (hpos : ∀ w ∈ ws, 0 < w)
    (hU : UniformDraws R μ ws.length) {ps rest : List Nat}
    (hp : (ps ++ rest).Perm (List.range ws.length)) (E : Set R.G)
    (hlow : ∀ g, (∀ i < ws.length, 0 < R.nthDraw i g) → Tops true (drawScore R g ws) ps rest → g ∈ E)
    (hup : ∀ g ∈ E, (∀ i < ws.length, 0 < R.nthDraw i g) ∧ Tops false (drawScore R g ws) ps rest) :
    μ E = ENNReal.ofReal (succProb ws.sum (ps.map (ws.getD · 0))) := by
  obtain ⟨e, he⟩ := exists_equiv hp
  have hn : (ps ++ rest).length = ws.length := by rw [hp.length_eq, List.length_range]
  set w : Fin ws.length → ℝ := fun i => ws.getD (e i) 0 with hw
  have hwe : ∀ i : Fin ws.length, ws.getD i 0 = ws[(i : Nat)] := fun i =>
    List.getD_eq_getElem _ _ i.2
  have hw0 : ∀ i, 0 < w i := fun i => by
    rw [hw]; simp only [hwe]; exact hpos _ (List.getElem_mem _)
  have hsum : ∑ i, w i = ws.sum := by
    rw [hw, Equiv.sum_comp e fun i : Fin ws.length => ws.getD i 0]
    simp only [hwe]
    exact Fin.sum_univ_getElem ws
  have hlist : (List.ofFn w).take ps.length = ps.map (ws.getD · 0) := by
    refine List.ext_getElem ?_ ?_
    · rw [List.length_append] at hn
      simp; omega
    · intro i h1 h2
      rw [List.length_map] at h2
      have h3 : i < ws.length := by rw [List.length_append] at hn; omega
      have := he ⟨i, h3⟩
      rw [List.getElem?_eq_getElem (by rw [hn]; exact h3), Option.some.injEq,
        List.getElem_append_left h2] at this
      simp only [List.getElem_take, List.getElem_ofFn, List.getElem_map, hw]
      rw [← this]
  have hvol : ∀ strict, volume {u : Fin ws.length → ℝ | (fun i => u (e i)) ∈
      Chain strict ps.length ws.length w 1} =
      ENNReal.ofReal (succProb ws.sum (ps.map (ws.getD · 0))) := by
    intro strict
    rw [volume_reindex e (chain_slice_measurable strict _ _ w 1), volume_chain strict _ _ w hw0 1
      one_pos, Real.one_rpow, mul_one, chainProb_eq, hsum, hlist]
  have hms : ∀ strict, MeasurableSet {u : Fin ws.length → ℝ | (fun i => u (e i)) ∈
      Chain strict ps.length ws.length w 1} := fun strict =>
    (measurable_pi_lambda _ fun i => measurable_pi_apply (e i) :
      Measurable fun u : Fin ws.length → ℝ => fun i => u (e i))
        (chain_slice_measurable strict _ _ w 1)
  have hiff : ∀ (strict : Bool) (g : R.G), (fun i : Fin ws.length => R.nthDraw (e i) g) ∈
      Chain strict ps.length ws.length w 1 ↔
      (∀ i : Fin ws.length, 0 < R.nthDraw (e i) g ∧
        lessBy strict (drawScore R g ws (e i)) 0) ∧ Tops strict (drawScore R g ws) ps rest := by
    intro strict g
    rw [chain_iff strict _ _ w hw0 1 one_pos, Real.log_one, tops_iff he hn]
    rfl
  have hdraw : ∀ strict, μ {g | (fun i : Fin ws.length => R.nthDraw (e i) g) ∈
      Chain strict ps.length ws.length w 1} = (Measure.pi fun _ : Fin ws.length =>
        volume.restrict (Set.Ico (0 : ℝ) 1)) {u : Fin ws.length → ℝ | (fun i => u (e i)) ∈
          Chain strict ps.length ws.length w 1} := by
    intro strict
    rw [← hU.2, Measure.map_apply hU.1 (hms strict)]
    rfl
  have hneg : ∀ (g : R.G) (i : Fin ws.length), 0 < R.nthDraw (e i) g →
      drawScore R g ws (e i) < 0 := fun g i h =>
    div_neg_of_neg_of_pos (Real.log_neg h (nthDraw_mem R _ g).2) (hw0 i)
  apply le_antisymm
  · calc μ E ≤ μ {g | (fun i : Fin ws.length => R.nthDraw (e i) g) ∈
          Chain false ps.length ws.length w 1} := by
          refine measure_mono fun g hg => (hiff false g).2 ?_
          obtain ⟨h1, h2⟩ := hup g hg
          exact ⟨fun i => ⟨h1 _ (e i).2, (hneg g i (h1 _ (e i).2)).le⟩, h2⟩
      _ = _ := hdraw false
      _ ≤ volume {u : Fin ws.length → ℝ | (fun i => u (e i)) ∈
          Chain false ps.length ws.length w 1} := by
          rw [volume_pi, ← Measure.restrict_pi_pi]
          exact Measure.restrict_apply_le _ _
      _ = _ := hvol false
  · calc _ = volume {u : Fin ws.length → ℝ | (fun i => u (e i)) ∈
          Chain true ps.length ws.length w 1} := (hvol true).symm
      _ = _ := by
          rw [volume_pi, ← Measure.restrict_pi_pi, Measure.restrict_eq_self]
          intro u hu i _
          have := ((chain_iff true _ _ w hw0 1 one_pos _).1 hu).1 (e.symm i)
          simp only [Equiv.apply_symm_apply] at this
          refine ⟨this.1.le, ?_⟩
          by_contra h1
          have h2 : 0 ≤ Real.log (u i) / w (e.symm i) :=
            div_nonneg (Real.log_nonneg (not_lt.1 h1)) (hw0 _).le
          have h3 := this.2
          simp only [lessBy, if_true, Real.log_one] at h3
          exact absurd h3 (not_lt.2 h2)
      _ = μ {g | (fun i : Fin ws.length => R.nthDraw (e i) g) ∈
          Chain true ps.length ws.length w 1} := (hdraw true).symm
      _ ≤ μ E := by
          refine measure_mono fun g hg => ?_
          obtain ⟨h1, h2⟩ := (hiff true g).1 hg
          refine hlow g (fun i hi => ?_) h2
          have := (h1 (e.symm ⟨i, hi⟩)).1
          rwa [Equiv.apply_symm_apply] at this

/-! ### The algorithm for large samples -/

theorem highKScores_draws : ∀ (ws : List ℝ), (∀ w ∈ ws, w ≠ 0) → ∀ g : R.G,
    ((∀ i < ws.length, 0 < R.nthDraw i g) → ∃ g', highKScores R ws g =
      (.ok ((List.range ws.length).map fun i => R.log (R.nthDraw i g) / ws.getD i 0), g')) ∧
    ((∃ i < ws.length, R.nthDraw i g = 0) → ∃ x g', highKScores R ws g = (.error x, g'))
  | [], _, g => ⟨fun _ => ⟨g, rfl⟩, fun ⟨i, hi, _⟩ => absurd hi (Nat.not_lt_zero i)⟩
  | w :: ws, hw, g => by
    obtain ⟨ih1, ih2⟩ := highKScores_draws ws (fun w' h => hw w' (by simp [h])) (R.random g).2
    have hr : R.rand g = (.ok (R.random g).1, (R.random g).2) := rfl
    unfold highKScores
    rw [PyM.bind_ok hr]
    constructor
    · intro h
      obtain ⟨g', h'⟩ := ih1 fun i hi => h (i + 1) (by simpa using hi)
      have h0 : (R.random g).1 ≠ 0 := (h 0 (by simp)).ne'
      refine ⟨g', ?_⟩
      rw [if_neg h0, if_neg (hw w (by simp)), PyM.bind_ok h', List.length_cons,
        List.range_succ_eq_map, List.map_cons, List.map_map]
      rfl
    · rintro ⟨i, hi, h⟩
      by_cases h0 : (R.random g).1 = 0
      · rw [if_pos h0]
        exact ⟨_, _, rfl⟩
      · rw [if_neg h0, if_neg (hw w (by simp))]
        cases i with
        | zero => exact absurd h h0
        | succ i =>
          obtain ⟨x, g', h'⟩ := ih2 ⟨i, by simpa using hi, h⟩
          exact ⟨x, g', PyM.bind_err h'⟩

/-- The generator uses the natural logarithm. -/
def NaturalLog (R : Rng ℝ) : Prop := ∀ x, 0 < x → x < 1 → R.log x = Real.log x

theorem highK_iff (hlog : NaturalLog R) (ws : List ℝ) (hpos : ∀ w ∈ ws, 0 < w) (k : Nat) (g : R.G)
    (ps : List Nat) : (highK R ws k g).1 = .ok ps ↔
      (∀ i < ws.length, 0 < R.nthDraw i g) ∧ topK (drawScore R g ws) ws.length k = ps := by
  obtain ⟨h1, h2⟩ := highKScores_draws ws (fun w hw => (hpos w hw).ne') g
  unfold highK
  by_cases h : ∀ i < ws.length, 0 < R.nthDraw i g
  · obtain ⟨g', h1⟩ := h1 h
    rw [PyM.bind_ok h1]
    have e : (((List.range ws.length).map fun i => R.log (R.nthDraw i g) / ws.getD i 0).zip
        (List.range ws.length)) = (List.range ws.length).map fun i => (drawScore R g ws i, i) := by
      have : ∀ l : List Nat, (∀ i ∈ l, i < ws.length) →
          (l.map fun i => R.log (R.nthDraw i g) / ws.getD i 0).zip l =
            l.map fun i => (drawScore R g ws i, i) := by
        intro l
        induction l with
        | nil => intro _; rfl
        | cons a l ih =>
          intro hl
          rw [List.map_cons, List.map_cons, List.zip_cons_cons, ih fun i hi => hl i (by simp [hi])]
          congr 2
          unfold drawScore
          rw [hlog _ (h a (hl a (by simp))) (nthDraw_mem R a g).2]
      exact this _ fun i hi => List.mem_range.1 hi
    rw [e]
    change Except.ok (topK (drawScore R g ws) ws.length k) = Except.ok ps ↔ _
    rw [Except.ok.injEq]
    exact ⟨fun e => ⟨h, e⟩, fun e => e.2⟩
  · have h' : ∃ i < ws.length, R.nthDraw i g = 0 := by
      simp only [not_forall, not_lt] at h
      obtain ⟨i, hi, h⟩ := h
      exact ⟨i, hi, le_antisymm h (nthDraw_mem R i g).1⟩
    obtain ⟨x, g', h2⟩ := h2 h'
    rw [PyM.bind_err h2]
    exact ⟨fun e => by simp at e, fun e => absurd e.1 h⟩

theorem perm_rest {n : Nat} {ps : List Nat} (hnd : ps.Nodup) (hlt : ∀ p ∈ ps, p < n) :
    (ps ++ (List.range n).filter fun i => i ∉ ps).Perm (List.range n) := by
  refine (List.perm_ext_iff_of_nodup ?_ List.nodup_range).2 fun a => ?_
  · refine List.Nodup.append hnd (List.nodup_range.filter _) fun a h1 h2 => ?_
    simpa [h1] using (List.mem_filter.1 h2).2
  · simp only [List.mem_append, List.mem_filter, List.mem_range, decide_eq_true_eq]
    constructor
    · rintro (h | h)
      · exact hlt a h
      · exact h.1
    · intro h
      by_cases ha : a ∈ ps
      · exact .inl ha
      · exact .inr ⟨h, ha⟩

theorem highK_prob [MeasurableSpace R.G] (μ : Measure R.G) (hlog : NaturalLog R) (ws : List ℝ)
    (hpos : ∀ w ∈ ws, 0 < w) (hU : UniformDraws R μ ws.length) {ps : List Nat} (hnd : ps.Nodup)
    (hlt : ∀ p ∈ ps, p < ws.length) :
    μ {g | (highK R ws ps.length g).1 = .ok ps} =
      ENNReal.ofReal (succProb ws.sum (ps.map (ws.getD · 0))) := by
  have hp := perm_rest hnd hlt
  refine tops_prob μ ws hpos hU hp _ (fun g h1 h2 => ?_) fun g hg => ?_
  · exact (highK_iff hlog ws hpos _ g ps).2 ⟨h1, topK_of_tops hp h2⟩
  · obtain ⟨h1, h2⟩ := (highK_iff hlog ws hpos _ g ps).1 hg
    exact ⟨h1, tops_of_topK hp h2⟩

end Fauxdoc
