import Verif.Proofs.Markov
/-
Draws with weights, `weighted_shuffle` and how many draws they take.
-/
set_option linter.unusedSectionVars false
namespace Fauxdoc
open MeasureTheory
variable {R : Rng ℝ}

/-! ### Trees -/

namespace DTree
variable {ρ : Type} [DecidableEq ρ]

/-- The number of draws. -/
noncomputable def depth : DTree ρ → (Nat → ℝ) → Nat
  | leaf _, _ => 0
  | draw W next, u => (next (choicesPick (accumulate W) W.sum (u 0))).depth (fun i => u (i + 1)) + 1

/-- The numbers that lead to `a` with `m` draws. -/
def stopSet (a : ρ) : DTree ρ → Nat → Set (ℕ → ℝ)
  | leaf r, 0 => {_u | r = a}
  | leaf _, _ + 1 => ∅
  | draw _ _, 0 => ∅
  | draw W next, m + 1 => {u | ∃ i, i < W.length ∧
      u 0 ∈ Set.Ico ((W.take i).sum / W.sum) ((W.take (i + 1)).sum / W.sum) ∩ Set.Ico 0 1 ∧
      dropFirst 1 u ∈ (next i).stopSet a m}

theorem stopSet_settled (a : ρ) (t : DTree ρ) : ∀ m, Settled m (t.stopSet a m) := by
  induction t with
  | leaf r =>
    intro m
    cases m with
    | zero =>
      refine ⟨?_, fun _ _ _ h => h⟩
      by_cases h : r = a <;> simp [stopSet, h]
    | succ m => exact ⟨MeasurableSet.empty, fun _ _ _ h => h⟩
  | draw W next ih =>
    intro m
    cases m with
    | zero => exact ⟨MeasurableSet.empty, fun _ _ _ h => h⟩
    | succ m =>
      constructor
      · have e : (draw W next).stopSet a (m + 1) = ⋃ i, ⋃ _ : i < W.length,
            ((fun u : ℕ → ℝ => u 0) ⁻¹' (Set.Ico ((W.take i).sum / W.sum) ((W.take (i + 1)).sum / W.sum) ∩
              Set.Ico 0 1)) ∩ dropFirst 1 ⁻¹' (next i).stopSet a m := by
          ext u
          simp only [stopSet, Set.mem_ofPred_eq, Set.mem_iUnion, Set.mem_inter_iff, Set.mem_preimage,
            exists_prop]
        rw [e]
        exact MeasurableSet.iUnion fun i => MeasurableSet.iUnion fun _ =>
          ((measurableSet_Ico.inter measurableSet_Ico).preimage (measurable_pi_apply 0)).inter
            ((ih i m).1.preimage (measurable_dropFirst 1))
      · rintro u v huv ⟨i, hi, h0, h1⟩
        refine ⟨i, hi, ?_, (ih i m).2 _ _ (fun j hj => huv (j + 1) (by omega)) h1⟩
        rw [← huv 0 (by omega)]
        exact h0

theorem mem_stopSet (a : ρ) (t : DTree ρ) : ∀ (N : ℕ) (u : ℕ → ℝ) (m : ℕ), t.Good N →
    (∀ i, 0 ≤ u i ∧ u i < 1) → (u ∈ t.stopSet a m ↔ t.eval u = a ∧ t.depth u = m) := by
  induction t with
  | leaf r =>
    intro N u m _ _
    cases m with
    | zero => simp [stopSet, eval, depth]
    | succ m => simp [stopSet, eval, depth]
  | draw W next ih =>
    intro N u m hg hu
    cases N with
    | zero => exact hg.elim
    | succ N =>
      obtain ⟨hnn, hpos, hg⟩ := hg
      have hne : W ≠ [] := by rintro rfl; simp at hpos
      cases m with
      | zero => simp [stopSet, depth]
      | succ m =>
        have hiff := choicesPick_iff W hne hnn hpos (u 0) (hu 0).1 (hu 0).2
        have hrest : ∀ i, dropFirst 1 u ∈ (next i).stopSet a m ↔ (next i).eval (dropFirst 1 u) = a ∧
            (next i).depth (dropFirst 1 u) = m := fun i => ih i N _ m (hg i) fun j => hu (j + 1)
        rw [eval, depth, Nat.add_right_cancel_iff]
        constructor
        · rintro ⟨i, hi, ⟨h0, _⟩, h1⟩
          have e := (hiff i).2 h0
          rw [e]
          exact (hrest i).1 h1
        · intro h
          exact ⟨_, (choicesPick_spec W hne hpos (u 0) (hu 0).1 (hu 0).2).1,
            ⟨(hiff _).1 rfl, hu 0⟩, (hrest _).2 h⟩

end DTree

theorem roundTree_depth (W : List ℝ) (c : List ℝ → List Nat → LTree) (m : Nat) :
    ∀ (ws : List ℝ) (s : List Nat) (u : Nat → ℝ),
    (roundTree W c m ws s).depth u =
      (c (lowKScan ((List.range m).map fun j => choicesPick (accumulate W) W.sum (u j)) ws s).1
        (lowKScan ((List.range m).map fun j => choicesPick (accumulate W) W.sum (u j)) ws s).2).depth
          (fun i => u (i + m)) + m := by
  induction m with
  | zero => intro ws s u; rfl
  | succ m ih =>
    intro ws s u
    rw [roundTree, DTree.depth, List.range_succ_eq_map, List.map_cons, List.map_map, lowKScan]
    have hs : ∀ ws s, (roundTree W c m ws s).depth (fun i => u (i + 1)) = _ := fun ws s =>
      ih ws s fun i => u (i + 1)
    by_cases h : ws.getD (choicesPick (accumulate W) W.sum (u 0)) 0 ≠ 0
    · rw [if_pos h, if_pos h, hs]
      simp only [Function.comp_def, Nat.succ_eq_add_one, Nat.add_assoc]
    · rw [if_neg h, if_neg h, hs]
      simp only [Function.comp_def, Nat.succ_eq_add_one, Nat.add_assoc]

theorem lowTree_depth {k : Nat} {ws0 : List ℝ} (hnn : ∀ w ∈ ws0, 0 ≤ w)
    (hk : k ≤ (ws0.filter (0 < ·)).length) :
    ∀ (fuel : Nat) (ws : List ℝ) (s : List Nat) (g : R.G), LowInv ws0 ws s → s.length ≤ k →
    (lowK R ws0.length k fuel ws s g).2 = R.after ((lowTree k fuel ws s).depth (R.stream g)) g := by
  intro fuel
  induction fuel with
  | zero => intros; rfl
  | succ fuel ih =>
    intro ws s g hinv hs
    rw [lowK, lowTree]
    by_cases h0 : s.length = k
    · rw [if_pos (by omega), if_pos h0]; rfl
    · rw [if_neg (by omega), if_neg h0]
      have hsum := hinv.sum_pos hnn (by omega)
      have hne : ws ≠ [] := by rintro rfl; simp at hsum
      obtain ⟨us, g1, hr, hl, hu, hc⟩ := choicesCum_ok R ws hne hsum ((k : Int) - (s.length : Int)) g
      rw [hinv.len] at hc
      rw [PyM.bind_ok hc]
      rw [rands_after] at hr
      have e : ((k : Int) - (s.length : Int)).toNat = k - s.length := by omega
      rw [e] at hr hl
      cases hr
      rw [roundTree_depth]
      simp only [List.map_map, Function.comp_def]
      obtain ⟨a, b, c⟩ := lowKScan_inv ((List.range (k - s.length)).map fun j =>
        choicesPick (accumulate ws) ws.sum (R.nthDraw j g)) hinv
      simp only [List.length_map, List.length_range] at b
      rw [ih _ _ _ a (by omega), after_add, stream_after, Nat.add_comm]
      rfl

theorem stream_unit (g : R.G) (i : ℕ) : 0 ≤ R.stream g i ∧ R.stream g i < 1 := nthDraw_mem R i g

/-- The algorithm for small samples. -/
theorem lowK_stops {k : Nat} {ws : List ℝ} (hnn : ∀ w ∈ ws, 0 ≤ w)
    (hk : k ≤ (ws.filter (0 < ·)).length) (ps : List Nat) :
    Stops {g : R.G | (lowK R ws.length k (k + 1) ws [] g).1 = .ok ps}
      (fun g => (lowK R ws.length k (k + 1) ws [] g).2)
      ((lowTree k (k + 1) ws []).stopSet (.ok ps)) := by
  have hgood := lowTree_good hnn hk (k + 1) ws [] (LowInv.start ws) (Nat.zero_le _)
  have hmem := fun (g : R.G) m => DTree.mem_stopSet (.ok ps) (lowTree k (k + 1) ws []) _ (R.stream g) m hgood
    (stream_unit g)
  have he := fun g : R.G => lowTree_eval (R := R) hnn hk (k + 1) ws [] g (LowInv.start ws) (Nat.zero_le _)
  have hd := fun g : R.G => lowTree_depth (R := R) hnn hk (k + 1) ws [] g (LowInv.start ws) (Nat.zero_le _)
  constructor
  · exact DTree.stopSet_settled _ _
  · intro g
    simp only [hmem, Set.mem_ofPred_eq, he]
    exact ⟨fun h => ⟨_, h, rfl⟩, fun ⟨_, h, _⟩ => h⟩
  · intro g m h
    rw [hd, ((hmem g m).1 h).2]
  · intro g m m' h h'
    rw [← ((hmem g m).1 h).2, ((hmem g m').1 h').2]

/-! ### Draws with replacement -/

theorem choices_stops {ws : List ℝ} (hne : ws ≠ []) (hnn : ∀ w ∈ ws, 0 ≤ w) (hpos : 0 < ws.sum)
    (ps : List Nat) : ∃ S, Stops {g : R.G | (R.choicesCum ws.length (accumulate ws) ps.length g).1 = .ok ps}
      (fun g => (R.choicesCum ws.length (accumulate ws) ps.length g).2) S := by
  have hrun : ∀ g : R.G, R.choicesCum ws.length (accumulate ws) ps.length g =
      (.ok ((List.range ps.length).map fun j => choicesPick (accumulate ws) ws.sum (R.stream g j)),
        R.after ps.length g) := by
    intro g
    obtain ⟨us, g1, hr, hl, hu, hc⟩ := choicesCum_ok R ws hne hpos (ps.length : Int) g
    rw [rands_after, Int.toNat_natCast] at hr
    cases hr
    rw [hc, List.map_map]
    rfl
  refine ⟨_, Stops.fixed (n := ps.length) (S := {u | ∀ j (h : j < ps.length), u j ∈
    Set.Ico ((ws.take ps[j]).sum / ws.sum) ((ws.take (ps[j] + 1)).sum / ws.sum)}) ⟨?_, ?_⟩ ?_ ?_⟩
  · have e : {u : ℕ → ℝ | ∀ j (h : j < ps.length), u j ∈
        Set.Ico ((ws.take ps[j]).sum / ws.sum) ((ws.take (ps[j] + 1)).sum / ws.sum)} =
        ⋂ j, ⋂ h : j < ps.length, (fun u : ℕ → ℝ => u j) ⁻¹'
          Set.Ico ((ws.take ps[j]).sum / ws.sum) ((ws.take (ps[j] + 1)).sum / ws.sum) := by
      ext u
      simp only [Set.mem_ofPred_eq, Set.mem_iInter, Set.mem_preimage]
    rw [e]
    exact MeasurableSet.iInter fun j => MeasurableSet.iInter fun h =>
      measurableSet_Ico.preimage (measurable_pi_apply j)
  · intro u v huv h j hj
    rw [← huv j hj]
    exact h j hj
  · intro g
    simp only [Set.mem_ofPred_eq, hrun, Except.ok.injEq]
    have hiff := fun j => choicesPick_iff ws hne hnn hpos (R.stream g j) (stream_unit g j).1 (stream_unit g j).2
    constructor
    · intro h j hj
      refine (hiff j _).1 ?_
      have := congrArg (fun l => l[j]?) h
      simpa [hj] using this
    · intro h
      refine List.ext_getElem (by simp) fun j h1 h2 => ?_
      simp only [List.getElem_map, List.getElem_range]
      exact (hiff j _).2 (h j h2)
  · intro g _
    rw [hrun]

/-! ### The algorithm for large samples -/

theorem orderedInsert_same {r s : ℕ → ℕ → Prop} [DecidableRel r] [DecidableRel s] (a : ℕ) :
    ∀ l : List ℕ, (∀ b ∈ l, r a b ↔ s a b) → l.orderedInsert r a = l.orderedInsert s a
  | [], _ => rfl
  | b :: l, h => by
    have hb := h b (by simp)
    simp only [List.orderedInsert]
    by_cases h1 : r a b
    · rw [if_pos h1, if_pos (hb.1 h1)]
    · rw [if_neg h1, if_neg (fun h2 => h1 (hb.2 h2)),
        orderedInsert_same a l fun c hc => h c (List.mem_cons_of_mem _ hc)]

theorem insertionSort_same {r s : ℕ → ℕ → Prop} [DecidableRel r] [DecidableRel s] :
    ∀ l : List ℕ, (∀ a ∈ l, ∀ b ∈ l, r a b ↔ s a b) → l.insertionSort r = l.insertionSort s
  | [], _ => rfl
  | a :: l, h => by
    have ih := insertionSort_same l fun x hx y hy => h x (by simp [hx]) y (by simp [hy])
    simp only [List.insertionSort_cons]
    rw [← ih]
    refine orderedInsert_same a _ fun b hb => h a (by simp) b ?_
    exact List.mem_cons_of_mem _ ((List.perm_insertionSort r l).mem_iff.1 hb)

theorem topK_order (score : ℕ → ℝ) (n k : ℕ) :
    topK score n k = ((List.range n).insertionSort fun i j => score i ≥ score j).take k := by
  unfold topK sortDesc
  rw [← List.map_insertionSort (r := fun i j => score i ≥ score j) (s := fun a b : ℝ × ℕ => a.1 ≥ b.1)
    (fun i => (score i, i)) (List.range n) (fun _ _ _ _ => Iff.rfl), ← List.map_take, List.map_map]
  exact List.map_id _

theorem topK_same {f f' : ℕ → ℝ} {n : ℕ} (k : ℕ) (h : ∀ i < n, ∀ j < n, f i ≥ f j ↔ f' i ≥ f' j) :
    topK f n k = topK f' n k := by
  rw [topK_order, topK_order,
    insertionSort_same _ fun a ha b hb => h a (List.mem_range.1 ha) b (List.mem_range.1 hb)]

theorem measurable_topK {f : (ℕ → ℝ) → ℕ → ℝ} (hf : ∀ i, Measurable fun u => f u i) (n k : ℕ)
    (ps : List ℕ) : MeasurableSet {u | topK (f u) n k = ps} := by
  classical
  let pat : (ℕ → ℝ) → Fin n → Fin n → Bool := fun u i j => decide (f u i ≥ f u j)
  have hpat : Measurable pat := by
    refine measurable_pi_lambda _ fun i => measurable_pi_lambda _ fun j => ?_
    refine measurable_to_bool ?_
    have : (fun u => pat u i j) ⁻¹' {true} = {u | f u j ≤ f u i} := by
      ext u
      simp [pat]
    rw [this]
    exact measurableSet_le (hf j) (hf i)
  have e : {u | topK (f u) n k = ps} = pat ⁻¹' (pat '' {u | topK (f u) n k = ps}) := by
    ext u
    constructor
    · exact fun h => ⟨u, h, rfl⟩
    · rintro ⟨v, hv, hvu⟩
      change topK (f u) n k = ps
      rw [← hv]
      refine topK_same k fun i hi j hj => ?_
      have := congrFun (congrFun hvu ⟨i, hi⟩) ⟨j, hj⟩
      simp only [pat, decide_eq_decide] at this
      exact this.symm
  rw [e]
  exact hpat (Set.toFinite _).measurableSet

theorem highK_stops (hlog : NaturalLog R) {ws : List ℝ} (hpos : ∀ w ∈ ws, 0 < w) (k : Nat) (ps : List Nat) :
    ∃ S, Stops {g : R.G | (highK R ws k g).1 = .ok ps} (fun g => (highK R ws k g).2) S := by
  refine ⟨_, Stops.fixed (n := ws.length) (S := {u | (∀ i < ws.length, 0 < u i) ∧
    topK (fun i => Real.log (u i) / ws.getD i 0) ws.length k = ps}) ⟨?_, ?_⟩ ?_ ?_⟩
  · have e : {u : ℕ → ℝ | (∀ i < ws.length, 0 < u i) ∧
        topK (fun i => Real.log (u i) / ws.getD i 0) ws.length k = ps} =
        (⋂ i, ⋂ _ : i < ws.length, {u | 0 < u i}) ∩
          {u | topK (fun i => Real.log (u i) / ws.getD i 0) ws.length k = ps} := by
      ext u
      simp only [Set.mem_ofPred_eq, Set.mem_inter_iff, Set.mem_iInter]
    rw [e]
    refine (MeasurableSet.iInter fun i => MeasurableSet.iInter fun _ =>
      measurableSet_lt measurable_const (measurable_pi_apply i)).inter
        (measurable_topK (f := fun u i => Real.log (u i) / ws.getD i 0) (fun i => ?_) _ _ _)
    exact (Real.measurable_log.comp (measurable_pi_apply i)).div_const _
  · rintro u v huv ⟨h1, h2⟩
    refine ⟨fun i hi => by rw [← huv i hi]; exact h1 i hi, ?_⟩
    rw [← h2]
    exact topK_same k fun i hi j hj => by rw [huv i hi, huv j hj]
  · exact fun g => highK_iff hlog ws hpos k g ps
  · rintro g ⟨h1, -⟩
    have hs := highKScores_ok ws _ g _ (rands_after R ws.length g) (by
      intro u hu
      obtain ⟨j, hj, rfl⟩ := List.mem_map.1 hu
      exact (h1 j (List.mem_range.1 hj)).ne') (fun w hw => (hpos w hw).ne')
    change (highK R ws k g).2 = _
    unfold highK
    rw [PyM.bind_ok hs]
    rfl

/-- `weighted_shuffle`. -/
theorem shuffle_stops (hlog : NaturalLog R) {ws : List ℝ} (hpos : ∀ w ∈ ws, 0 < w) (ps : List Nat)
    (hk : ps.length ≤ ws.length) :
    ∃ S, Stops {g : R.G | (weightedShuffle R ws.length ws (some (ps.length : Int)) g).1 = .ok ps}
      (fun g => (weightedShuffle R ws.length ws (some (ps.length : Int)) g).2) S := by
  unfold weightedShuffle
  simp only [ne_eq, not_true_eq_false, if_false, Option.getD_some, Int.toNat_natCast]
  by_cases h : (ps.length : Int) * 100 ≤ (ws.length : Int) * 42
  · simp only [if_pos h]
    refine ⟨_, lowK_stops (fun w hw => (hpos w hw).le) ?_ ps⟩
    rw [List.filter_eq_self.2 fun w hw => by simpa using hpos w hw]
    exact hk
  · simp only [if_neg h]
    exact highK_stops hlog hpos _ ps

end Fauxdoc
