import Verif.Proofs.MathTools2
import Verif.Py.RngDemo
import Verif.Spec.Lists
/-
C20-C22: `weighted_shuffle` and `clamp`.
-/
set_option linter.unusedSectionVars false
namespace Fauxdoc
variable {K : Type} [Field K] [LinearOrder K] {R : Rng K} {α : Type}

/-- `weighted_shuffle` on the items themselves (mathtools.py 73-155): the sampled positions looked
up in `items`. -/
def weightedShuffleItems (R : Rng K) (items : List α) (ws : List K) (number : Option Int) :
    PyM R.G (List α) := do
  let ps ← weightedShuffle R items.length ws number
  return ps.filterMap fun i => items[i]?

theorem weightedShuffle_ok {n : Nat} {ws : List K} {k : Nat} {g g' : R.G} {ps : List Nat}
    (h : weightedShuffle R n ws (some (k : Int)) g = (.ok ps, g')) :
    ps.Nodup ∧ (∀ i ∈ ps, i < n) ∧ ps.length = min k n := by
  unfold weightedShuffle at h
  simp only [Option.getD_some] at h
  by_cases hn : n ≠ ws.length
  · rw [if_pos hn] at h; cases h
  · rw [if_neg hn] at h
    push Not at hn
    by_cases hk : (k : Int) * 100 ≤ (n : Int) * 42
    · rw [if_pos hk] at h
      obtain ⟨⟨ws', hi⟩, hl⟩ := lowK_ok _ (LowInv.start ws) (by simp) h
      refine ⟨hi.nodup, fun i hm => hn ▸ hi.lt i hm, ?_⟩
      have : ps.length = k := by omega
      omega
    · rw [if_neg hk] at h
      obtain ⟨a, b, c, _⟩ := highK_ok h
      exact ⟨a, fun i hm => hn ▸ b i hm, by rw [c, hn]; simp⟩

theorem weightedShuffle_none_eq {n : Nat} {ws : List K} :
    weightedShuffle R n ws none = weightedShuffle R n ws (some (n : Int)) := rfl

/-- **C20 (result).** Whatever the weights and the random stream, a `weighted_shuffle` that returns
has picked `min k (len items)` items from pairwise distinct positions. -/
theorem C20_distinct_positions (items : List α) (ws : List K) (k : Nat) (g g' : R.G) (r : List α)
    (h : weightedShuffleItems R items ws (some k) g = (.ok r, g')) :
    DistinctPick items r ∧ r.length = min k items.length := by
  obtain ⟨ps, g1, h1, h2⟩ := PyM.bind_eq_ok h
  obtain ⟨a, b, c⟩ := weightedShuffle_ok h1
  cases h2
  have := distinctPick_of_positions items ps a b
  exact ⟨this.1, by rw [this.2, c]⟩

/-- **C20 (permutation).** With `number` omitted the result is a permutation of the items. -/
theorem C20_permutation (items : List α) (ws : List K) (g g' : R.G) (r : List α)
    (h : weightedShuffleItems R items ws none g = (.ok r, g')) : r.Perm items := by
  have := C20_distinct_positions items ws items.length g g' r
    (by simpa [weightedShuffleItems, weightedShuffle_none_eq] using h)
  exact DistinctPick.perm this.1 (by simpa using this.2)

/-- **C20 (small samples).** For `k` up to 42% of the items and non-negative weights the call
always terminates, for every random stream: it returns if at least `k` weights are positive and
raises `ValueError` otherwise. -/
theorem C20_small_total [IsStrictOrderedRing K] (items : List α) (ws : List K)
    (hlen : items.length = ws.length) (hnn : ∀ w ∈ ws, 0 ≤ w) (k : Nat)
    (hk : k * 100 ≤ items.length * 42) (g : R.G) :
    (k ≤ (ws.filter (0 < ·)).length ∧
      ∃ r g', weightedShuffleItems R items ws (some k) g = (.ok r, g')) ∨
    ((ws.filter (0 < ·)).length < k ∧
      ∃ g', weightedShuffleItems R items ws (some k) g = (.error .valueError, g')) := by
  have hw : weightedShuffle R items.length ws (some (k : Int)) =
      lowK R ws.length k (k + 1) ws [] := by
    unfold weightedShuffle
    rw [if_neg (by simp [hlen])]
    simp only [Option.getD_some]
    rw [if_pos (by exact_mod_cast hk), hlen]; rfl
  unfold weightedShuffleItems
  rw [hw]
  by_cases hne : ws = []
  · subst hne
    have hk0 : k = 0 := by rw [hlen] at hk; simp at hk; omega
    subst hk0
    exact Or.inl ⟨by simp, [], g, rfl⟩
  · rcases lowK_total (R := R) (k := k) hne hnn (k + 1) g (LowInv.start ws) (by simp)
      (by simp) with ⟨h1, ps, g', h2⟩ | ⟨h1, g', h2⟩
    · exact Or.inl ⟨by exact_mod_cast h1, _, g', by rw [PyM.bind_ok h2]; rfl⟩
    · exact Or.inr ⟨by exact_mod_cast h1, g', PyM.bind_err h2⟩

/-- **C20 (zero weights, small samples).** In the small-sample regime every returned item has a
non-zero weight. -/
theorem C20_small_nonzero (ws : List K) (k : Nat) (hk : k * 100 ≤ ws.length * 42) (g g' : R.G)
    (ps : List Nat) (h : weightedShuffle R ws.length ws (some k) g = (.ok ps, g')) :
    ∀ i ∈ ps, ws.getD i 0 ≠ 0 := by
  unfold weightedShuffle at h
  rw [if_neg (by simp)] at h
  simp only [Option.getD_some] at h
  rw [if_pos (by exact_mod_cast hk)] at h
  obtain ⟨⟨ws', hi⟩, _⟩ := lowK_ok _ (LowInv.start ws) (by simp) h
  exact hi.nz

/-- **C20 (large samples), partial.** Above 42% (and for full shuffles) the call returns provided
all weights are non-zero and none of the `len(items)` uniform draws is exactly `0.0`.  What is
missing from the full claim is the draw `0.0`; see `C20_zero_draw_violated`. -/
theorem C20_large_returns_partial (items : List α) (ws : List K)
    (hlen : items.length = ws.length) (hnz : ∀ w ∈ ws, w ≠ 0) (k : Nat)
    (hk : items.length * 42 < k * 100) (g g1 : R.G) (us : List K)
    (hdraws : R.rands ws.length g = (.ok us, g1)) (hu : ∀ u ∈ us, u ≠ 0) :
    ∃ r, weightedShuffleItems R items ws (some k) g = (.ok r, g1) := by
  have hw : weightedShuffle R items.length ws (some (k : Int)) = highK R ws k := by
    unfold weightedShuffle
    rw [if_neg (by simp [hlen])]
    simp only [Option.getD_some]
    rw [if_neg (by push Not; exact_mod_cast hk)]; rfl
  unfold weightedShuffleItems
  rw [hw]
  have h1 : highK R ws k g = (.ok (((sortDesc ((List.zipWith (fun u w => R.log u / w) us ws).zip
      (List.range ws.length))).take k).map (·.2)), g1) := by
    unfold highK
    rw [PyM.bind_ok (highKScores_ok ws us g g1 hdraws hu hnz)]; rfl
  exact ⟨_, by rw [PyM.bind_ok h1]; rfl⟩

/-- **C20 (mismatch).** One weight per item, or `ValueError`. -/
theorem C20_mismatch (items : List α) (ws : List K) (h : items.length ≠ ws.length)
    (k : Option Int) (g : R.G) :
    weightedShuffleItems R items ws k g = (.error .valueError, g) := by
  unfold weightedShuffleItems weightedShuffle
  exact PyM.bind_err (by rw [if_pos h]; rfl)

/-- **C20 violated for a draw of exactly `0.0`.** A full shuffle of positive weights raises
`ValueError` (`math.log(0.0)`) when the generator returns `0.0`. -/
theorem C20_zero_draw_violated : ∃ (R : Rng ℚ) (g : R.G),
    (weightedShuffleItems R ['a', 'b'] [1, 1] none g).1 = .error .valueError :=
  ⟨zeroRng, (0 : Nat), by decide +kernel⟩

/-- A zero weight makes a full shuffle raise `ZeroDivisionError` whatever is drawn before it. -/
theorem C20_zero_weight_large : ∃ (R : Rng ℚ) (g : R.G),
    (weightedShuffleItems R ['a', 'b'] [1, 0] none g).1 = .error .zeroDivision :=
  ⟨demoRng, (0 : Nat), by decide +kernel⟩

/-- A negative `number` never returns: with a positive total weight every round of the loop asks
for a negative number of draws, gets none, and changes nothing, however long it runs. -/
theorem C20_negative_number_diverges [IsStrictOrderedRing K] (ws : List K) (hne : ws ≠ [])
    (hpos : 0 < ws.sum) (k : Int) (hk : k < 0) (fuel : Nat) (g : R.G) :
    (lowK R ws.length k fuel ws [] g).1 = .error .diverges := by
  induction fuel with
  | zero => rfl
  | succ fuel ih =>
    obtain ⟨us, g', hr, hl, _, hc⟩ := choicesCum_ok R ws hne hpos k g
    have h0 : k.toNat = 0 := by omega
    rw [h0] at hl hr
    rw [List.length_eq_zero_iff] at hl
    subst hl
    cases hr
    rw [lowK, if_neg (by simp; omega)]
    simp only [List.length_nil, Nat.cast_zero, sub_zero]
    rw [PyM.bind_ok hc]
    exact ih

/-- **C21.** Raising one weight never demotes that item: on the same random draws, if position `j`
is among the first `k` of the score-based shuffle, it still is after its weight is raised. -/
theorem C21_monotone [IsStrictOrderedRing K] (ws : List K) (hpos : ∀ w ∈ ws, 0 < w) (j k : Nat)
    (hj : j < ws.length) (w' : K) (hw' : ws.getD j 0 ≤ w') (hk : ws.length * 42 < k * 100)
    (g g1 g2 : R.G) (ps ps' : List Nat)
    (h : weightedShuffle R ws.length ws (some k) g = (.ok ps, g1))
    (h' : weightedShuffle R ws.length (ws.set j w') (some k) g = (.ok ps', g2)) (hm : j ∈ ps) :
    j ∈ ps' := by
  have hwj : 0 < ws.getD j 0 := by
    rw [List.getD_eq_getElem _ _ hj]; exact hpos _ (List.getElem_mem _)
  have hpos' : ∀ w ∈ ws.set j w', 0 < w := by
    intro w hw
    rcases List.mem_or_eq_of_mem_set hw with h | h
    · exact hpos w h
    · subst h; exact lt_of_lt_of_le hwj hw'
  -- both runs use the same draws
  obtain ⟨us, g', hr, hl, hu⟩ := rands_spec R ws.length g
  have hnz : ∀ u ∈ us, u ≠ 0 := by
    by_contra hcon
    push Not at hcon
    obtain ⟨u, hu1, rfl⟩ := hcon
    unfold weightedShuffle at h
    rw [if_neg (by simp)] at h
    simp only [Option.getD_some] at h
    rw [if_neg (by push Not; exact_mod_cast hk)] at h
    obtain ⟨sc, ga, ha, _⟩ := PyM.bind_eq_ok h
    exact highKScores_no_zero ws us g g' hr (hpos := fun w hw => (hpos w hw).ne') ha hu1
  have key : ∀ (vs : List K), vs.length = ws.length → (∀ w ∈ vs, 0 < w) →
      weightedShuffle R ws.length vs (some (k : Int)) g =
        (.ok (((sortDesc ((List.zipWith (fun u w => R.log u / w) us vs).zip
          (List.range ws.length))).take k).map (·.2)), g') := by
    intro vs hvl hvp
    unfold weightedShuffle
    rw [if_neg (by simp [hvl])]
    simp only [Option.getD_some]
    rw [if_neg (by push Not; exact_mod_cast hk)]
    unfold highK
    rw [PyM.bind_ok (highKScores_ok vs us g g' (by rw [hvl]; exact hr) hnz
      fun w hw => (hvp w hw).ne'), hvl]
    rfl
  rw [key ws rfl hpos] at h
  rw [key _ (by simp) hpos'] at h'
  cases h; cases h'
  rw [mem_top_iff _ _ k j (by simp [hl]) hj] at hm ⊢
  refine lt_of_le_of_lt ?_ hm
  -- every position that still beats `j` already beat it
  have hsc : ∀ (vs : List K), vs.length = ws.length → ∀ i, i < ws.length →
      (List.zipWith (fun u w => R.log u / w) us vs).getD i 0 =
        R.log (us.getD i 0) / vs.getD i 0 := by
    intro vs hvl i hi
    rw [List.getD_eq_getElem _ _ (by simp [hl, hvl, hi]), List.getElem_zipWith,
      List.getD_eq_getElem _ _ (by omega), List.getD_eq_getElem _ _ (by omega)]
  have hjle : R.log (us.getD j 0) / ws.getD j 0 ≤ R.log (us.getD j 0) / w' := by
    have hmem : us.getD j 0 ∈ us := by
      rw [List.getD_eq_getElem _ _ (by omega)]; exact List.getElem_mem _
    have hlog := (R.log_neg _ (lt_of_le_of_ne (hu _ hmem).1 (hnz _ hmem).symm) (hu _ hmem).2).le
    have := div_le_div_of_nonneg_left (neg_nonneg.2 hlog) hwj hw'
    rw [neg_div, neg_div] at this
    exact neg_le_neg_iff.1 this
  rw [← List.countP_eq_length_filter, ← List.countP_eq_length_filter]
  apply List.countP_mono_left
  intro i hi
  rw [List.mem_range] at hi
  simp only [decide_eq_true_eq]
  rw [hsc _ (by simp) i hi, hsc _ (by simp) j hj, hsc ws rfl i hi, hsc ws rfl j hj]
  have hsj : (ws.set j w').getD j 0 = w' := by
    rw [List.getD_eq_getElem _ _ (by simpa using hj)]; simp
  rw [hsj]
  by_cases hij : i = j
  · subst hij
    rw [hsj]
    intro hb; exact absurd hb (Outranks.irrefl _)
  · have hsi : (ws.set j w').getD i 0 = ws.getD i 0 := by
      simp only [List.getD_eq_getElem?_getD]
      rw [List.getElem?_set_ne (by omega)]
    rw [hsi]
    rintro (hb | ⟨hb1, hb2⟩)
    · exact Or.inl (lt_of_le_of_lt hjle hb)
    · simp only at hb1 hb2
      rcases lt_or_eq_of_le hjle with hlt | heq
      · exact Or.inl (by rw [hb1]; exact hlt)
      · exact Or.inr ⟨by rw [hb1, heq], hb2⟩

/-- **C22 (inside).** A number within the given limits is returned unchanged. -/
theorem C22_inside (x : K) (mn mx : Option K) (h1 : ∀ m ∈ mn, m ≤ x) (h2 : ∀ m ∈ mx, x ≤ m) :
    clamp x mn mx = x := by
  cases mn <;> cases mx <;> simp_all [clamp, not_lt.2]

/-- **C22 (limits).** With consistent limits the result lies within them. -/
theorem C22_within (x : K) (mn mx : Option K) (h : ∀ a ∈ mn, ∀ b ∈ mx, a ≤ b) :
    (∀ a ∈ mn, a ≤ clamp x mn mx) ∧ (∀ b ∈ mx, clamp x mn mx ≤ b) := by
  cases mn <;> cases mx <;> simp_all only [clamp, Option.mem_def, reduceCtorEq, false_implies,
    implies_true, Option.some.injEq, forall_eq', and_true, true_and] <;>
    split_ifs <;> (try constructor) <;> simp_all

/-- **C22 (nearest).** No number within the limits is closer to the argument. -/
theorem C22_nearest [IsStrictOrderedRing K] (x : K) (mn mx : Option K) (y : K)
    (h : ∀ a ∈ mn, ∀ b ∈ mx, a ≤ b)
    (h1 : ∀ a ∈ mn, a ≤ y) (h2 : ∀ b ∈ mx, y ≤ b) : |clamp x mn mx - x| ≤ |y - x| := by
  have key : clamp x mn mx = x ∨ (x < clamp x mn mx ∧ clamp x mn mx ≤ y) ∨
      (clamp x mn mx < x ∧ y ≤ clamp x mn mx) := by
    cases mn <;> cases mx <;> simp_all only [clamp, Option.mem_def, reduceCtorEq, false_implies,
      implies_true, Option.some.injEq, forall_eq'] <;> (try split_ifs) <;> simp_all
  rcases key with h | ⟨a, b⟩ | ⟨a, b⟩
  · rw [h]; simp
  · rw [abs_of_pos (by linarith), abs_of_pos (by linarith)]; linarith
  · rw [abs_of_neg (by linarith), abs_of_neg (by linarith)]; linarith

/-! Concrete instances. -/

example : (weightedShuffleItems demoRng ['a', 'b', 'c', 'd', 'e'] [1, 2, 0, 3, 4] (some 2)
    (3 : Nat)).1 = .ok ['b', 'e'] := by decide +kernel
example : (weightedShuffleItems demoRng ['a', 'b', 'c'] [1, 2, 3] none (0 : Nat)).1 =
    .ok ['b', 'c', 'a'] := by decide +kernel
example : (2 ≤ (([1, 2, 0, 3, 4] : List ℚ).filter (0 < ·)).length) := by decide +kernel
/-- The hypotheses of `C21_monotone` are met (position 2, weight 3 raised to 9) ... -/
example : (weightedShuffle demoRng 3 [1, 2, 3] (some 2) (0 : Nat)).1 = .ok [1, 2] ∧
    (weightedShuffle demoRng 3 [1, 2, 9] (some 2) (0 : Nat)).1 = .ok [2, 1] ∧ 3 * 42 < 2 * 100 := by
  decide +kernel
/-- ... and raising a weight can promote (position 0, weight 1 raised to 20). -/
example : (weightedShuffle demoRng 3 [20, 2, 3] (some 2) (0 : Nat)).1 = .ok [0, 1] := by
  decide +kernel
example : clamp (35 : ℚ) (some 50) (some 100) = 50 ∧ clamp (35 : ℚ) none (some 20) = 20 := by decide +kernel

end Fauxdoc
