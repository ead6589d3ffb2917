import Verif.Model.ShuffleFloat
import Verif.Props.MathTools
import Verif.Props.FloatProb
/-
C20 and C21 with rounding: `weighted_shuffle` in binary64 arithmetic.
-/
set_option linter.unusedSectionVars false
namespace Fauxdoc
variable {K : Type} [Field K] [LinearOrder K] {R : Rng K} {α : Type}

/-! ### Exact arithmetic is the special case `fl = id` -/

theorem lowKFl_id (n : Nat) (k : Int) : ∀ fuel (ws : List K) s,
    lowKFl R id n k fuel ws s = lowK R n k fuel ws s
  | 0, _, _ => rfl
  | fuel + 1, ws, s => by
    unfold lowKFl lowK
    simp only [accumulateFl_id, choicesCumFl_id, lowKFl_id n k fuel]

theorem highKScoresFl_id : ∀ ws : List K, highKScoresFl R id ws = highKScores R ws
  | [] => rfl
  | w :: ws => by
    unfold highKScoresFl highKScores
    simp only [highKScoresFl_id ws, id]

theorem highKFl_id (ws : List K) (k : Nat) : highKFl R id ws k = highK R ws k := by
  unfold highKFl highK
  rw [highKScoresFl_id]

/-! ### Whatever is returned is right -/

theorem choicesCumFl_length {fl : K → K} {n : Nat} {cum : List K} {k : Int} {g g' : R.G}
    {ds : List Nat} (h : R.choicesCumFl fl n cum k g = (.ok ds, g')) : ds.length = k.toNat := by
  unfold Rng.choicesCumFl at h
  by_cases hc : cum.length ≠ n
  · rw [if_pos hc] at h; cases h
  · rw [if_neg hc] at h
    rcases ht : cum.getLast? with _ | last
    · rw [ht] at h; cases h
    · rw [ht] at h
      change (if fl last ≤ 0 then _ else _ : PyM _ _) g = _ at h
      by_cases hp : fl last ≤ 0
      · rw [if_pos hp] at h; cases h
      · rw [if_neg hp] at h
        obtain ⟨us, g1, h1, h2⟩ := PyM.bind_eq_ok h
        obtain ⟨us', g2, h3, hl, _⟩ := rands_spec R k.toNat g
        rw [h3] at h1
        cases h1; cases h2
        simpa using hl

theorem lowKFl_ok {fl : K → K} {n : Nat} {k : Int} {ws0 : List K} : ∀ (fuel : Nat) {ws : List K}
    {s ps : List Nat} {g g' : R.G}, LowInv ws0 ws s → (s.length : Int) ≤ k →
    lowKFl R fl n k fuel ws s g = (.ok ps, g') →
    (∃ ws', LowInv ws0 ws' ps) ∧ (ps.length : Int) = k := by
  intro fuel
  induction fuel with
  | zero => intro ws s ps g g' _ _ h; simp [lowKFl] at h
  | succ fuel ih =>
    intro ws s ps g g' hinv hle h
    rw [lowKFl] at h
    by_cases h0 : k - (s.length : Int) = 0
    · rw [if_pos h0] at h
      cases h
      exact ⟨⟨ws, hinv⟩, by omega⟩
    · rw [if_neg h0] at h
      obtain ⟨ds, g1, h1, h2⟩ := PyM.bind_eq_ok h
      have hl := choicesCumFl_length h1
      obtain ⟨a, b, _⟩ := lowKScan_inv ds hinv
      exact ih a (by omega) h2

/-- The scores when nothing raises, and that nothing raises only then. -/
theorem highKScoresFl_iff (fl : K → K) : ∀ (ws us : List K) (g g' : R.G),
    R.rands ws.length g = (.ok us, g') →
    ((∀ u ∈ us, u ≠ 0) ∧ (∀ w ∈ ws, w ≠ 0) ∧
      highKScoresFl R fl ws g = (.ok (List.zipWith (fun u w => fl (R.log u / w)) us ws), g')) ∨
    (((0 : K) ∈ us ∨ (0 : K) ∈ ws) ∧ ∃ g1, highKScoresFl R fl ws g = (.error .valueError, g1) ∨
      highKScoresFl R fl ws g = (.error .zeroDivision, g1)) := by
  intro ws
  induction ws with
  | nil => intro us g g' h; cases h; exact .inl ⟨by simp, by simp, rfl⟩
  | cons w ws ih =>
    intro us g g' h
    change (R.rand >>= fun u => R.rands ws.length >>= fun us => pure (u :: us)) g = _ at h
    obtain ⟨u, g1, h1, h2⟩ := PyM.bind_eq_ok h
    obtain ⟨us', g2, h3, h4⟩ := PyM.bind_eq_ok h2
    cases h4
    rw [highKScoresFl, PyM.bind_ok h1]
    by_cases hu : u = 0
    · rw [if_pos hu]
      exact .inr ⟨.inl (by simp [hu]), g1, .inl rfl⟩
    · rw [if_neg hu]
      by_cases hw : w = 0
      · rw [if_pos hw]
        exact .inr ⟨.inr (by simp [hw]), g1, .inr rfl⟩
      · rw [if_neg hw]
        rcases ih us' g1 g' h3 with ⟨a, b, c⟩ | ⟨a, g3, c | c⟩
        · left
          refine ⟨?_, ?_, ?_⟩
          · intro x hx; rcases List.mem_cons.1 hx with rfl | hx
            · exact hu
            · exact a x hx
          · intro x hx; rcases List.mem_cons.1 hx with rfl | hx
            · exact hw
            · exact b x hx
          · rw [PyM.bind_ok c]; rfl
        · right
          refine ⟨a.imp (by simp +contextual) (by simp +contextual), g3, .inl ?_⟩
          rw [PyM.bind_err c]
        · right
          refine ⟨a.imp (by simp +contextual) (by simp +contextual), g3, .inr ?_⟩
          rw [PyM.bind_err c]

theorem highKFl_ok {fl : K → K} {ws : List K} {k : Nat} {g g' : R.G} {ps : List Nat}
    (h : highKFl R fl ws k g = (.ok ps, g')) :
    ps.Nodup ∧ (∀ i ∈ ps, i < ws.length) ∧ ps.length = min k ws.length := by
  obtain ⟨sc, g1, h1, h2⟩ := PyM.bind_eq_ok h
  cases h2
  have hl : sc.length = ws.length := by
    obtain ⟨us, g', hr, hl, hu⟩ := rands_spec R ws.length g
    rcases highKScoresFl_iff fl ws us g g' hr with ⟨-, -, c⟩ | ⟨-, g3, c | c⟩
    · rw [c] at h1
      cases h1
      simp [hl]
    · rw [c] at h1; cases h1
    · rw [c] at h1; cases h1
  have hp : ((sortDesc (sc.zip (List.range ws.length))).map (·.2)).Perm (List.range ws.length) := by
    have := (sortDesc_perm (sc.zip (List.range ws.length))).map (·.2)
    rwa [zip_range_snd sc _ hl] at this
  rw [List.map_take]
  have hsub := List.take_sublist k ((sortDesc (sc.zip (List.range ws.length))).map (·.2))
  refine ⟨hsub.nodup (hp.nodup_iff.2 List.nodup_range), ?_, ?_⟩
  · intro i hi
    exact List.mem_range.1 (hp.mem_iff.1 (hsub.subset hi))
  · rw [List.length_take, hp.length_eq, List.length_range]

/-- **C20 (result, floats).** Whatever the weights, the random stream and the rounding: a
`weighted_shuffle` of up to `len(items)` items that returns has picked that many pairwise different
positions. -/
theorem C20_float_result (fl : K → K) (n : Nat) (ws : List K) (k : Nat) (hk : k ≤ n) (g g' : R.G)
    (ps : List Nat) (h : weightedShuffleFl R fl n ws (some (k : Int)) g = (.ok ps, g')) :
    ps.Nodup ∧ (∀ i ∈ ps, i < n) ∧ ps.length = k := by
  unfold weightedShuffleFl at h
  simp only [Option.getD_some] at h
  by_cases hn : n ≠ ws.length
  · rw [if_pos hn] at h; cases h
  · rw [if_neg hn] at h
    push Not at hn
    split at h
    · obtain ⟨⟨ws', hi⟩, hl⟩ := lowKFl_ok _ (LowInv.start ws) (by simp) h
      exact ⟨hi.nodup, fun i hm => hn ▸ hi.lt i hm, by omega⟩
    · obtain ⟨a, b, c⟩ := highKFl_ok h
      exact ⟨a, fun i hm => hn ▸ b i hm, by rw [c]; simp; omega⟩

/-! ### Small samples -/

variable [IsStrictOrderedRing K]

theorem accumulateFl_last (fl : K → K) (ws : List K) (hne : ws ≠ []) :
    (accumulateFl fl ws).getLast? = some ((accumulateFl fl ws).getD (ws.length - 1) 0) := by
  have hl : 0 < ws.length := List.length_pos_of_ne_nil hne
  rw [List.getLast?_eq_getElem?, accumulateFl_length, List.getD_eq_getElem?_getD]
  have : ws.length - 1 < (accumulateFl fl ws).length := by rw [accumulateFl_length]; omega
  rw [List.getElem?_eq_getElem this]
  rfl

theorem accumulateFl_ge (F : Rounding K) (ws : List K) (h0 : ∀ w ∈ ws, 0 ≤ w)
    (hd : ∀ w ∈ ws, IsDouble w) (i : Nat) (hi : i < ws.length) :
    ws.getD i 0 ≤ (accumulateFl F.rnd ws).getD i 0 := by
  cases i with
  | zero => rw [accumulateFl_zero]
  | succ i =>
    rw [accumulateFl_step _ _ _ hi]
    have hm : ws.getD (i + 1) 0 ∈ ws := by
      rw [List.getD_eq_getElem _ _ hi]; exact List.getElem_mem _
    refine F.ge_of_ge (hd _ hm) ?_
    have h1 := accumulateFl_mono F ws h0 hd (Nat.zero_le i) (show i < ws.length by omega)
    rw [accumulateFl_zero] at h1
    have : 0 ≤ ws.getD 0 0 := by
      rw [List.getD_eq_getElem _ _ (by omega)]; exact h0 _ (List.getElem_mem _)
    linarith

theorem accumulateFl_zeros (F : Rounding K) (ws : List K) (hz : ∀ i, ws.getD i 0 = 0) (i : Nat)
    (hi : i < ws.length) : (accumulateFl F.rnd ws).getD i 0 = 0 := by
  induction i with
  | zero => rw [accumulateFl_zero, hz]
  | succ i ih =>
    rw [accumulateFl_step _ _ _ hi, ih (by omega), hz, add_zero, F.rnd_double isDouble_zero]

/-- Total correctness of the low-k loop in binary64 arithmetic. -/
theorem lowKFl_total (F : Rounding K) (hR : R.Draws53) {k : Int} {ws0 : List K} (hne : ws0 ≠ [])
    (hnn : ∀ w ∈ ws0, w = 0 ∨ 2 ^ (-1022 : Int) < w) (hd : ∀ w ∈ ws0, IsDouble w) :
    ∀ (fuel : Nat) {ws : List K} {s : List Nat} (g : R.G), LowInv ws0 ws s →
    (s.length : Int) ≤ k → k - (s.length : Int) < fuel →
    (k ≤ (ws0.filter (0 < ·)).length ∧
      ∃ ps g', lowKFl R F.rnd ws0.length k fuel ws s g = (.ok ps, g')) ∨
    ((ws0.filter (0 < ·)).length < k ∧
      ∃ g', lowKFl R F.rnd ws0.length k fuel ws s g = (.error .valueError, g')) := by
  have hnn0 : ∀ w ∈ ws0, 0 ≤ w := by
    intro w hw
    rcases hnn w hw with h | h
    · exact h.ge
    · exact ((two_zpow_pos _).trans h).le
  intro fuel
  induction fuel with
  | zero => intro ws s g _ h1 h2; simp at h2; omega
  | succ fuel ih =>
    intro ws s g hinv hle hf
    have hpos := hinv.positives hnn0
    rw [lowKFl]
    by_cases h0 : k - (s.length : Int) = 0
    · left
      rw [if_pos h0]
      exact ⟨by omega, s, g, rfl⟩
    · rw [if_neg h0]
      have hwne : ws ≠ [] := by
        intro hw; rw [hw] at hinv; exact hne (List.length_eq_zero_iff.1 hinv.len.symm)
      have hlen : 0 < ws.length := List.length_pos_of_ne_nil hwne
      have hel : ∀ w ∈ ws, w = 0 ∨ w ∈ ws0 := by
        intro w hw
        obtain ⟨i, hi, rfl⟩ := List.mem_iff_getElem.1 hw
        have hv := hinv.val i
        rw [List.getD_eq_getElem _ _ hi] at hv
        rw [hv]
        split
        · exact .inl rfl
        · rw [List.getD_eq_getElem _ _ (by rw [← hinv.len]; exact hi)]
          exact .inr (List.getElem_mem _)
      have hw0 : ∀ w ∈ ws, 0 ≤ w := hinv.nonneg hnn0
      have hwd : ∀ w ∈ ws, IsDouble w := by
        intro w hw
        rcases hel w hw with rfl | h
        · exact isDouble_zero
        · exact hd w h
      by_cases hex : ∃ i, 0 < ws.getD i 0
      · obtain ⟨i, hi⟩ := hex
        have hilt : i < ws.length := by
          by_contra hn
          rw [List.getD_eq_default _ _ (by omega)] at hi
          exact lt_irrefl _ hi
        have hlast : 2 ^ (-1022 : Int) < (accumulateFl F.rnd ws).getD (ws.length - 1) 0 := by
          have hm : ws.getD i 0 ∈ ws := by
            rw [List.getD_eq_getElem _ _ hilt]; exact List.getElem_mem _
          have h1 : 2 ^ (-1022 : Int) < ws.getD i 0 := by
            rcases hel _ hm with h | h
            · exact absurd h hi.ne'
            · rcases hnn _ h with h | h
              · exact absurd h hi.ne'
              · exact h
          exact h1.trans_le ((accumulateFl_ge F ws hw0 hwd i hilt).trans
            (accumulateFl_mono F ws hw0 hwd (by omega) (by omega)))
        have hlastD : (accumulateFl F.rnd ws).getLastD 0 =
            (accumulateFl F.rnd ws).getD (ws.length - 1) 0 := by
          rw [List.getLastD_eq_getLast?, accumulateFl_last _ _ hwne]; rfl
        have hrl := F.rnd_double (accumulateFl_double F ws hwd (ws.length - 1) (by omega))
        obtain ⟨us, g1, hr, hl, hu⟩ := draws53_rands hR (k - (s.length : Int)).toNat g
        have hc : R.choicesCumFl F.rnd ws0.length (accumulateFl F.rnd ws) (k - (s.length : Int)) g =
            (.ok (us.map (choicesPickFl F.rnd (accumulateFl F.rnd ws))), g1) := by
          unfold Rng.choicesCumFl
          rw [if_neg (by rw [accumulateFl_length, hinv.len]; simp), accumulateFl_last _ _ hwne]
          change (if F.rnd _ ≤ 0 then _ else _ : PyM _ _) g = _
          rw [if_neg (by rw [hrl]; exact not_le.2 ((two_zpow_pos _).trans hlast)), PyM.bind_ok hr]
          rfl
        rw [PyM.bind_ok hc]
        obtain ⟨u, us', rfl⟩ : ∃ u us', us = u :: us' := by
          cases us with
          | nil => simp only [List.length_nil] at hl; omega
          | cons u us' => exact ⟨u, us', rfl⟩
        have hu0 := draw53 (hu u (by simp))
        have hp := (C10_float F ws hwne hw0 hwd (by rw [hlastD]; exact hlast) u hu0.1 hu0.2.2.1).2
        simp only [List.map_cons]
        obtain ⟨a, b, c⟩ := lowKScan_inv (choicesPickFl F.rnd (accumulateFl F.rnd ws) u ::
          us'.map (choicesPickFl F.rnd (accumulateFl F.rnd ws))) hinv
        have d := lowKScan_progress (choicesPickFl F.rnd (accumulateFl F.rnd ws) u)
          (us'.map (choicesPickFl F.rnd (accumulateFl F.rnd ws))) hinv hp.ne'
        simp only [List.length_cons, List.length_map] at b hl
        exact ih g1 a (by omega) (by push_cast at hf; omega)
      · right
        refine ⟨?_, g, ?_⟩
        · by_contra hcon
          exact hex (hinv.exists_left (by omega))
        · have hz : ∀ i, ws.getD i 0 = 0 := by
            intro i
            by_cases hi : i < ws.length
            · refine le_antisymm (not_lt.1 fun h => hex ⟨i, h⟩) ?_
              rw [List.getD_eq_getElem _ _ hi]; exact hw0 _ (List.getElem_mem _)
            · exact List.getD_eq_default _ _ (by omega)
          refine PyM.bind_err ?_
          unfold Rng.choicesCumFl
          rw [if_neg (by rw [accumulateFl_length, hinv.len]; simp), accumulateFl_last _ _ hwne]
          change (if F.rnd _ ≤ 0 then _ else _ : PyM _ _) g = _
          rw [accumulateFl_zeros F ws hz _ (by omega), F.rnd_double isDouble_zero, if_pos le_rfl]
          rfl

/-- **C20 (small samples, floats).** In binary64 arithmetic, for `k` up to 42% of up to `2^47` items
and weights that are 0 or normal numbers: the call always terminates, for every random stream.  It
returns positions of non-zero weights if there are `k` of these and raises `ValueError` otherwise. -/
theorem C20_float_small_partial (F : Rounding K) (hR : R.Draws53) (ws : List K)
    (hn : ws.length ≤ 2 ^ 47) (hnn : ∀ w ∈ ws, w = 0 ∨ 2 ^ (-1022 : Int) < w)
    (hd : ∀ w ∈ ws, IsDouble w) (k : Nat) (hk : k * 100 ≤ ws.length * 42) (g : R.G) :
    (k ≤ (ws.filter (0 < ·)).length ∧
      ∃ ps g', weightedShuffleFl R F.rnd ws.length ws (some (k : Int)) g = (.ok ps, g') ∧
        ∀ i ∈ ps, ws.getD i 0 ≠ 0) ∨
    ((ws.filter (0 < ·)).length < k ∧
      ∃ g', weightedShuffleFl R F.rnd ws.length ws (some (k : Int)) g = (.error .valueError, g')) := by
  have ht := (C77_threshold F ws.length hn (k : Int) (by omega)).2 (by exact_mod_cast hk)
  have hw : weightedShuffleFl R F.rnd ws.length ws (some (k : Int)) =
      lowKFl R F.rnd ws.length k (k + 1) ws [] := by
    unfold weightedShuffleFl
    rw [if_neg (by simp)]
    simp only [Option.getD_some]
    rw [if_pos ht]; rfl
  rw [hw]
  by_cases hne : ws = []
  · subst hne
    have hk0 : k = 0 := by simp at hk; omega
    subst hk0
    exact Or.inl ⟨by simp, [], g, rfl, by simp⟩
  · rcases lowKFl_total F hR (k := k) hne hnn hd (k + 1) g (LowInv.start ws) (by simp)
      (by simp) with ⟨h1, ps, g', h2⟩ | ⟨h1, g', h2⟩
    · obtain ⟨⟨ws', hi⟩, -⟩ := lowKFl_ok _ (LowInv.start ws) (by simp) h2
      exact Or.inl ⟨by exact_mod_cast h1, ps, g', h2, hi.nz⟩
    · exact Or.inr ⟨by exact_mod_cast h1, g', h2⟩

/-- **C20 is violated for subnormal weights**: with the weights 5e-324, 0 and 0 the loop makes no
progress as long as draws are above 1/2, because the product of draw and total is rounded up to the
total and the item at the end is picked, whose weight is 0.  However many rounds there are: on such a
stream it does not return. -/
theorem C20_float_subnormal_violated (F : Rounding K) (hc : ∀ g, (R.random g).1 = 3 / 4) (g : R.G)
    (fuel : Nat) :
    (lowKFl R F.rnd 3 1 fuel [2 ^ (-1074 : Int), 0, 0] [] g).1 = .error .diverges := by
  have hd : IsDouble (2 ^ (-1074 : Int) : K) := ⟨1, -1074, by norm_num, by norm_num, by simp⟩
  have hp : (0 : K) < 2 ^ (-1074 : Int) := two_zpow_pos _
  have h34 : F.rnd (3 / 4 * 2 ^ (-1074 : Int)) = 2 ^ (-1074 : Int) := by
    have h1 := F.nearest (3 / 4 * 2 ^ (-1074 : Int)) _ hd
    have h2 := F.isDouble (3 / 4 * 2 ^ (-1074 : Int))
    have h3 : (0 : K) < F.rnd (3 / 4 * 2 ^ (-1074 : Int)) := by
      rw [show (2 : K) ^ (-1074 : Int) - 3 / 4 * 2 ^ (-1074 : Int) = 1 / 4 * 2 ^ (-1074 : Int) by ring,
        abs_of_pos (by linarith : (0 : K) < 1 / 4 * 2 ^ (-1074 : Int))] at h1
      have := (abs_le.1 h1).1
      linarith
    have h4 : F.rnd (3 / 4 * 2 ^ (-1074 : Int)) ≤ 2 ^ (-1074 : Int) := F.le_of_le hd (by linarith)
    obtain ⟨m, e, -, he, hx⟩ := h2
    refine le_antisymm h4 ?_
    rw [hx] at h3 ⊢
    have hm : 1 ≤ m := by
      by_contra hn
      have : (m : K) ≤ 0 := by exact_mod_cast (show m ≤ 0 by omega)
      have := mul_nonpos_of_nonpos_of_nonneg this (two_zpow_pos (K := K) e).le
      linarith
    calc (2 : K) ^ (-1074 : Int) ≤ 2 ^ e := zpow_le_zpow_right₀ (by norm_num) he
      _ = 1 * 2 ^ e := (one_mul _).symm
      _ ≤ m * 2 ^ e := mul_le_mul_of_nonneg_right (by exact_mod_cast hm) (two_zpow_pos e).le
  induction fuel generalizing g with
  | zero => rfl
  | succ fuel ih =>
    have hcum : accumulateFl F.rnd [2 ^ (-1074 : Int), 0, 0] =
        [2 ^ (-1074 : Int), 2 ^ (-1074 : Int), 2 ^ (-1074 : Int)] := by
      simp only [accumulateFl, accumulateFlFrom, add_zero, F.rnd_double hd]
    have hpick : choicesPickFl F.rnd [2 ^ (-1074 : Int), 2 ^ (-1074 : Int), 2 ^ (-1074 : Int)] (3 / 4)
        = 2 := by
      have : ([2 ^ (-1074 : Int), 2 ^ (-1074 : Int), 2 ^ (-1074 : Int)] : List K).getLastD 0 =
        2 ^ (-1074 : Int) := rfl
      unfold choicesPickFl
      rw [this, F.rnd_double hd, h34]
      simp [bisect, bisectGo]
    have hr : R.choicesCumFl F.rnd 3 [2 ^ (-1074 : Int), 2 ^ (-1074 : Int), 2 ^ (-1074 : Int)] 1 g =
        (.ok [2], (R.random g).2) := by
      unfold Rng.choicesCumFl
      rw [if_neg (by simp)]
      change (if F.rnd (2 ^ (-1074 : Int)) ≤ 0 then _ else _ : PyM _ _) g = _
      rw [F.rnd_double hd, if_neg (not_le.2 hp)]
      have h1 : R.rands (Int.toNat 1) g = (.ok [3 / 4], (R.random g).2) := by
        change (Except.ok [(R.random g).1], (R.random g).2) = _
        rw [hc]
      rw [PyM.bind_ok h1]
      change (Except.ok [choicesPickFl F.rnd _ _], _) = _
      rw [hpick]
    rw [lowKFl, if_neg (by simp)]
    simp only [List.length_nil, Nat.cast_zero, sub_zero]
    rw [hcum, PyM.bind_ok hr]
    simp only [lowKScan]
    rw [if_neg (by simp)]
    exact ih _

/-! ### Large samples -/

/-- **C20 (large samples, floats).** Above 42% the call returns exactly if no draw and no weight is
zero, whatever the rounding does to the scores. -/
theorem C20_float_large_iff (F : Rounding K) (ws : List K) (hn : ws.length ≤ 2 ^ 47) (k : Nat)
    (hk : ws.length * 42 < k * 100) (hk' : k ≤ ws.length) (g g1 : R.G) (us : List K)
    (hdraws : R.rands ws.length g = (.ok us, g1)) :
    (∃ ps g', weightedShuffleFl R F.rnd ws.length ws (some (k : Int)) g = (.ok ps, g')) ↔
      (∀ u ∈ us, u ≠ 0) ∧ ∀ w ∈ ws, w ≠ 0 := by
  have ht : ¬ ((k : Int) : K) ≤ F.rnd (ws.length * c042) := by
    rw [C77_threshold F ws.length hn (k : Int) (by omega)]
    omega
  have hw : weightedShuffleFl R F.rnd ws.length ws (some (k : Int)) = highKFl R F.rnd ws k := by
    unfold weightedShuffleFl
    rw [if_neg (by simp)]
    simp only [Option.getD_some]
    rw [if_neg ht]; rfl
  rw [hw]
  unfold highKFl
  rcases highKScoresFl_iff F.rnd ws us g g1 hdraws with ⟨a, b, c⟩ | ⟨a, g3, c | c⟩
  · exact ⟨fun _ => ⟨a, b⟩, fun _ => ⟨_, g1, by rw [PyM.bind_ok c]; rfl⟩⟩
  · refine ⟨?_, ?_⟩
    · rintro ⟨ps, g', h⟩
      rw [PyM.bind_err c] at h; cases h
    · rintro ⟨h1, h2⟩
      rcases a with a | a
      · exact absurd rfl (h1 0 a)
      · exact absurd rfl (h2 0 a)
  · refine ⟨?_, ?_⟩
    · rintro ⟨ps, g', h⟩
      rw [PyM.bind_err c] at h; cases h
    · rintro ⟨h1, h2⟩
      rcases a with a | a
      · exact absurd rfl (h1 0 a)
      · exact absurd rfl (h2 0 a)

/-- **C21 (floats).** Raising one weight never demotes that item, for every monotone rounding of the
quotients (rounding to nearest, with or without overflow to infinity, is one): on the same draws, if
position `j` is among the first `k`, it still is after its weight is raised. -/
theorem C21_float_monotone (fl : K → K) (hfl : ∀ x y, x ≤ y → fl x ≤ fl y) (ws : List K)
    (hpos : ∀ w ∈ ws, 0 < w) (j k : Nat) (hj : j < ws.length) (w' : K) (hw' : ws.getD j 0 ≤ w')
    (g g1 g2 : R.G) (ps ps' : List Nat) (h : highKFl R fl ws k g = (.ok ps, g1))
    (h' : highKFl R fl (ws.set j w') k g = (.ok ps', g2)) (hm : j ∈ ps) : j ∈ ps' := by
  have hwj : 0 < ws.getD j 0 := by
    rw [List.getD_eq_getElem _ _ hj]; exact hpos _ (List.getElem_mem _)
  obtain ⟨us, g', hr, hl, hu⟩ := rands_spec R ws.length g
  have key : ∀ (vs : List K) (qs : List Nat) (ga : R.G), vs.length = ws.length →
      highKFl R fl vs k g = (.ok qs, ga) → (∀ u ∈ us, u ≠ 0) ∧
      qs = ((sortDesc ((List.zipWith (fun u w => fl (R.log u / w)) us vs).zip
          (List.range ws.length))).take k).map (·.2) := by
    intro vs qs ga hvl hq
    unfold highKFl at hq
    rcases highKScoresFl_iff fl vs us g g' (by rw [hvl]; exact hr) with ⟨a, b, c⟩ | ⟨a, g3, c | c⟩
    · rw [PyM.bind_ok c, hvl] at hq
      cases hq
      exact ⟨a, rfl⟩
    · rw [PyM.bind_err c] at hq; cases hq
    · rw [PyM.bind_err c] at hq; cases hq
  obtain ⟨hnz, rfl⟩ := key ws ps g1 rfl h
  obtain ⟨-, rfl⟩ := key _ ps' g2 (by simp) h'
  rw [mem_top_iff _ _ k j (by simp [hl]) hj] at hm ⊢
  refine lt_of_le_of_lt ?_ hm
  have hsc : ∀ (vs : List K), vs.length = ws.length → ∀ i, i < ws.length →
      (List.zipWith (fun u w => fl (R.log u / w)) us vs).getD i 0 =
        fl (R.log (us.getD i 0) / vs.getD i 0) := by
    intro vs hvl i hi
    rw [List.getD_eq_getElem _ _ (by simp [hl, hvl, hi]), List.getElem_zipWith,
      List.getD_eq_getElem _ _ (by omega), List.getD_eq_getElem _ _ (by omega)]
  have hjle : fl (R.log (us.getD j 0) / ws.getD j 0) ≤ fl (R.log (us.getD j 0) / w') := by
    have hmem : us.getD j 0 ∈ us := by
      rw [List.getD_eq_getElem _ _ (by omega)]; exact List.getElem_mem _
    have hlog := (R.log_neg _ (lt_of_le_of_ne (hu _ hmem).1 (hnz _ hmem).symm) (hu _ hmem).2).le
    have := div_le_div_of_nonneg_left (neg_nonneg.2 hlog) hwj hw'
    rw [neg_div, neg_div] at this
    exact hfl _ _ (neg_le_neg_iff.1 this)
  rw [← List.countP_eq_length_filter, ← List.countP_eq_length_filter]
  apply List.countP_mono_left
  intro i hi
  rw [List.mem_range] at hi
  simp only [decide_eq_true_eq]
  rw [hsc _ (by simp) i hi, hsc _ (by simp) j hj, hsc ws rfl i hi, hsc ws rfl j hj]
  have hsj : (ws.set j w').getD j 0 = w' := by
    rw [List.getD_eq_getElem _ _ (by simpa using hj)]; simp
  rw [hsj]
  by_cases hij : i = j
  · subst hij
    rw [hsj]
    intro hb; exact absurd hb (Outranks.irrefl _)
  · have hsi : (ws.set j w').getD i 0 = ws.getD i 0 := by
      simp only [List.getD_eq_getElem?_getD]
      rw [List.getElem?_set_ne (by omega)]
    rw [hsi]
    rintro (hb | ⟨hb1, hb2⟩)
    · exact Or.inl (lt_of_le_of_lt hjle hb)
    · simp only at hb1 hb2
      rcases lt_or_eq_of_le hjle with hlt | heq
      · exact Or.inl (by rw [hb1]; exact hlt)
      · exact Or.inr ⟨by rw [hb1, heq], hb2⟩

/-! ### Concrete cases -/

/-- One of three items; the item of weight 0.2 is at position 2. -/
example : (weightedShuffleFl halfRng (rounding ℚ).rnd 3
    [roundDouble (1 / 10), 0, roundDouble (2 / 10)] (some 1) (0 : Nat)).1 = .ok [2] := by
  decide +kernel

/-- The hypotheses of `C20_float_small_partial` can be met. -/
example (g : halfRng.G) := C20_float_small_partial (rounding ℚ) halfRng_draws [1, 0, 3 / 4]
  (by norm_num) (by
    intro w hw
    simp only [List.mem_cons, List.not_mem_nil, or_false] at hw
    rcases hw with rfl | rfl | rfl
    · right
      exact (zpow_le_zpow_right₀ (by norm_num) (by norm_num : (-1022 : Int) ≤ -1)).trans_lt (by norm_num)
    · left; rfl
    · right
      exact (zpow_le_zpow_right₀ (by norm_num) (by norm_num : (-1022 : Int) ≤ -1)).trans_lt (by norm_num)) (by
    intro w hw
    simp only [List.mem_cons, List.not_mem_nil, or_false] at hw
    rcases hw with rfl | rfl | rfl
    · exact isDouble_one
    · exact isDouble_zero
    · exact ⟨3, -2, by norm_num, by norm_num, by norm_num⟩) 1 (by norm_num) g

/-- A full shuffle: all draws are alike, so the item with the greater weight comes first. -/
example : (weightedShuffleFl halfRng (rounding ℚ).rnd 2 [1, 3] none (0 : Nat)).1 = .ok [1, 0] := by
  decide +kernel

/-- A generator that meets the hypothesis of `C20_float_subnormal_violated`. -/
example : ∃ R : Rng ℚ, (∀ g, (R.random g).1 = 3 / 4) ∧ R.Draws53 :=
  ⟨streamRng (fun _ => 3 / 4) (fun _ => by norm_num) (fun _ => by norm_num), fun _ => rfl,
    fun _ => ⟨3 * 2 ^ 51, by norm_num, by change (3 / 4 : ℚ) = _; norm_num⟩⟩

end Fauxdoc
