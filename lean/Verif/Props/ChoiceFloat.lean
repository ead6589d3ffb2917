import Verif.Model.ChoiceFloat
import Verif.Model.Choice
import Verif.Proofs.Double
import Verif.Proofs.Random
import Verif.Py.RngDemo
/-
C10, C11, C16 and C77 in floating-point arithmetic: what rounding does to weighted choices.
-/
namespace Fauxdoc

variable {K : Type} [Field K] [LinearOrder K]

/-! ### Without rounding this is the exact model -/

omit [LinearOrder K] in
theorem accumulateFlFrom_id (acc : K) (ws : List K) :
    accumulateFlFrom id acc ws = accumulateFrom acc ws := by
  induction ws generalizing acc with
  | nil => rfl
  | cons w ws ih => simp only [accumulateFlFrom, accumulateFrom, id, ih]

omit [LinearOrder K] in
theorem accumulateFl_id (ws : List K) : accumulateFl id ws = accumulate ws := by
  cases ws with
  | nil => rfl
  | cons w ws => simp only [accumulateFl, accumulate, accumulateFrom, zero_add, accumulateFlFrom_id]

omit [LinearOrder K] in
theorem deCumulateFl_id (prev : K) (cs : List K) :
    deCumulateFl id prev cs = Choice.deCumulateFrom prev cs := by
  induction cs generalizing prev with
  | nil => rfl
  | cons c cs ih => simp only [deCumulateFl, Choice.deCumulateFrom, id, ih]

theorem choicesCumFl_id (R : Rng K) (n : Nat) (cum : List K) (k : Int) :
    R.choicesCumFl id n cum k = R.choicesCum n cum k := by
  unfold Rng.choicesCumFl Rng.choicesCum
  split
  · rfl
  · cases h : cum.getLast? with
    | none => rfl
    | some last =>
      have h2 : cum.getLastD 0 = last := by
        rw [List.getLastD_eq_getLast?, h]; rfl
      have h3 : choicesPickFl id cum = choicesPick cum last := by
        funext u
        unfold choicesPickFl choicesPick
        rw [h2]; rfl
      simp only [h3, id]

/-! ### Positions -/

/-- Binary search below the last entry. -/
theorem bisect_below (cum : List K) (x : K) (hne : cum ≠ []) (h : x < cum.getLastD 0) :
    let i := bisect cum x (cum.length - 1)
    i < cum.length ∧ (i = 0 ∨ cum.getD (i - 1) 0 ≤ x) ∧ x < cum.getD i 0 := by
  have hl : 0 < cum.length := List.length_pos_of_ne_nil hne
  obtain ⟨b1, b2, b3⟩ := bisect_spec cum x (cum.length - 1)
  refine ⟨by omega, b2, ?_⟩
  rcases b3 with b3 | b3
  · rw [b3]
    have : cum.getLastD 0 = cum.getD (cum.length - 1) 0 := by
      rw [List.getLastD_eq_getLast?, List.getLast?_eq_getElem?, List.getD_eq_getElem?_getD]
    rwa [← this]
  · exact b3

variable [IsStrictOrderedRing K]

/-- A generator whose draws are what `random.Random.random()` documents: multiples of `2^-53`. -/
def Rng.Draws53 (R : Rng K) : Prop := ∀ g, ∃ j : Nat, j < 2 ^ 53 ∧ (R.random g).1 = (j : K) / 2 ^ 53

theorem draw53 {u : K} (h : ∃ j : Nat, j < 2 ^ 53 ∧ u = (j : K) / 2 ^ 53) :
    0 ≤ u ∧ u < 1 ∧ u ≤ 1 - 1 / 2 ^ 53 ∧ IsDouble u := by
  obtain ⟨j, hj, rfl⟩ := h
  have h1 : (j : K) + 1 ≤ 2 ^ 53 := by exact_mod_cast hj
  have h2 : (j : K) / 2 ^ 53 ≤ 1 - 1 / 2 ^ 53 := by
    rw [le_sub_iff_add_le, ← add_div, div_le_one (by positivity)]; exact h1
  refine ⟨by positivity, h2.trans_lt (by norm_num), h2, j, -53, ?_, by norm_num, ?_⟩
  · rw [abs_of_nonneg (by positivity)]; omega
  · rw [zpow_neg, ← div_eq_mul_inv]; push_cast; norm_num

/-- The rounded draw lies below the last cumulative weight. -/
theorem scaled_lt (F : Rounding K) (last u : K) (hn : 2 ^ (-1022 : Int) < F.rnd last)
    (hu : u ≤ 1 - 1 / 2 ^ 53) : F.rnd (u * F.rnd last) < last :=
  F.lt_of_lt_rnd (F.isDouble _) (F.mul_lt (F.isDouble _) hn hu)

omit [LinearOrder K] [IsStrictOrderedRing K] in
theorem accumulateFlFrom_length (fl : K → K) (acc : K) (ws : List K) :
    (accumulateFlFrom fl acc ws).length = ws.length := by
  induction ws generalizing acc with
  | nil => rfl
  | cons w ws ih => simp [accumulateFlFrom, ih]

omit [LinearOrder K] [IsStrictOrderedRing K] in
theorem accumulateFl_length (fl : K → K) (ws : List K) :
    (accumulateFl fl ws).length = ws.length := by
  cases ws with
  | nil => rfl
  | cons w ws => simp [accumulateFl, accumulateFlFrom_length]

omit [LinearOrder K] [IsStrictOrderedRing K] in
theorem accumulateFlFrom_step (fl : K → K) (acc : K) (ws : List K) (i : Nat) (hi : i < ws.length) :
    (accumulateFlFrom fl acc ws).getD i 0 =
      fl ((acc :: accumulateFlFrom fl acc ws).getD i 0 + ws.getD i 0) := by
  induction ws generalizing acc i with
  | nil => simp at hi
  | cons w ws ih =>
    cases i with
    | zero => simp [accumulateFlFrom]
    | succ i =>
      have := ih (fl (acc + w)) i (by simpa using hi)
      simp only [accumulateFlFrom, List.getD_cons_succ] at this ⊢
      exact this

omit [LinearOrder K] [IsStrictOrderedRing K] in
/-- Each cumulative weight is the rounded sum of the one before and the next weight. -/
theorem accumulateFl_step (fl : K → K) (ws : List K) (i : Nat) (hi : i + 1 < ws.length) :
    (accumulateFl fl ws).getD (i + 1) 0 =
      fl ((accumulateFl fl ws).getD i 0 + ws.getD (i + 1) 0) := by
  cases ws with
  | nil => simp at hi
  | cons w ws =>
    simp only [accumulateFl, List.getD_cons_succ]
    exact accumulateFlFrom_step fl w ws i (by simpa using hi)

omit [IsStrictOrderedRing K] in
theorem accumulateFl_double (F : Rounding K) (ws : List K) (hd : ∀ w ∈ ws, IsDouble w) (i : Nat)
    (hi : i < ws.length) : IsDouble ((accumulateFl F.rnd ws).getD i 0) := by
  cases i with
  | zero =>
    cases ws with
    | nil => simp at hi
    | cons w ws => simpa [accumulateFl] using hd w (by simp)
  | succ i => rw [accumulateFl_step _ _ _ hi]; exact F.isDouble _

/-- **C10 (floats).** Weights that are doubles, none negative, with a total above the least normal
number: every draw selects a valid position, and its weight is not zero. -/
theorem C10_float (F : Rounding K) (ws : List K) (hne : ws ≠ []) (h0 : ∀ w ∈ ws, 0 ≤ w)
    (hd : ∀ w ∈ ws, IsDouble w) (ht : 2 ^ (-1022 : Int) < (accumulateFl F.rnd ws).getLastD 0)
    (u : K) (hu0 : 0 ≤ u) (hu : u ≤ 1 - 1 / 2 ^ 53) :
    choicesPickFl F.rnd (accumulateFl F.rnd ws) u < ws.length ∧
    0 < ws.getD (choicesPickFl F.rnd (accumulateFl F.rnd ws) u) 0 := by
  have hl : 0 < ws.length := List.length_pos_of_ne_nil hne
  have hlast : IsDouble ((accumulateFl F.rnd ws).getLastD 0) := by
    have := accumulateFl_double F ws hd (ws.length - 1) (by omega)
    rw [List.getLastD_eq_getLast?, List.getLast?_eq_getElem?, accumulateFl_length,
      ← List.getD_eq_getElem?_getD]
    exact this
  have hrl := F.rnd_double hlast
  have hx := scaled_lt F _ u (by rwa [hrl]) hu
  have hc : accumulateFl F.rnd ws ≠ [] := by
    intro h; rw [← List.length_eq_zero_iff, accumulateFl_length] at h; omega
  obtain ⟨i1, i2, i3⟩ := bisect_below _ _ hc hx
  unfold choicesPickFl
  rw [accumulateFl_length] at i1 i2 i3 ⊢
  generalize hi : bisect (accumulateFl F.rnd ws)
    (F.rnd (u * F.rnd ((accumulateFl F.rnd ws).getLastD 0))) (ws.length - 1) = i at *
  refine ⟨i1, ?_⟩
  have hmem : ws.getD i 0 ∈ ws := by
    rw [List.getD_eq_getElem _ _ i1]; exact List.getElem_mem _
  refine lt_of_le_of_ne (h0 _ hmem) fun hz => ?_
  cases i with
  | zero =>
    have h1 : (accumulateFl F.rnd ws).getD 0 0 = ws.getD 0 0 := by
      cases ws with
      | nil => rfl
      | cons w ws => rfl
    rw [h1, ← hz] at i3
    refine absurd i3 (not_lt.2 (F.nonneg (mul_nonneg hu0 ?_)))
    rw [hrl]
    exact ((two_zpow_pos _).trans ht).le
  | succ j =>
    rw [accumulateFl_step _ _ _ i1, ← hz, add_zero,
      F.rnd_double (accumulateFl_double F ws hd j (by omega))] at i3
    rcases i2 with h | h
    · omega
    · exact absurd i3 (not_lt.2 h)

/-- **C10 (whole-number weights).** Python sums `int` weights exactly and only converts the total to
a float: then too the selected position is valid and its weight not zero, however large they are. -/
theorem C10_float_ints (F : Rounding K) (ns : List Nat) (ht : 0 < ns.sum) (u : K)
    (hu0 : 0 ≤ u) (hu : u ≤ 1 - 1 / 2 ^ 53) :
    let ws : List K := ns.map Nat.cast
    choicesPickFl F.rnd (accumulate ws) u < ns.length ∧
    0 < ns.getD (choicesPickFl F.rnd (accumulate ws) u) 0 := by
  intro ws
  have hsum : ws.sum = ((ns.sum : Nat) : K) := by simp [ws]
  have hne : ws ≠ [] := by
    intro h
    have : ns = [] := by simpa [ws] using h
    rw [this] at ht; simp at ht
  have hlast : (accumulate ws).getLastD 0 = ws.sum := by
    rw [List.getLastD_eq_getLast?, accumulate_getLast? _ hne]; rfl
  have h1 : (1 : K) ≤ F.rnd ws.sum := by
    refine F.ge_of_ge isDouble_one ?_
    rw [hsum]; exact_mod_cast ht
  have hn : (2 : K) ^ (-1022 : Int) < F.rnd ws.sum := by
    refine lt_of_lt_of_le ?_ h1
    exact zpow_lt_one_of_neg₀ (by norm_num) (by norm_num)
  have hx := scaled_lt F ws.sum u hn hu
  have hc : accumulate ws ≠ [] := by
    intro h; rw [← List.length_eq_zero_iff, accumulate_length] at h
    exact hne (List.length_eq_zero_iff.1 h)
  obtain ⟨i1, i2, i3⟩ := bisect_below _ _ hc (by rw [hlast]; exact hx)
  unfold choicesPickFl
  rw [hlast]
  generalize bisect (accumulate ws) (F.rnd (u * F.rnd ws.sum)) ((accumulate ws).length - 1) = i at *
  rw [accumulate_length] at i1
  have hil : i < ns.length := by simpa [ws] using i1
  refine ⟨hil, Nat.pos_of_ne_zero fun hz => ?_⟩
  have hw : ws.getD i 0 = 0 := by
    rw [List.getD_eq_getElem _ _ i1]
    rw [List.getD_eq_getElem _ _ hil] at hz
    simp [ws, hz]
  rw [accumulate_getD _ _ i1, take_succ_sum _ _ i1, hw, add_zero] at i3
  rcases i2 with h | h
  · rw [h] at i3
    refine absurd i3 (not_lt.2 ?_)
    simp only [List.take_zero, List.sum_nil]
    exact F.nonneg (mul_nonneg hu0 (zero_le_one.trans h1))
  · rcases Nat.eq_zero_or_pos i with h0 | h0
    · rw [h0] at i3
      refine absurd i3 (not_lt.2 ?_)
      simp only [List.take_zero, List.sum_nil]
      exact F.nonneg (mul_nonneg hu0 (zero_le_one.trans h1))
    · rw [accumulate_getD _ _ (by omega), Nat.sub_add_cancel h0] at h
      exact absurd i3 (not_lt.2 h)

/-- **C10 is violated (tiny totals).** Weights `[5e-324, 0.0]`: a draw of 0.75 selects the item of
weight zero. -/
theorem C10_subnormal_violated : ∃ (ws : List ℚ) (u : ℚ), (∀ w ∈ ws, 0 ≤ w) ∧
    (∀ w ∈ ws, IsDouble w) ∧ 0 < ws.sum ∧ 0 ≤ u ∧ u < 1 ∧
    ws.getD (choicesPickFl (rounding ℚ).rnd (accumulateFl (rounding ℚ).rnd ws) u) 1 = 0 := by
  refine ⟨[1 / 2 ^ 1074, 0], 3 / 4, ?_, ?_, ?_, by norm_num, by norm_num, by decide +kernel⟩
  · simp
  · intro w hw
    rcases List.mem_cons.1 hw with rfl | hw
    · exact ⟨1, -1074, by norm_num, by norm_num, by rw [zpow_neg]; norm_num⟩
    · rw [List.mem_singleton.1 hw]; exact isDouble_zero
  · simp

/-- **C10 is violated (absorbed weights).** Weights `[2^53, 1.0]`, in any IEEE arithmetic: the second
item has a positive weight and yet no draw selects it. -/
theorem C10_absorbed_violated (F : Rounding K) (u : K) (hu : u ≤ 1 - 1 / 2 ^ 53) :
    choicesPickFl F.rnd (accumulateFl F.rnd [2 ^ 53, 1]) u = 0 := by
  have h1 : F.rnd (2 ^ 53 + 1) = 2 ^ 53 := by
    have := F.tie (2 ^ 52) 1 (by norm_num) (by norm_num) (by norm_num) (Or.inl le_rfl)
    norm_num at this ⊢
    exact this
  have h2 : accumulateFl F.rnd [2 ^ 53, 1] = [2 ^ 53, 2 ^ 53] := by
    simp only [accumulateFl, accumulateFlFrom, h1]
  rw [h2]
  have hd : IsDouble ((2 : K) ^ 53) := ⟨2 ^ 53, 0, by norm_num, by norm_num, by norm_num⟩
  have hx := F.mul_lt (t := 2 ^ 53) (u := u) hd
    (lt_of_lt_of_le (zpow_lt_one_of_neg₀ (by norm_num) (by norm_num)) (by norm_num)) hu
  unfold choicesPickFl
  have h3 : ([2 ^ 53, 2 ^ 53] : List K).getLastD 0 = 2 ^ 53 := rfl
  rw [h3, F.rnd_double hd]
  simp only [bisect, bisectGo, List.length_cons, List.length_nil, Nat.reduceAdd,
    Nat.add_one_sub_one, zero_lt_one, if_true, Nat.reduceDiv, List.getD_cons_zero, hx]

/-! ### `chance` -/

omit [IsStrictOrderedRing K] in
theorem pickFl_two (fl : K → K) (a b u : K) :
    choicesPickFl fl [a, b] u = if fl (u * fl b) < a then 0 else 1 := by
  have h3 : ([a, b] : List K).getLastD 0 = b := rfl
  unfold choicesPickFl
  rw [h3]
  simp only [bisect, bisectGo, List.length_cons, List.length_nil, Nat.reduceAdd,
    Nat.add_one_sub_one, zero_lt_one, if_true, Nat.reduceDiv, List.getD_cons_zero]

omit [IsStrictOrderedRing K] in
theorem draws53_rands {R : Rng K} (h : R.Draws53) (k : Nat) (g : R.G) :
    ∃ us g', R.rands k g = (.ok us, g') ∧ us.length = k ∧
      ∀ u ∈ us, ∃ j : Nat, j < 2 ^ 53 ∧ u = (j : K) / 2 ^ 53 := by
  induction k generalizing g with
  | zero => exact ⟨[], g, rfl, rfl, by simp⟩
  | succ k ih =>
    obtain ⟨us, g', h1, h2, h3⟩ := ih (R.random g).2
    refine ⟨(R.random g).1 :: us, g', ?_, by simp [h2], ?_⟩
    · rw [Rng.rands, PyM.bind_ok (m := R.rand) (a := (R.random g).1) (s' := (R.random g).2) rfl,
        PyM.bind_ok h1]
      rfl
    · intro u hu
      rcases List.mem_cons.1 hu with rfl | hu
      · exact h g
      · exact h3 u hu

omit [IsStrictOrderedRing K] in
/-- What `chance(p)` computes in floats, given the rounded total. -/
theorem chanceFl_run (R : Rng K) (fl : K → K) (p : K) (k : Nat) (g : R.G) (us : List K) (g' : R.G)
    (hr : R.rands k g = (.ok us, g')) :
    chanceFl R fl p k g =
      if fl (fl (p + fl (1 - p))) ≤ 0 then (.error .valueError, g)
      else (.ok (us.map fun u => decide (fl (u * fl (fl (p + fl (1 - p)))) < p)), g') := by
  unfold chanceFl Rng.choicesCumFl
  simp only [accumulateFl, accumulateFlFrom, List.length_cons, List.length_nil, ne_eq,
    Nat.reduceAdd, not_true_eq_false, if_false, List.getLast?_cons_cons, List.getLast?_singleton,
    Int.toNat_natCast]
  split
  · rfl
  · rw [PyM.bind_ok (a := us.map (choicesPickFl fl [p, fl (p + fl (1 - p))])) (s' := g')]
    · rw [List.map_map]
      change (Except.ok _, g') = (Except.ok _, g')
      congr 2
      refine List.map_congr_left fun u _ => ?_
      simp only [Function.comp, pickFl_two]
      split <;> simp_all
    · rw [PyM.bind_ok hr]; rfl

/-- The total of `chance(p)`: one for `0 ≤ p ≤ 2^53`. -/
theorem chance_total [FloorRing K] (F : Rounding K) (p : K) (hd : IsDouble p) (h0 : 0 ≤ p)
    (h1 : p ≤ 2 ^ 53) : F.rnd (p + F.rnd (1 - p)) = 1 := by
  rcases le_or_gt p 1 with hp | hp
  · -- the error of 1 - p is at most 2^-54, half the gap below one
    have hy0 : 0 ≤ (1 - p) * 2 ^ 53 := mul_nonneg (by linarith) (by positivity)
    have hy : IsDouble ((roundEven ((1 - p) * 2 ^ 53) : K) * 2 ^ (-53 : Int)) := by
      refine ⟨_, -53, ?_, by norm_num, rfl⟩
      rw [abs_of_nonneg (roundEven_nonneg hy0)]
      have h1 := (abs_le.1 (roundEven_near ((1 - p) * 2 ^ 53)).1).2
      have h2 : (roundEven ((1 - p) * 2 ^ 53) : K) < ((2 ^ 53 + 1 : Int) : K) := by
        have h4 : (1 - p) * 2 ^ 53 ≤ 1 * 2 ^ 53 :=
          mul_le_mul_of_nonneg_right (by linarith) (by positivity)
        rw [sub_le_iff_le_add] at h1
        refine lt_of_le_of_lt (h1.trans (add_le_add_right h4 _)) ?_
        norm_num
      have h3 : roundEven ((1 - p) * 2 ^ 53) < 2 ^ 53 + 1 := by exact_mod_cast h2
      omega
    have hn := F.nearest (1 - p) _ hy
    have hb : |(roundEven ((1 - p) * 2 ^ 53) : K) * 2 ^ (-53 : Int) - (1 - p)| ≤ 1 / 2 ^ 54 := by
      have h1 := (roundEven_near ((1 - p) * 2 ^ 53)).1
      rw [abs_le] at h1 ⊢
      have e1 : (2 : K) ^ (-53 : Int) = 1 / 2 ^ 53 := by rw [zpow_neg]; norm_num
      rw [e1]
      constructor <;> linarith [h1.1, h1.2]
    have hδ := abs_le.1 (hn.trans hb)
    have t1 : F.rnd (1 - 1 / 2 ^ 54) = 1 := by
      have := F.tie (2 ^ 53 - 1) (-53) (by norm_num) (by norm_num) (by norm_num)
        (Or.inl (by norm_num))
      rw [zpow_neg] at this
      norm_num at this ⊢
      exact this
    have t2 : F.rnd (1 + 1 / 2 ^ 53) = 1 := by
      have := F.tie (2 ^ 52) (-52) (by norm_num) (by norm_num) (by norm_num) (Or.inl le_rfl)
      rw [zpow_neg] at this
      norm_num at this ⊢
      exact this
    refine le_antisymm ?_ ?_
    · refine (F.mono (y := 1 + 1 / 2 ^ 53) ?_).trans t2.le
      have : (1 : K) / 2 ^ 54 ≤ 1 / 2 ^ 53 := by norm_num
      linarith [hδ.2]
    · exact t1.ge.trans (F.mono (by linarith [hδ.1]))
  · have hdd : IsDouble (1 - p) := by
      obtain ⟨m, e, m0, m1, e1, rfl⟩ := hd.pos_form (by linarith)
      rcases le_or_gt 0 e with he | he
      · obtain ⟨d, rfl⟩ := Int.eq_ofNat_of_zero_le he
        have e2 : (m : K) * 2 ^ (d : Int) = ((m * 2 ^ d : Int) : K) := by
          push_cast; rw [zpow_natCast]
        rw [e2] at *
        have a1 : (1 : Int) < m * 2 ^ d := by exact_mod_cast hp
        have a2 : m * 2 ^ d ≤ 2 ^ 53 := by exact_mod_cast h1
        have := isDouble_int (K := K) (1 - m * 2 ^ d) (by rw [abs_le]; constructor <;> omega)
        push_cast at this ⊢
        exact this
      · obtain ⟨d, hd'⟩ := Int.eq_ofNat_of_zero_le (by omega : 0 ≤ -e)
        have e2 : (1 : K) = ((2 ^ d : Int) : K) * 2 ^ e := by
          have : e = -(d : Int) := by omega
          rw [this, zpow_neg, zpow_natCast]; push_cast
          field_simp
        have hlt : (2 ^ d : Int) < m := by
          rw [e2] at hp
          have := lt_of_mul_lt_mul_right hp (two_zpow_pos (K := K) e).le
          exact_mod_cast this
        refine ⟨2 ^ d - m, e, ?_, e1, ?_⟩
        · have : (0 : Int) < 2 ^ d := by positivity
          rw [abs_le]; constructor <;> omega
        · push_cast; rw [sub_mul]; push_cast at e2; rw [← e2]
    rw [F.rnd_double hdd]
    simp

/-- **C11 (floats).** In binary64 arithmetic, for every `p` between `-(2^53 - 1)` and `2^53`: each
value of `chance(p)` is `True` exactly when its draw is below `p`. -/
theorem C11_float_partial [FloorRing K] (F : Rounding K) (R : Rng K) (hR : R.Draws53) (p : K)
    (hd : IsDouble p) (hlo : -(2 ^ 53 - 1) ≤ p) (hhi : p ≤ 2 ^ 53) (k : Nat) (g : R.G) :
    ∃ us g', R.rands k g = (.ok us, g') ∧ us.length = k ∧ (∀ u ∈ us, 0 ≤ u ∧ u < 1) ∧
      chanceFl R F.rnd p k g = (.ok (us.map fun u => decide (u < p)), g') := by
  obtain ⟨us, g', h1, h2, h3⟩ := draws53_rands hR k g
  refine ⟨us, g', h1, h2, fun u hu => ⟨(draw53 (h3 u hu)).1, (draw53 (h3 u hu)).2.1⟩, ?_⟩
  rw [chanceFl_run R F.rnd p k g us g' h1, F.rnd_rnd]
  rcases le_or_gt 0 p with h0 | h0
  · rw [chance_total F p hd h0 hhi, if_neg (by norm_num)]
    congr 2
    refine List.map_congr_left fun u hu => ?_
    rw [mul_one, F.rnd_double (draw53 (h3 u hu)).2.2.2]
  · have hy : IsDouble ((roundEven (1 - p) : K)) := by
      refine isDouble_int _ ?_
      rw [abs_of_nonneg (roundEven_nonneg (by linarith))]
      have h1 := (abs_le.1 (roundEven_near (1 - p)).1).2
      have h2 : (roundEven (1 - p) : K) < ((2 ^ 53 + 1 : Int) : K) := by push_cast; linarith
      have h3 : roundEven (1 - p) < 2 ^ 53 + 1 := by exact_mod_cast h2
      omega
    have hb := abs_le.1 ((F.nearest (1 - p) _ hy).trans (roundEven_near (1 - p)).1)
    have hhalf : IsDouble (1 / 2 : K) :=
      ⟨1, -1, by norm_num, by norm_num, by rw [zpow_neg]; norm_num⟩
    have ht : 1 / 2 ≤ F.rnd (p + F.rnd (1 - p)) := F.ge_of_ge hhalf (by linarith [hb.1])
    rw [if_neg (by linarith)]
    congr 2
    refine List.map_congr_left fun u hu => ?_
    have h0u := (draw53 (h3 u hu)).1
    have := F.nonneg (mul_nonneg h0u (by linarith : 0 ≤ F.rnd (p + F.rnd (1 - p))))
    rw [decide_eq_false (by linarith), decide_eq_false (by linarith)]

/-- From `2^54` on, one is lost in rounding. -/
theorem absorb_one (F : Rounding K) (a : K) (hd : IsDouble a) (h : 2 ^ 54 ≤ a) :
    F.rnd (a - 1) = a ∧ F.rnd (a + 1) = a := by
  have hnorm : (2 : K) ^ (-1022 : Int) < a :=
    lt_of_lt_of_le (zpow_lt_one_of_neg₀ (by norm_num) (by norm_num)) (le_trans (by norm_num) h)
  obtain ⟨m, e, m0, m1, e1, ha⟩ := hd.normal_form hnorm
  have hp := two_zpow_pos (K := K) e
  have hm : (m : K) ≤ 2 ^ 53 := by exact_mod_cast m1
  have he : 1 ≤ e := by
    by_contra hc
    have h1 : (2 : K) ^ e ≤ 1 := zpow_le_one_of_nonpos₀ (by norm_num) (by omega)
    have h2 : (m : K) * 2 ^ e ≤ 2 ^ 53 * 1 := mul_le_mul hm h1 hp.le (by positivity)
    rw [← ha] at h2
    have : (2 : K) ^ 53 * 1 < 2 ^ 54 := by norm_num
    linarith
  constructor
  · by_cases he2 : e = 1
    · have hm2 : m = 2 ^ 53 := by
        rw [ha, he2, zpow_one] at h
        have h1 : (2 : K) ^ 53 ≤ m := by
          have : (2 : K) ^ 54 = 2 ^ 53 * 2 := by norm_num
          rw [this] at h
          exact le_of_mul_le_mul_right h (by norm_num)
        have h2 : (2 : Int) ^ 53 ≤ m := by exact_mod_cast h1
        omega
      have := F.tie (2 ^ 53 - 1) 1 (by norm_num) (by norm_num) (by norm_num) (Or.inl (by norm_num))
      rw [ha, hm2, he2]
      norm_num at this ⊢
      exact this
    · refine le_antisymm (F.le_of_le hd (by linarith)) (not_lt.1 fun hc => ?_)
      have h4 : (4 : K) ≤ 2 ^ e := by
        have : (4 : K) = 2 ^ (2 : Int) := by norm_num
        rw [this]; exact zpow_le_zpow_right₀ (by norm_num) (by omega)
      have h1 : F.rnd (a - 1) ≤ ((m - 1 : Int) : K) * 2 ^ e := by
        by_contra hg
        have := (F.isDouble (a - 1)).gap (by omega) (not_le.1 hg)
        rw [sub_add_cancel, ← ha] at this
        linarith
      have h2 := F.nearest (a - 1) a hd
      rw [show a - (a - 1) = 1 by ring, abs_one] at h2
      have h3 := (abs_le.1 h2).1
      push_cast at h1
      rw [sub_mul, ← ha] at h1
      linarith
  · have up : ∀ m' e' : Int, 2 ^ 52 ≤ m' → 2 ≤ e' → a = (m' : K) * 2 ^ e' → F.rnd (a + 1) = a := by
      intro m' e' hm' he' ha'
      refine le_antisymm (not_lt.1 fun hc => ?_) (F.ge_of_ge hd (by linarith))
      have h4 : (4 : K) ≤ 2 ^ e' := by
        have : (4 : K) = 2 ^ (2 : Int) := by norm_num
        rw [this]; exact zpow_le_zpow_right₀ (by norm_num) (by omega)
      have h1 := (F.isDouble (a + 1)).gap (e := e') hm' (by rw [← ha']; exact hc)
      have h2 := F.nearest (a + 1) a hd
      rw [show a - (a + 1) = -1 by ring, abs_neg, abs_one] at h2
      have h3 := (abs_le.1 h2).2
      push_cast at h1
      rw [add_mul, ← ha'] at h1
      linarith
    by_cases hm2 : m = 2 ^ 53
    · refine up (2 ^ 52) (e + 1) le_rfl (by omega) ?_
      rw [ha, hm2, zpow_add₀ (by norm_num), zpow_one]; push_cast; ring
    · refine up m e (by omega) ?_ ha
      by_contra hc
      have he2 : e = 1 := by omega
      rw [ha, he2, zpow_one] at h
      have h1 : (m : K) < 2 ^ 53 := by exact_mod_cast (by omega : m < 2 ^ 53)
      have : (2 : K) ^ 54 = 2 ^ 53 * 2 := by norm_num
      linarith

/-- **C11 is violated (large arguments).** In every IEEE arithmetic, for every `p` of at least `2^54`
in magnitude the weights of `chance(p)` cancel: every emission raises `ValueError`, where the
documentation promises `True` or `False`. -/
theorem C11_large_violated (F : Rounding K) (R : Rng K) (p : K) (hd : IsDouble p)
    (h : 2 ^ 54 ≤ |p|) (k : Nat) (g : R.G) :
    chanceFl R F.rnd p k g = (.error .valueError, g) := by
  obtain ⟨us, g', hr, -, -⟩ := rands_spec R k g
  have h0 : F.rnd (p + F.rnd (1 - p)) = 0 := by
    rcases le_or_gt 0 p with hp | hp
    · rw [abs_of_nonneg hp] at h
      rw [show (1 : K) - p = -(p - 1) by ring, F.rnd_neg, (absorb_one F p hd h).1]
      simp
    · rw [abs_of_neg hp] at h
      rw [show (1 : K) - p = -p + 1 by ring, (absorb_one F (-p) hd.neg h).2]
      simp
  rw [chanceFl_run R F.rnd p k g us g' hr, h0, F.rnd_zero, if_pos le_rfl]

/-! ### Weights and cumulative weights -/

/-- The differences of a list are exact in `F`. -/
def ExactDiffs (prev : K) : List K → Prop
  | [] => True
  | c :: cs => IsDouble (c - prev) ∧ ExactDiffs c cs

/-- **C16 (floats).** Assigned cumulative weights whose differences need no rounding are the running
sums of the weights that are derived from them. -/
theorem C16_float_partial (F : Rounding K) (cs : List K) (hd : ∀ c ∈ cs, IsDouble c)
    (he : ExactDiffs 0 cs) : accumulateFl F.rnd (deCumulateFl F.rnd 0 cs) = cs := by
  have go : ∀ (cs : List K) (prev : K), (∀ c ∈ cs, IsDouble c) → ExactDiffs prev cs →
      accumulateFlFrom F.rnd prev (deCumulateFl F.rnd prev cs) = cs := by
    intro cs
    induction cs with
    | nil => intro prev _ _; rfl
    | cons c cs ih =>
      intro prev hd he
      simp only [deCumulateFl, accumulateFlFrom, F.rnd_double he.1, add_sub_cancel,
        F.rnd_double (hd c (by simp)), ih c (fun x hx => hd x (by simp [hx])) he.2]
  cases cs with
  | nil => rfl
  | cons c cs =>
    have hc : F.rnd (c - 0) = c := by rw [sub_zero]; exact F.rnd_double (hd c (by simp))
    simp only [deCumulateFl, accumulateFl, hc, go cs c (fun x hx => hd x (by simp [hx])) he.2]

/-- **C16 is violated (rounded differences).** After `cum_weights = [1.0, 1e16 + 2]` the weights are
`[1.0, 1e16]`, whose running sums are `[1.0, 1e16]`. -/
theorem C16_rounded_violated : ∃ cs : List ℚ, (∀ c ∈ cs, IsDouble c) ∧
    deCumulateFl (rounding ℚ).rnd 0 cs = [1, 10 ^ 16] ∧
    accumulateFl (rounding ℚ).rnd [1, 10 ^ 16] ≠ cs := by
  refine ⟨[1, 10 ^ 16 + 2], ?_, by decide +kernel, by decide +kernel⟩
  intro c hc
  rcases List.mem_cons.1 hc with rfl | hc
  · exact isDouble_one
  · rw [List.mem_singleton.1 hc]
    exact ⟨5 * 10 ^ 15 + 1, 1, by norm_num, by norm_num, by norm_num⟩

/-! ### Choices without weights -/

/-- **C77 (uniform picks).** `floor(random() * n)` is a valid position for every population size, even
those that are no doubles. -/
theorem C77_uniform [FloorRing K] (F : Rounding K) (n : Nat) (hn : 0 < n) (u : K) (hu0 : 0 ≤ u)
    (hu : u ≤ 1 - 1 / 2 ^ 53) : uniformPickFl F.rnd n u < n := by
  have h1 : (1 : K) ≤ F.rnd (n : K) := F.ge_of_ge isDouble_one (by exact_mod_cast hn)
  have hx := scaled_lt F (n : K) u (lt_of_lt_of_le
    (zpow_lt_one_of_neg₀ (by norm_num) (by norm_num)) h1) hu
  have h0 := F.nonneg (mul_nonneg hu0 (zero_le_one.trans h1))
  unfold uniformPickFl
  have h2 : ⌊F.rnd (u * F.rnd (n : K))⌋ < (n : Int) := by
    rw [Int.floor_lt]; exact_mod_cast hx
  have h3 := Int.floor_nonneg.2 h0
  omega

omit [IsStrictOrderedRing K] in
/-- **C77 (weighted picks).** Whatever the rounding, the weights and the draw, the position is valid. -/
theorem C77_weighted (fl : K → K) (cum : List K) (hne : cum ≠ []) (u : K) :
    choicesPickFl fl cum u < cum.length := by
  have hl : 0 < cum.length := List.length_pos_of_ne_nil hne
  have := (bisect_spec cum (fl (u * fl (cum.getLastD 0))) (cum.length - 1)).1
  unfold choicesPickFl
  omega

/-- **C77 (the bound is sharp).** A total of exactly `2^-1022` does not do: with weights
`[2^-1022, 0.0]` the largest draw selects the item of weight zero, in every IEEE arithmetic. -/
theorem C77_least_normal (F : Rounding K) :
    choicesPickFl F.rnd (accumulateFl F.rnd [2 ^ (-1022 : Int), 0]) (1 - 1 / 2 ^ 53) = 1 := by
  have hd : IsDouble ((2 : K) ^ (-1022 : Int)) :=
    ⟨2 ^ 52, -1074, by norm_num, by norm_num, by
      rw [show ((2 ^ 52 : Int) : K) = 2 ^ (52 : Int) by norm_cast, ← zpow_add₀ (by norm_num)]
      norm_num⟩
  have h1 : F.rnd ((1 - 1 / 2 ^ 53) * 2 ^ (-1022 : Int)) = 2 ^ (-1022 : Int) := by
    have := F.tie (2 ^ 52 - 1) (-1074) (by norm_num) (by norm_num) le_rfl (Or.inr rfl)
    have e1 : (2 : K) ^ (-1022 : Int) = 2 ^ 52 * 2 ^ (-1074 : Int) := by
      rw [show (2 : K) ^ 52 = 2 ^ (52 : Int) by norm_cast, ← zpow_add₀ (by norm_num)]
      norm_num
    rw [e1, ← mul_assoc]
    have e2 : (1 - 1 / 2 ^ 53 : K) * 2 ^ 52 = ((2 ^ 52 - 1 : Int) : K) + 1 / 2 := by norm_num
    rw [e2, this]
    norm_num
  have h2 : accumulateFl F.rnd [2 ^ (-1022 : Int), 0] = [2 ^ (-1022 : Int), 2 ^ (-1022 : Int)] := by
    simp only [accumulateFl, accumulateFlFrom, add_zero, F.rnd_double hd]
  rw [h2, pickFl_two, F.rnd_double hd, h1, if_neg (lt_irrefl _)]

/-! ### The threshold of `weighted_shuffle` -/

example : roundDouble (42 / 100 : ℚ) = c042 := by decide +kernel

/-- A value past the midpoint below the double `t` is not rounded below `t`. -/
theorem Rounding.ge_of_nearer (F : Rounding K) {x t : K} {m e : Int} (hm : 2 ^ 52 < m)
    (hd : IsDouble t) (ht : t = (m : K) * 2 ^ e) (hx : x ≤ t) (h : t - x < 2 ^ e / 2) :
    t ≤ F.rnd x := by
  by_contra hc
  rw [not_le] at hc
  have h1 : F.rnd x ≤ ((m - 1 : Int) : K) * 2 ^ e := by
    by_contra hg
    have := (F.isDouble x).gap (by omega) (not_le.1 hg)
    rw [sub_add_cancel, ← ht] at this
    linarith
  push_cast at h1
  rw [sub_mul, ← ht] at h1
  have h2 := F.nearest x t hd
  rw [abs_of_nonneg (by linarith : 0 ≤ t - x)] at h2
  have := (abs_le.1 h2).1
  linarith

/-- **C77 (which algorithm).** The test `number <= nitems * 0.42` of `weighted_shuffle`
(mathtools.py 153) in floating-point arithmetic decides exactly whether `number` is at most 42% of
`nitems`, for all lists of up to `2^47` items. -/
theorem C77_threshold (F : Rounding K) (n : Nat) (hn : n ≤ 2 ^ 47) (k : Int) (hk : k ≤ n) :
    ((k : K) ≤ F.rnd ((n : K) * c042)) ↔ k * 100 ≤ (n : Int) * 42 := by
  have hnK : (n : K) ≤ 2 ^ 47 := by exact_mod_cast hn
  have hn0 : (0 : K) ≤ n := Nat.cast_nonneg n
  have hc1 : (c042 : K) ≤ 42 / 100 := by unfold c042; norm_num
  have hc2 : (42 / 100 : K) - c042 < 42 / 100 / 2 ^ 54 := by unfold c042; norm_num
  have hc3 : (0 : K) < c042 := by unfold c042; norm_num
  have hkd : 0 ≤ k → IsDouble (k : K) := fun h => isDouble_int _ (by
    rw [abs_of_nonneg h]; omega)
  constructor
  · intro h
    by_contra hc
    have h1 : (n : Int) * 42 + 1 ≤ k * 100 := by omega
    have h2 : (n : K) * 42 + 1 ≤ (k : K) * 100 := by exact_mod_cast h1
    have h2' : (n : Int) * 42 + 2 ≤ k * 100 := by omega
    have h3 : (n : K) * 42 + 2 ≤ (k : K) * 100 := by exact_mod_cast h2'
    have hy : IsDouble ((k : K) - 1 / 64) := by
      refine ⟨64 * k - 1, -6, ?_, by norm_num, ?_⟩
      · rw [abs_le]; constructor <;> omega
      · rw [zpow_neg]; push_cast; norm_num; ring
    have h4 : (n : K) * c042 ≤ (k : K) - 1 / 64 := by
      have := mul_le_mul_of_nonneg_left hc1 hn0
      linarith
    have := F.le_of_le hy h4
    linarith
  · intro h
    rcases le_or_gt k 0 with hk0 | hk0
    · have : (k : K) ≤ 0 := by exact_mod_cast hk0
      exact this.trans (F.nonneg (mul_nonneg hn0 hc3.le))
    · rcases eq_or_lt_of_le h with he | hl
      · have heK : (k : K) * 100 = (n : K) * 42 := by exact_mod_cast he
        have hkK : (1 : K) ≤ k := by exact_mod_cast hk0
        obtain ⟨m, e, m0, m1, e1, ht⟩ := (hkd hk0.le).normal_form (K := K)
          (lt_of_lt_of_le (zpow_lt_one_of_neg₀ (by norm_num) (by norm_num)) hkK)
        have hnp : (0 : K) < n := by linarith
        refine F.ge_of_nearer m0 (hkd hk0.le) ht ?_ ?_
        · have := mul_le_mul_of_nonneg_left hc1 hn0
          linarith
        · have h5 := mul_lt_mul_of_pos_left hc2 hnp
          have h6 : (k : K) ≤ 2 ^ 53 * 2 ^ e := by
            rw [ht]
            exact mul_le_mul_of_nonneg_right (by exact_mod_cast m1) (two_zpow_pos e).le
          have h7 : (n : K) * (42 / 100 / 2 ^ 54) = (k : K) / 2 ^ 54 := by
            rw [show (k : K) = n * 42 / 100 by linarith]; ring
          have h8 : (k : K) / 2 ^ 54 ≤ 2 ^ e / 2 := by
            rw [div_le_iff₀ (by positivity)]
            have : (2 : K) ^ e / 2 * 2 ^ 54 = 2 ^ 53 * 2 ^ e := by ring
            rw [this]; exact h6
          rw [mul_sub, h7] at h5
          linarith
      · have h2 : k * 100 + 2 ≤ (n : Int) * 42 := by omega
        have h3 : (k : K) * 100 + 2 ≤ (n : K) * 42 := by exact_mod_cast h2
        refine F.ge_of_ge (hkd hk0.le) ?_
        have h5 : (n : K) * ((42 / 100 : K) - c042) ≤ 2 ^ 47 * (42 / 100 / 2 ^ 54) :=
          mul_le_mul hnK hc2.le (by linarith) (by positivity)
        have h6 : (2 : K) ^ 47 * (42 / 100 / 2 ^ 54) ≤ 2 / 100 := by norm_num
        rw [mul_sub] at h5
        linarith

/-! ### Concrete cases -/

example : choicesPickFl (rounding ℚ).rnd (accumulateFl (rounding ℚ).rnd
    [roundDouble (1 / 10), 0, roundDouble (2 / 10)]) (1 / 2) = 2 := by decide +kernel

/-- A generator that meets `Draws53`. -/
def halfRng : Rng ℚ := streamRng (fun _ => 1 / 2) (fun _ => by norm_num) (fun _ => by norm_num)

theorem halfRng_draws : halfRng.Draws53 := fun _ => ⟨2 ^ 52, by norm_num, by
  change (1 / 2 : ℚ) = _; norm_num⟩

example (g : halfRng.G) : ∃ us g', halfRng.rands 2 g = (.ok us, g') ∧ us.length = 2 ∧
    (∀ u ∈ us, 0 ≤ u ∧ u < 1) ∧ chanceFl halfRng (rounding ℚ).rnd (3 / 4) 2 g =
      (.ok (us.map fun u => decide (u < 3 / 4)), g') :=
  C11_float_partial (rounding ℚ) halfRng halfRng_draws (3 / 4)
    ⟨3, -2, by norm_num, by norm_num, by norm_num⟩ (by norm_num) (by norm_num) 2 g

/-- `chance(1e17)()` raises. -/
example (g : halfRng.G) : chanceFl halfRng (rounding ℚ).rnd (10 ^ 17) 1 g = (.error .valueError, g) :=
  C11_large_violated (rounding ℚ) halfRng _ ⟨5 ^ 17, 17, by norm_num, by norm_num, by norm_num⟩
    (by norm_num) 1 g

example : ExactDiffs (0 : ℚ) [1, 3, 7 / 2] :=
  ⟨⟨1, 0, by norm_num⟩, ⟨2, 0, by norm_num⟩, ⟨1, -1, by norm_num⟩, trivial⟩
example : uniformPickFl (rounding ℚ).rnd 7 (1 - 1 / 2 ^ 53) = 6 := by decide +kernel

end Fauxdoc
