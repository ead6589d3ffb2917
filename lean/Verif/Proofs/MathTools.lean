import Verif.Model.MathTools
import Verif.Proofs.Random
import Mathlib.Data.Finset.Card
import Mathlib.Algebra.Order.BigOperators.Group.List
/-
Lemmas about `weighted_shuffle`.
-/
set_option linter.unusedSectionVars false
namespace Fauxdoc
variable {K : Type} [Field K] [LinearOrder K] {R : Rng K}

/-- Loop invariant of the low-k loop: `ws` is `ws0` with the sampled positions zeroed. -/
structure LowInv (ws0 ws : List K) (s : List Nat) : Prop where
  len : ws.length = ws0.length
  nodup : s.Nodup
  val : ∀ i, ws.getD i 0 = if i ∈ s then 0 else ws0.getD i 0
  nz : ∀ i ∈ s, ws0.getD i 0 ≠ 0

theorem LowInv.start (ws : List K) : LowInv ws ws [] := ⟨rfl, by simp, by simp, by simp⟩

theorem LowInv.lt {ws0 ws : List K} {s : List Nat} (h : LowInv ws0 ws s) :
    ∀ i ∈ s, i < ws0.length := by
  intro i hi
  by_contra hn
  exact h.nz i hi (List.getD_eq_default _ _ (by omega))

theorem LowInv.step {ws0 ws : List K} {s : List Nat} (h : LowInv ws0 ws s) {i : Nat}
    (hi : ws.getD i 0 ≠ 0) : LowInv ws0 (ws.set i 0) (s ++ [i]) := by
  have hv := h.val i
  have hs : i ∉ s := by
    intro hm; rw [if_pos hm] at hv; exact hi hv
  rw [if_neg hs] at hv
  have hlt : i < ws.length := by
    by_contra hn
    exact hi (List.getD_eq_default _ _ (by omega))
  refine ⟨by simp [h.len], ?_, ?_, ?_⟩
  · rw [List.nodup_append]
    refine ⟨h.nodup, by simp, ?_⟩
    intro a ha b hb
    rw [List.mem_singleton] at hb
    subst hb
    intro hab; subst hab; exact hs ha
  · intro j
    by_cases hj : j = i
    · subst hj
      rw [if_pos (by simp), List.getD_eq_getElem _ _ (by simpa using hlt)]
      simp
    · have h1 : (ws.set i 0).getD j 0 = ws.getD j 0 := by
        simp only [List.getD_eq_getElem?_getD]
        rw [List.getElem?_set_ne (by omega)]
      rw [h1, h.val j]
      simp [hj]
  · intro j hj
    rcases List.mem_append.1 hj with hj | hj
    · exact h.nz j hj
    · rw [List.mem_singleton] at hj; subst hj; rwa [← hv]

theorem lowKScan_inv {ws0 : List K} (is : List Nat) : ∀ {ws : List K} {s : List Nat},
    LowInv ws0 ws s → LowInv ws0 (lowKScan is ws s).1 (lowKScan is ws s).2 ∧
      (lowKScan is ws s).2.length ≤ s.length + is.length ∧
      s.length ≤ (lowKScan is ws s).2.length := by
  induction is with
  | nil => intro ws s h; exact ⟨h, by simp [lowKScan], by simp [lowKScan]⟩
  | cons i is ih =>
    intro ws s h
    by_cases hi : ws.getD i 0 ≠ 0
    · rw [lowKScan, if_pos hi]
      obtain ⟨a, b, c⟩ := ih (h.step hi)
      refine ⟨a, ?_, ?_⟩
      · simp only [List.length_append, List.length_cons, List.length_nil] at b ⊢; omega
      · simp only [List.length_append, List.length_singleton] at c; omega
    · rw [lowKScan, if_neg hi]
      obtain ⟨a, b, c⟩ := ih h
      exact ⟨a, by simp only [List.length_cons]; omega, c⟩

theorem lowKScan_progress {ws0 : List K} (i : Nat) (is : List Nat) {ws : List K} {s : List Nat}
    (h : LowInv ws0 ws s) (hi : ws.getD i 0 ≠ 0) :
    s.length + 1 ≤ (lowKScan (i :: is) ws s).2.length := by
  rw [lowKScan, if_pos hi]
  have := (lowKScan_inv is (h.step hi)).2.2
  simpa using this

/-- A successful `choices` returns the requested number of positions. -/
theorem choicesCum_length {n : Nat} {cum : List K} {k : Int} {g g' : R.G} {ds : List Nat}
    (h : R.choicesCum n cum k g = (.ok ds, g')) : ds.length = k.toNat := by
  unfold Rng.choicesCum at h
  by_cases hc : cum.length ≠ n
  · rw [if_pos hc] at h; cases h
  · rw [if_neg hc] at h
    rcases ht : cum.getLast? with _ | total
    · rw [ht] at h; cases h
    · rw [ht] at h
      change (if total ≤ 0 then _ else _ : PyM _ _) g = _ at h
      by_cases hp : total ≤ 0
      · rw [if_pos hp] at h; cases h
      · rw [if_neg hp] at h
        obtain ⟨us, g1, h1, h2⟩ := PyM.bind_eq_ok h
        obtain ⟨us', g2, h3, hl, _⟩ := rands_spec R k.toNat g
        rw [h3] at h1
        cases h1; cases h2
        simpa using hl

/-- Partial correctness of the low-k loop, for arbitrary weights. -/
theorem lowK_ok {n : Nat} {k : Int} {ws0 : List K} : ∀ (fuel : Nat) {ws : List K} {s ps : List Nat}
    {g g' : R.G}, LowInv ws0 ws s → (s.length : Int) ≤ k →
    lowK R n k fuel ws s g = (.ok ps, g') →
    (∃ ws', LowInv ws0 ws' ps) ∧ (ps.length : Int) = k := by
  intro fuel
  induction fuel with
  | zero => intro ws s ps g g' _ _ h; simp [lowK] at h
  | succ fuel ih =>
    intro ws s ps g g' hinv hle h
    rw [lowK] at h
    by_cases h0 : k - (s.length : Int) = 0
    · rw [if_pos h0] at h
      cases h
      exact ⟨⟨ws, hinv⟩, by omega⟩
    · rw [if_neg h0] at h
      obtain ⟨ds, g1, h1, h2⟩ := PyM.bind_eq_ok h
      have hl := choicesCum_length h1
      obtain ⟨a, b, _⟩ := lowKScan_inv ds hinv
      exact ih a (by omega) h2

variable [IsStrictOrderedRing K]

theorem list_sum_pos_of_getD {ws : List K} (hnn : ∀ w ∈ ws, 0 ≤ w) {i : Nat}
    (hi : 0 < ws.getD i 0) : 0 < ws.sum := by
  have hlt : i < ws.length := by
    by_contra hn
    rw [List.getD_eq_default _ _ (by omega)] at hi
    exact lt_irrefl _ hi
  rw [List.getD_eq_getElem _ _ hlt] at hi
  exact lt_of_lt_of_le hi (List.single_le_sum hnn _ (List.getElem_mem hlt))

theorem LowInv.nonneg {ws0 ws : List K} {s : List Nat} (h : LowInv ws0 ws s)
    (hnn : ∀ w ∈ ws0, 0 ≤ w) : ∀ w ∈ ws, 0 ≤ w := by
  intro w hw
  obtain ⟨i, hi, rfl⟩ := List.mem_iff_getElem.1 hw
  have := h.val i
  rw [List.getD_eq_getElem _ _ hi] at this
  rw [this]
  split
  · exact le_rfl
  · rw [List.getD_eq_getElem _ _ (by rw [← h.len]; exact hi)]
    exact hnn _ (List.getElem_mem _)

/-- Number of positive weights, counted by position. -/
theorem positive_positions (ws : List K) :
    ((Finset.range ws.length).filter fun i => 0 < ws.getD i 0).card =
      (ws.filter (0 < ·)).length := by
  have h1 : ws = (List.range ws.length).map fun i => ws.getD i 0 := by
    apply List.ext_getElem (by simp)
    intro i h1 h2
    rw [List.getElem_map, List.getElem_range, List.getD_eq_getElem _ _ h1]
  conv_rhs => rw [h1, List.filter_map, List.length_map]
  rfl

theorem LowInv.exists_left {ws0 ws : List K} {s : List Nat} (h : LowInv ws0 ws s)
    (hcount : s.length < (ws0.filter (0 < ·)).length) : ∃ i, 0 < ws.getD i 0 := by
  rw [← positive_positions] at hcount
  have hc : s.toFinset.card < ((Finset.range ws0.length).filter fun i => 0 < ws0.getD i 0).card :=
    lt_of_le_of_lt (List.toFinset_card_le s) hcount
  obtain ⟨i, hi, his⟩ := Finset.exists_mem_notMem_of_card_lt_card hc
  refine ⟨i, ?_⟩
  rw [h.val i, if_neg (by simpa using his)]
  exact (Finset.mem_filter.1 hi).2

theorem LowInv.positives {ws0 ws : List K} {s : List Nat} (h : LowInv ws0 ws s)
    (hnn : ∀ w ∈ ws0, 0 ≤ w) : s.length ≤ (ws0.filter (0 < ·)).length := by
  rw [← positive_positions, ← List.toFinset_card_of_nodup h.nodup]
  apply Finset.card_le_card
  intro i hi
  rw [List.mem_toFinset] at hi
  have hlt := h.lt i hi
  rw [Finset.mem_filter, Finset.mem_range]
  refine ⟨hlt, lt_of_le_of_ne ?_ (h.nz i hi).symm⟩
  rw [List.getD_eq_getElem _ _ hlt]
  exact hnn _ (List.getElem_mem _)

/-- Total correctness of the low-k loop for non-negative weights: with enough fuel it returns if
there are `k` positive weights, and raises `ValueError` otherwise. -/
theorem lowK_total {k : Int} {ws0 : List K} (hne : ws0 ≠ []) (hnn : ∀ w ∈ ws0, 0 ≤ w) :
    ∀ (fuel : Nat) {ws : List K} {s : List Nat} (g : R.G), LowInv ws0 ws s →
    (s.length : Int) ≤ k → k - (s.length : Int) < fuel →
    (k ≤ (ws0.filter (0 < ·)).length ∧ ∃ ps g', lowK R ws0.length k fuel ws s g = (.ok ps, g')) ∨
    ((ws0.filter (0 < ·)).length < k ∧
      ∃ g', lowK R ws0.length k fuel ws s g = (.error .valueError, g')) := by
  intro fuel
  induction fuel with
  | zero => intro ws s g _ h1 h2; simp at h2; omega
  | succ fuel ih =>
    intro ws s g hinv hle hf
    have hpos := hinv.positives hnn
    rw [lowK]
    by_cases h0 : k - (s.length : Int) = 0
    · left
      rw [if_pos h0]
      exact ⟨by omega, s, g, rfl⟩
    · rw [if_neg h0]
      have hwne : ws ≠ [] := by
        intro hw; rw [hw] at hinv; exact hne (List.length_eq_zero_iff.1 hinv.len.symm)
      by_cases hsum : 0 < ws.sum
      · obtain ⟨us, g1, hr, hl, hu, hc⟩ := choicesCum_ok R ws hwne hsum (k - (s.length : Int)) g
        rw [hinv.len] at hc
        rw [PyM.bind_ok hc]
        have hcons : ∃ u us', us = u :: us' := by
          cases us with
          | nil => simp only [List.length_nil] at hl; omega
          | cons u us' => exact ⟨u, us', rfl⟩
        obtain ⟨u, us', rfl⟩ := hcons
        have hu0 := hu u (by simp)
        have hp := choicesPick_pos ws hwne hsum u hu0.1 hu0.2
        simp only [List.map_cons]
        obtain ⟨a, b, c⟩ := lowKScan_inv
          (choicesPick (accumulate ws) ws.sum u :: us'.map (choicesPick (accumulate ws) ws.sum)) hinv
        have d := lowKScan_progress (choicesPick (accumulate ws) ws.sum u)
          (us'.map (choicesPick (accumulate ws) ws.sum)) hinv hp.ne'
        simp only [List.length_cons, List.length_map] at b hl
        exact ih g1 a (by omega) (by push_cast at hf; omega)
      · right
        refine ⟨?_, g, ?_⟩
        · by_contra hcon
          obtain ⟨i, hi⟩ := hinv.exists_left (by omega)
          exact hsum (list_sum_pos_of_getD (hinv.nonneg hnn) hi)
        · have hc := choicesCum_fail R ws hwne (not_lt.1 hsum) (k - (s.length : Int)) g
          rw [hinv.len] at hc
          exact PyM.bind_err hc

end Fauxdoc
