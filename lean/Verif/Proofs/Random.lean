import Verif.Py.Random
import Mathlib.Data.List.GetD
import Mathlib.Tactic.Ring
import Mathlib.Tactic.Linarith
/-
Facts about the CPython algorithms of `Verif.Py.Random`, for every generator.
-/
set_option linter.unusedSectionVars false
namespace Fauxdoc
variable {K : Type} [Field K] [LinearOrder K] {R : Rng K}

theorem rands_spec (R : Rng K) (n : Nat) (g : R.G) :
    ∃ us g', R.rands n g = (.ok us, g') ∧ us.length = n ∧ ∀ u ∈ us, 0 ≤ u ∧ u < 1 := by
  induction n generalizing g with
  | zero => exact ⟨[], g, rfl, rfl, by simp⟩
  | succ n ih =>
    obtain ⟨us, g', h, hl, hu⟩ := ih (R.random g).2
    refine ⟨(R.random g).1 :: us, g', ?_, by simp [hl], ?_⟩
    · change (R.rand >>= fun u => R.rands n >>= fun us => pure (u :: us)) g = _
      rw [PyM.bind_ok (m := R.rand) (a := (R.random g).1) (s' := (R.random g).2) rfl,
        PyM.bind_ok h]
      rfl
    · intro u hu'
      rcases List.mem_cons.1 hu' with rfl | hm
      · exact ⟨R.random_nonneg g, R.random_lt_one g⟩
      · exact hu u hm

/-- What binary search guarantees locally, sorted or not. -/
theorem bisectGo_spec (a : List K) (x : K) (n : Nat) :
    ∀ fuel lo hi, hi - lo ≤ fuel → lo ≤ hi → hi ≤ n →
      (lo = 0 ∨ a.getD (lo - 1) 0 ≤ x) → (hi = n ∨ x < a.getD hi 0) →
      let i := bisectGo a x fuel lo hi
      i ≤ n ∧ (i = 0 ∨ a.getD (i - 1) 0 ≤ x) ∧ (i = n ∨ x < a.getD i 0) := by
  intro fuel
  induction fuel with
  | zero =>
    intro lo hi h1 h2 h3 h4 h5
    have : lo = hi := by omega
    subst this
    exact ⟨h3, h4, h5⟩
  | succ fuel ih =>
    intro lo hi h1 h2 h3 h4 h5
    simp only [bisectGo]
    by_cases hlt : lo < hi
    · rw [if_pos hlt]
      have hm1 : lo ≤ (lo + hi) / 2 := by omega
      have hm2 : (lo + hi) / 2 < hi := by omega
      by_cases hx : x < a.getD ((lo + hi) / 2) 0
      · rw [if_pos hx]
        exact ih lo _ (by omega) hm1 (by omega) h4 (Or.inr hx)
      · rw [if_neg hx]
        refine ih _ hi (by omega) (by omega) h3 (Or.inr ?_) h5
        simpa using not_lt.1 hx
    · rw [if_neg hlt]
      have : lo = hi := by omega
      subst this
      exact ⟨h3, h4, h5⟩

theorem bisect_spec (a : List K) (x : K) (hi : Nat) :
    bisect a x hi ≤ hi ∧ (bisect a x hi = 0 ∨ a.getD (bisect a x hi - 1) 0 ≤ x) ∧
      (bisect a x hi = hi ∨ x < a.getD (bisect a x hi) 0) :=
  bisectGo_spec a x hi hi 0 hi (by omega) (by omega) le_rfl (Or.inl rfl) (Or.inl rfl)

@[simp] theorem accumulateFrom_length (acc : K) (ws : List K) :
    (accumulateFrom acc ws).length = ws.length := by
  induction ws generalizing acc with
  | nil => rfl
  | cons w ws ih => simp [accumulateFrom, ih]

@[simp] theorem accumulate_length (ws : List K) : (accumulate ws).length = ws.length :=
  accumulateFrom_length 0 ws

theorem accumulateFrom_getD (acc : K) (ws : List K) (i : Nat) (hi : i < ws.length) :
    (accumulateFrom acc ws).getD i 0 = acc + (ws.take (i + 1)).sum := by
  induction ws generalizing acc i with
  | nil => simp at hi
  | cons w ws ih =>
    cases i with
    | zero => simp [accumulateFrom]
    | succ i =>
      have := ih (acc + w) i (by simpa using hi)
      simp only [accumulateFrom, List.getD_cons_succ, this, List.take_succ_cons, List.sum_cons]
      ring

/-- `accumulate` holds the running sums. -/
theorem accumulate_getD (ws : List K) (i : Nat) (hi : i < ws.length) :
    (accumulate ws).getD i 0 = (ws.take (i + 1)).sum := by
  rw [accumulate, accumulateFrom_getD 0 ws i hi, zero_add]

theorem accumulate_getLast? (ws : List K) (h : ws ≠ []) :
    (accumulate ws).getLast? = some ws.sum := by
  have hl : 0 < ws.length := List.length_pos_of_ne_nil h
  rw [List.getLast?_eq_getElem?, accumulate_length]
  have h1 := accumulate_getD ws (ws.length - 1) (by omega)
  rw [Nat.sub_add_cancel hl, List.take_length] at h1
  have h2 : ws.length - 1 < (accumulate ws).length := by rw [accumulate_length]; omega
  rw [List.getElem?_eq_getElem h2, ← h1, List.getD_eq_getElem _ _ h2]

variable [IsStrictOrderedRing K]

/-- Where a weighted draw lands: the chosen position is in range, has a positive weight, and the
scaled draw lies in its interval of the running sums. -/
theorem choicesPick_spec (ws : List K) (hne : ws ≠ []) (hpos : 0 < ws.sum)
    (u : K) (h0 : 0 ≤ u) (h1 : u < 1) :
    let i := choicesPick (accumulate ws) ws.sum u
    i < ws.length ∧ (ws.take i).sum ≤ u * ws.sum ∧ u * ws.sum < (ws.take (i + 1)).sum := by
  have hl : 0 < ws.length := List.length_pos_of_ne_nil hne
  obtain ⟨b1, b2, b3⟩ := bisect_spec (accumulate ws) (u * ws.sum) (ws.length - 1)
  simp only [choicesPick, accumulate_length]
  generalize bisect (accumulate ws) (u * ws.sum) (ws.length - 1) = i at b1 b2 b3
  refine ⟨by omega, ?_, ?_⟩
  · rcases b2 with rfl | b2
    · simpa using mul_nonneg h0 hpos.le
    · by_cases hi : i = 0
      · subst hi; simpa using mul_nonneg h0 hpos.le
      · rw [accumulate_getD _ _ (by omega), Nat.sub_add_cancel (by omega)] at b2
        exact b2
  · rcases b3 with rfl | b3
    · rw [Nat.sub_add_cancel hl, List.take_length]
      exact mul_lt_of_lt_one_left hpos h1
    · rwa [accumulate_getD _ _ (by omega)] at b3

theorem take_succ_sum (ws : List K) (i : Nat) (hi : i < ws.length) :
    (ws.take (i + 1)).sum = (ws.take i).sum + ws.getD i 0 := by
  rw [List.getD_eq_getElem _ _ hi, List.take_succ_eq_append_getElem hi, List.sum_append]
  simp

theorem choicesPick_pos (ws : List K) (hne : ws ≠ []) (hpos : 0 < ws.sum)
    (u : K) (h0 : 0 ≤ u) (h1 : u < 1) :
    0 < ws.getD (choicesPick (accumulate ws) ws.sum u) 0 := by
  obtain ⟨a, b, c⟩ := choicesPick_spec ws hne hpos u h0 h1
  rw [take_succ_sum ws _ a] at c
  by_contra hn
  push Not at hn
  linarith

/-- Success and failure of `rng.choices(..., weights)`. -/
theorem choicesCum_ok (R : Rng K) (ws : List K) (hne : ws ≠ []) (hpos : 0 < ws.sum) (k : Int)
    (g : R.G) : ∃ us g', R.rands k.toNat g = (.ok us, g') ∧ us.length = k.toNat ∧
      (∀ u ∈ us, 0 ≤ u ∧ u < 1) ∧
      R.choicesCum ws.length (accumulate ws) k g =
        (.ok (us.map (choicesPick (accumulate ws) ws.sum)), g') := by
  obtain ⟨us, g', h, hl, hu⟩ := rands_spec R k.toNat g
  refine ⟨us, g', h, hl, hu, ?_⟩
  unfold Rng.choicesCum
  rw [if_neg (by simp), accumulate_getLast? ws hne]
  change (if ws.sum ≤ 0 then _ else _ : PyM _ _) g = _
  rw [if_neg (not_le.2 hpos), PyM.bind_ok h]
  rfl

theorem choicesCum_fail (R : Rng K) (ws : List K) (hne : ws ≠ []) (hpos : ws.sum ≤ 0) (k : Int)
    (g : R.G) : R.choicesCum ws.length (accumulate ws) k g = (.error .valueError, g) := by
  unfold Rng.choicesCum
  rw [if_neg (by simp), accumulate_getLast? ws hne]
  change (if ws.sum ≤ 0 then _ else _ : PyM _ _) g = _
  rw [if_pos hpos]; rfl

end Fauxdoc
