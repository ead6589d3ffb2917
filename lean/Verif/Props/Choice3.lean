import Verif.Props.Choice2
import Verif.Props.Pdf
/-
C10 (intervals), C11.
-/
set_option linter.unusedSectionVars false
namespace Fauxdoc
open Choice

section
variable {K : Type} [Field K] [LinearOrder K] [FloorRing K] {α : Type} [PyHash α] {R : Rng K}

/-- A call with weights turns each uniform draw into a position by `choices`. -/
theorem Choice.call_weighted [IsStrictOrderedRing K] {items : List α} {s : ChoiceSt α R × Nat}
    (h : WF items s.1) (hr : s.1.replace = true) (n : Option Nat)
    (hro : s.1.roac = true → wanted n ≤ 1) (hl : items.length ≠ 1) {ws : List K}
    (hw : s.1.weights = some ws) (hsum : 0 < ws.sum) :
    ∃ us g, R.rands (wanted n) s.1.rng = (.ok us, g) ∧
      call (n.map Int.ofNat) s =
        (.ok (pick items (us.map (choicesPick (accumulate ws) ws.sum))), ({ s.1 with rng := g }, s.2)) ∧
      us.length = wanted n ∧ (∀ u ∈ us, 0 ≤ u ∧ u < 1) := by
  obtain ⟨hcw, hlen⟩ : s.1.cumWeights = some (accumulate ws) ∧ ws.length = items.length := by
    rcases h.weights with ⟨h0, _⟩ | ⟨ws', h1, h2, h3⟩
    · rw [hw] at h0; cases h0
    · rw [hw] at h1; cases h1; exact ⟨h2, h3⟩
  have hne : ws ≠ [] := by
    intro hx; rw [hx] at hlen; exact h.ne (List.length_eq_zero_iff.1 hlen.symm)
  obtain ⟨us, g, hd, hul, hu, hc⟩ := choicesCum_ok R ws hne hsum (wanted n : Int) s.1.rng
  have hrun : withReplacement (wanted n : Int) s =
      (.ok (pick items (us.map (choicesPick (accumulate ws) ws.sum))),
        ({ s.1 with rng := g }, s.2)) := by
    have hdw : drawWith s.1 (wanted n : Int) s.1.rng =
        (.ok (us.map (choicesPick (accumulate ws) ws.sum)), g) := by
      unfold drawWith
      rw [if_neg (by simp [hw]), hcw]
      simp only
      rw [h.items_eq, ← hlen]; exact hc
    rw [withReplacement_run, if_neg (by rw [h.items_eq]; exact hl), hdw]
    simp only [h.items_eq]
  refine ⟨us, g, hd, ?_, by simpa using hul, hu⟩
  rw [call_repl n s hr hro]
  by_cases h1 : wanted n = 1
  · rw [if_pos h1]
    rw [h1] at hrun
    have hrun' : withReplacement 1 s = _ := hrun
    rw [hrun']
    have hps : (pick items (us.map (choicesPick (accumulate ws) ws.sum))).length = 1 := by
      rw [pick_length, List.length_map, hul, h1]; · rfl
      intro i hi
      obtain ⟨u, hu', rfl⟩ := List.mem_map.1 hi
      rw [← hlen]
      exact (choicesPick_spec ws hne hsum u (hu u hu').1 (hu u hu').2).1
    obtain ⟨v, hv⟩ := List.length_eq_one_iff.1 hps
    rw [hv]; rfl
  · rw [if_neg h1]; exact hrun

/-- **C10 (intervals).** In every reachable with-replacement state with weights of positive total
(and more than one item), the values of a call correspond one to one to the uniform draws it
makes: draw `u` yields item `i` precisely when `u * total` lies between the sums of the first `i`
and of the first `i + 1` weights. -/
theorem C10_interval [IsStrictOrderedRing K] {items : List α} {s : ChoiceSt α R × Nat}
    (h : ChoiceReach R items s) (hr : s.1.replace = true) (n : Option Nat)
    (hro : s.1.roac = true → wanted n ≤ 1) (hl : items.length ≠ 1) {ws : List K}
    (hw : s.1.weights = some ws) (hsum : 0 < ws.sum) :
    ∃ us g vs, R.rands (wanted n) s.1.rng = (.ok us, g) ∧
      call (n.map Int.ofNat) s = (.ok vs, ({ s.1 with rng := g }, s.2)) ∧
      List.Forall₂ (fun u v => ∃ i, items[i]? = some v ∧
        (ws.take i).sum ≤ u * ws.sum ∧ u * ws.sum < (ws.take (i + 1)).sum) us vs := by
  have hwf := reach_wf h
  obtain ⟨us, g, hd, hc, hul, hu⟩ := call_weighted hwf hr n hro hl hw hsum
  refine ⟨us, g, _, hd, hc, ?_⟩
  have hlen : ws.length = items.length := by
    rcases hwf.weights with ⟨h0, _⟩ | ⟨ws', h1, h2, h3⟩
    · rw [hw] at h0; cases h0
    · rw [hw] at h1; cases h1; exact h3
  have hne : ws ≠ [] := by
    intro hx; rw [hx] at hlen; exact hwf.ne (List.length_eq_zero_iff.1 hlen.symm)
  clear hd hc hul
  induction us with
  | nil => exact .nil
  | cons u us ih =>
    obtain ⟨a, b, c⟩ := choicesPick_spec ws hne hsum u (hu u (by simp)).1 (hu u (by simp)).2
    have hget : items[choicesPick (accumulate ws) ws.sum u]? =
        some (items[choicesPick (accumulate ws) ws.sum u]'(by omega)) :=
      List.getElem?_eq_getElem _
    have hp : pick items ((u :: us).map (choicesPick (accumulate ws) ws.sum)) =
        items[choicesPick (accumulate ws) ws.sum u]'(by omega) ::
          pick items (us.map (choicesPick (accumulate ws) ws.sum)) := by
      rw [List.map_cons, pick, List.filterMap_cons, hget]; rfl
    rw [hp]
    exact .cons ⟨_, hget, b, c⟩ (ih fun u' hu' => hu u' (by simp [hu']))

/-- **C10 (zero weights).** Every value emitted with replacement comes from a position with positive
weight; if the items are pairwise different, an item of weight 0 is never emitted. -/
theorem C10_positive_weight [IsStrictOrderedRing K] {items : List α} {s s' : ChoiceSt α R × Nat}
    (h : ChoiceReach R items s) (hr : s.1.replace = true) (n : Option Nat)
    (hro : s.1.roac = true → wanted n ≤ 1) (hl : items.length ≠ 1) {ws : List K}
    (hw : s.1.weights = some ws) (hsum : 0 < ws.sum) {vs : List α}
    (hrun : call (n.map Int.ofNat) s = (.ok vs, s')) :
    ∀ v ∈ vs, ∃ i, items[i]? = some v ∧ 0 < ws.getD i 0 := by
  obtain ⟨us, g, vs', hd, hc, hf⟩ := C10_interval h hr n hro hl hw hsum
  rw [hc] at hrun
  cases hrun
  intro v hv
  have hlen : ws.length = items.length := by
    rcases (reach_wf h).weights with ⟨h0, _⟩ | ⟨ws', h1, h2, h3⟩
    · rw [hw] at h0; cases h0
    · rw [hw] at h1; cases h1; exact h3
  clear hc hd
  induction hf with
  | nil => simp at hv
  | cons hx _ ih =>
    rcases List.mem_cons.1 hv with rfl | hv
    · obtain ⟨i, hi, hlo, hhi⟩ := hx
      refine ⟨i, hi, ?_⟩
      have hlt : i < ws.length := by
        rw [hlen]; exact (List.getElem?_eq_some_iff.1 hi).1
      rw [take_succ_sum ws i hlt] at hhi
      by_contra hn
      push Not at hn
      linarith
    · exact ih hv

/-- With weights `[p, 1 - p]` the first position is chosen exactly by the draws below `p`, for every
number `p` (negative and above one included). -/
theorem choicesPick_chance (p u : K) :
    choicesPick (accumulate [p, 1 - p]) 1 u = if u < p then 0 else 1 := by
  simp only [choicesPick, accumulate, accumulateFrom, bisect, List.length_cons, List.length_nil,
    bisectGo]
  simp only [mul_one, zero_add, Nat.reduceAdd, Nat.add_one_sub_one, zero_lt_one, if_true,
    Nat.reduceDiv, List.getD_cons_zero]

/-- **C11.** `chance(p)` can always be constructed, and in every state it reaches by emitting, each
value is `True` exactly when its uniform draw is below `p`: never for `p <= 0`, always for
`p >= 1`. -/
theorem C11_chance [IsStrictOrderedRing K] (p : K) (seed : Option Int) (ent : Nat) :
    ∃ st ent', chance (R := R) p seed ent = (.ok st, ent') ∧
      ∀ (g : R.G) (n : Option Nat), ∃ us g', R.rands (wanted n) g = (.ok us, g') ∧
        us.length = wanted n ∧ (∀ u ∈ us, 0 ≤ u ∧ u < 1) ∧
        call (n.map Int.ofNat) ({ st with rng := g }, ent') =
          (.ok (us.map fun u => decide (u < p)), ({ st with rng := g' }, ent')) := by
  obtain ⟨st, ent', hst⟩ : ∃ st ent', chance (R := R) p seed ent = (.ok st, ent') := by
    cases seed <;> exact ⟨_, _, rfl⟩
  have hi := init_ok hst
  have hw : st.weights = some [p, 1 - p] := by
    cases seed <;> (cases hst; rfl)
  refine ⟨st, ent', hst, fun g n => ?_⟩
  have hsum : ([p, 1 - p] : List K).sum = 1 := by simp
  obtain ⟨us, g', hd, hc, hul, hu⟩ := call_weighted (s := ({ st with rng := g }, ent'))
    (hi.1.rng g) hi.2.2.2.1 n (fun hx => absurd (hi.2.2.2.2.symm.trans hx) (by simp)) (by simp) hw
    (by rw [hsum]; exact one_pos)
  refine ⟨us, g', hd, hul, hu, hc.trans ?_⟩
  congr 2
  rw [hsum]
  clear hd hc hul
  induction us with
  | nil => rfl
  | cons u us ih =>
    have ih' := ih fun u' hu' => hu u' (by simp [hu'])
    unfold pick at ih' ⊢
    rw [List.map_cons, List.filterMap_cons, List.map_cons, choicesPick_chance, ih']
    by_cases hp : u < p <;> simp [hp]

/-- **C11 (certain outcomes).** -/
theorem C11_certain [IsStrictOrderedRing K] (p : K) (seed : Option Int) (ent : Nat) :
    ∃ st ent', chance (R := R) p seed ent = (.ok st, ent') ∧
      ∀ (g : R.G) (n : Option Nat), ∃ vs s', vs.length = wanted n ∧
        call (n.map Int.ofNat) ({ st with rng := g }, ent') = (.ok vs, s') ∧
        (p ≤ 0 → ∀ v ∈ vs, v = false) ∧ (1 ≤ p → ∀ v ∈ vs, v = true) := by
  obtain ⟨st, ent', h1, h2⟩ := C11_chance (R := R) p seed ent
  refine ⟨st, ent', h1, fun g n => ?_⟩
  obtain ⟨us, g', hd, hul, hu, hc⟩ := h2 g n
  refine ⟨_, _, by simpa using hul, hc, fun hp v hv => ?_, fun hp v hv => ?_⟩
  · obtain ⟨u, hu', rfl⟩ := List.mem_map.1 hv
    have := (hu u hu').1
    simp only [decide_eq_false_iff_not, not_lt]
    linarith
  · obtain ⟨u, hu', rfl⟩ := List.mem_map.1 hv
    have := (hu u hu').2
    simp only [decide_eq_true_eq]
    linarith

/-- With non-zero weights the score loop can only fail on a draw of exactly `0.0`. -/
theorem highKScores_error : ∀ (ws : List K) (g g' : R.G) (x : Err), (∀ w ∈ ws, w ≠ 0) →
    highKScores R ws g = (.error x, g') → x = .valueError := by
  intro ws
  induction ws with
  | nil => intro g g' x _ h; cases h
  | cons w ws ih =>
    intro g g' x hw h
    rw [highKScores] at h
    rw [PyM.bind_ok (m := R.rand) (a := (R.random g).1) (s' := (R.random g).2) rfl] at h
    by_cases hu : (R.random g).1 = 0
    · rw [if_pos hu] at h; cases h; rfl
    · rw [if_neg hu, if_neg (hw w (by simp))] at h
      rcases hs : highKScores R ws (R.random g).2 with ⟨y | sc, g1⟩
      · rw [PyM.bind_err hs] at h
        cases h
        exact ih _ _ _ (fun w hw' => hw w (by simp [hw'])) hs
      · rw [PyM.bind_ok hs] at h; cases h

/-- Constructing a `Choice` with positive weights, one per item, succeeds; the only possible failure
is the `ValueError` of a draw of exactly `0.0` in the initial shuffle without replacement. -/
theorem Choice.init_positive (items : List α) (hne : items ≠ []) (ws : List K)
    (hl : ws.length = items.length) (hpos : ∀ w ∈ ws, 0 < w) (replace roac : Bool)
    (seed : Option Int) (ent : Nat) :
    (∃ st ent', Choice.init (R := R) items (some ws) replace roac seed none ent = (.ok st, ent') ∧
      st.weights = some ws) ∨
    (replace = false ∧ roac = false ∧ ∃ ent', Choice.init (R := R) items (some ws) replace roac seed
      none ent = (.error .valueError, ent')) := by
  have htr : truthy (some ws) = true := by
    cases ws with
    | nil => exact absurd (List.length_eq_zero_iff.1 hl.symm) hne
    | cons a l => rfl
  have hto : allWeights items (some ws) false = .ok (some ws, some (accumulate ws)) := by
    unfold allWeights
    simp only
    rw [if_neg (by simp [hl])]; rfl
  unfold Choice.init
  have htr' : truthy (none : Option (List K)) = false := rfl
  rw [if_neg (by simpa using hne), if_neg (by simp [htr'])]
  simp only [htr, htr', hto, if_true]
  generalize hst : ChoiceSt.mk items (some ws) (some (accumulate ws)) (replace || roac) roac
    ([] : List α) none (items.length : Int) seed (R.ofSeed 0) = st0
  obtain ⟨g, e, _, hr⟩ := reset_run (st0, ent)
  rw [hr]
  by_cases hb : st0.replace = true
  · simp only [hb, if_true]
    left
    refine ⟨_, _, rfl, ?_⟩
    rw [← hst]
  · have hb' : (replace || roac) = false := by rw [← hst] at hb; simpa using hb
    have hrr : replace = false ∧ roac = false := by simpa using hb'
    rw [if_neg hb, globalShuffle_run]
    have hsw : shufWeights ({ st0 with rng := g }) = ws := by
      rw [← hst]
      unfold shufWeights
      simp only
      cases ws with
      | nil => cases htr
      | cons a l => rfl
    have hit : st0.items = items := by rw [← hst]
    have hwt : st0.weights = some ws := by rw [← hst]
    simp only [hsw]
    rw [← hit] at hl hne
    rcases hsh : weightedShuffle R st0.items.length ws none g with ⟨x | ps, g'⟩
    · right
      refine ⟨hrr.1, hrr.2, e, ?_⟩
      have hx : x = .valueError := by
        unfold weightedShuffle at hsh
        rw [if_neg (by simp [hl])] at hsh
        simp only [Option.getD_none] at hsh
        have hp : 0 < st0.items.length := List.length_pos_of_ne_nil hne
        rw [if_neg (by omega)] at hsh
        unfold highK at hsh
        rcases hs : highKScores R ws g with ⟨y | sc, g1⟩
        · rw [PyM.bind_err hs] at hsh
          cases hsh
          exact highKScores_error ws g _ _ (fun w hw => (hpos w hw).ne') hs
        · rw [PyM.bind_ok hs] at hsh; cases hsh
      simp only [hx]
    · left
      exact ⟨_, _, rfl, hwt⟩

end

end Fauxdoc
