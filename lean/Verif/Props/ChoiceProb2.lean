import Verif.Props.ShuffleProb2
/-
C70: `weighted_shuffle` and `Choice` without repeats draw exactly like successive draws in proportion
to the weights of what is left.  C71: without weights, everything is equally likely.
-/
set_option linter.unusedSectionVars false
namespace Fauxdoc
open MeasureTheory Choice
variable {R : Rng ℝ} {α : Type} [PyHash α]

/-- All draws of the generator are independent and uniform. -/
def FairDraws (R : Rng ℝ) [MeasurableSpace R.G] (μ : Measure R.G) : Prop := ∀ n, UniformDraws R μ n

/-- **C70 (shuffle).** Positive weights, independent uniform draws, natural logarithm: for every
requested number (or none, for all), the probability that `weighted_shuffle` returns the items at the
positions `ps` in this order is the product of `weight / weight of everything not yet drawn`. -/
theorem C70_weighted_shuffle [MeasurableSpace R.G] (μ : Measure R.G) (hU : FairDraws R μ)
    (hlog : NaturalLog R) (ws : List ℝ) (hpos : ∀ w ∈ ws, 0 < w) (number : Option Int) {ps : List Nat}
    (hnd : ps.Nodup) (hlt : ∀ p ∈ ps, p < ws.length)
    (hn : (ps.length : Int) = number.getD ws.length) :
    μ {g | (weightedShuffle R ws.length ws number g).1 = .ok ps} =
      ENNReal.ofReal (succProb ws.sum (ps.map (ws.getD · 0))) := by
  unfold weightedShuffle
  simp only [ne_eq, not_true_eq_false, if_false, ← hn, Int.toNat_natCast]
  by_cases h : (ps.length : Int) * 100 ≤ (ws.length : Int) * 42
  · simp only [if_pos h]
    refine lowK_prob μ ws (fun w hw => (hpos w hw).le) (hU _) hnd hlt ?_
    rw [List.filter_eq_self.2 fun w hw => by simpa using hpos w hw]
    omega
  · simp only [if_neg h]
    exact highK_prob μ hlog ws hpos (hU _) hnd hlt

theorem highK_take (ws : List ℝ) {k n : Nat} (hk : k ≤ n) (g : R.G) :
    (highK R ws k g).1 = (highK R ws n g).1.map (·.take k) := by
  unfold highK
  rcases h : highKScores R ws g with ⟨x | sc, g'⟩
  · rw [PyM.bind_err h, PyM.bind_err h]; rfl
  · rw [PyM.bind_ok h, PyM.bind_ok h]
    change Except.ok (List.map (fun x : ℝ × Nat => x.2) _) =
      Except.ok (List.take k (List.map (fun x : ℝ × Nat => x.2) _))
    rw [← List.map_take, List.take_take, Nat.min_eq_left hk]

theorem pick_map (items : List α) (ps : List Nat) (h : ∀ p ∈ ps, p < items.length) :
    (pick items ps).map some = ps.map (items[·]?) := filterMap_positions items ps h

/-- Different positions hold different items. -/
theorem pick_inj {items : List α} (hnd : items.Nodup) {ps : List Nat}
    (hp : ∀ p ∈ ps, p < items.length) {vs : List α} (hv : vs.map some = ps.map (items[·]?))
    {qs : List Nat} (hq : ∀ q ∈ qs, q < items.length) : pick items qs = vs ↔ qs = ps := by
  have hvs : vs = pick items ps :=
    List.map_injective_iff.2 (Option.some_injective α) (hv.trans (pick_map items ps hp).symm)
  rw [hvs]
  refine ⟨fun h => ?_, fun h => by rw [h]⟩
  have h1 := congrArg (List.map some) h
  rw [pick_map _ _ hq, pick_map _ _ hp] at h1
  clear h hv hvs
  induction qs generalizing ps with
  | nil => simpa using h1.symm
  | cons q qs ih =>
    cases ps with
    | nil => simp at h1
    | cons p ps =>
      simp only [List.map_cons, List.cons.injEq] at h1
      obtain ⟨h1, h2⟩ := h1
      have hq0 := hq q (by simp)
      have hp0 := hp p (by simp)
      rw [List.getElem?_eq_getElem hq0, List.getElem?_eq_getElem hp0, Option.some.injEq,
        hnd.getElem_inj_iff] at h1
      rw [h1, ih (fun p h => hp p (by simp [h])) (fun q h => hq q (by simp [h])) h2]

/-- The weights in force. -/
noncomputable def effWeights (n : Nat) : Option (List ℝ) → List ℝ
  | none => List.replicate n 1
  | some ws => ws

theorem globalShuffle_ok {s : ChoiceSt α R × Nat} {ps : List Nat} {g : R.G}
    (h : weightedShuffle R s.1.items.length (shufWeights s.1) none s.1.rng = (.ok ps, g)) :
    globalShuffle s = (.ok ⟨⟩, ({ s.1 with
      rng := g, shuffled := pick s.1.items ps, shuffledIndex := some 0,
      numUniqueItems := s.1.items.length }, s.2)) := by rw [globalShuffle_run, h]

theorem globalShuffle_err {s : ChoiceSt α R × Nat} {x : Err} {g : R.G}
    (h : weightedShuffle R s.1.items.length (shufWeights s.1) none s.1.rng = (.error x, g)) :
    globalShuffle s = (.error x, ({ s.1 with rng := g }, s.2)) := by rw [globalShuffle_run, h]

theorem pick_take (items : List α) (ps : List Nat) (h : ∀ p ∈ ps, p < items.length) (k : Nat) :
    pick items (ps.take k) = (pick items ps).take k := by
  refine List.map_injective_iff.2 (Option.some_injective α) ?_
  rw [pick_map _ _ fun p hp => h p (List.mem_of_mem_take hp), List.map_take, List.map_take,
    pick_map _ _ h]

/-- A shuffle, then `k` values. -/
theorem shuffle_call {c : ChoiceSt α R} (hr : c.replace = false) (hne : c.items ≠ [])
    (hl : (shufWeights c).length = c.items.length) (k : Nat) (hk : k ≤ c.items.length)
    (e : Nat) (g : R.G) :
    ((globalShuffle >>= fun _ => call (some (k : Int))) ({ c with rng := g }, e)).1 =
      (highK R (shufWeights c) k g).1.map (pick c.items) := by
  have hsh : weightedShuffle R c.items.length (shufWeights c) none g =
      highK R (shufWeights c) c.items.length g := by
    unfold weightedShuffle
    have : 0 < c.items.length := List.length_pos_of_ne_nil hne
    simp only [Option.getD_none, Int.toNat_natCast]
    rw [if_neg (by simp [hl]), if_neg (by omega)]
  rw [highK_take _ hk]
  rcases h : highK R (shufWeights c) c.items.length g with ⟨x | ps, g'⟩
  · rw [PyM.bind_err (globalShuffle_err (s := ({ c with rng := g }, e)) (hsh.trans h))]
    rfl
  · rw [PyM.bind_ok (globalShuffle_ok (s := ({ c with rng := g }, e)) (hsh.trans h))]
    have hps := weightedShuffle_none_ok (hsh.trans h)
    obtain ⟨d, e'⟩ := distinctPick_of_positions c.items ps hps.1 hps.2.1
    have hg := Good.of_shuffle.{0} (items := c.items) rfl hr (ShuffleEffect.done g' (pick c.items ps)
      (d.perm (by rw [e', hps.2.2])))
    have hc := call_norepl (some k) ((_, e) : ChoiceSt α R × Nat) hg hr
    rw [if_pos (show [].length + wanted (some k) ≤ _ by simpa [wanted] using hk)] at hc
    refine (congrArg Prod.fst hc).trans ?_
    change Except.ok ((pick c.items ps).take k) = Except.ok (pick c.items (ps.take k))
    rw [pick_take _ _ hps.2.1]

/-- The probability of shuffling `k` given values to the front. -/
theorem shuffle_call_prob [MeasurableSpace R.G] (μ : Measure R.G) (hU : FairDraws R μ)
    (hlog : NaturalLog R) {c : ChoiceSt α R} (hr : c.replace = false) (hne : c.items ≠ [])
    (hnd : c.items.Nodup) (hl : (shufWeights c).length = c.items.length)
    (hpos : ∀ w ∈ shufWeights c, 0 < w) {ps : List Nat} (hps : ps.Nodup)
    (hlt : ∀ p ∈ ps, p < c.items.length) {vs : List α} (hv : vs.map some = ps.map (c.items[·]?))
    (e : Nat) :
    μ {g | ((globalShuffle >>= fun _ => call (some (ps.length : Int)))
        ({ c with rng := g }, e)).1 = .ok vs} =
      ENNReal.ofReal (succProb (shufWeights c).sum (ps.map ((shufWeights c).getD · 0))) := by
  have hk : ps.length ≤ c.items.length := by
    have := (List.Nodup.subperm hps (fun p hp => List.mem_range.2 (hlt p hp))).length_le
    simpa using this
  rw [← highK_prob μ hlog _ hpos (hU _) hps (by rw [hl]; exact hlt)]
  congr 1
  ext g
  simp only [Set.mem_ofPred_eq]
  rw [shuffle_call hr hne hl _ hk]
  rcases h : highK R (shufWeights c) ps.length g with ⟨x | qs, g'⟩
  · simp [Except.map]
  · simp only [Except.map, Except.ok.injEq]
    refine pick_inj hnd hlt hv fun q hq => ?_
    rw [← hl]
    exact (highK_ok h).2.1 q hq

theorem shufWeights_eq {items : List α} {c : ChoiceSt α R} (h : WF items c) :
    shufWeights c = effWeights items.length c.weights ∧
      (effWeights items.length c.weights).length = items.length := by
  rcases h.weights with ⟨h0, _⟩ | ⟨ws, h1, _, h3⟩
  · simp [shufWeights, effWeights, h0, h.items_eq]
  · have : ws ≠ [] := by
      rintro rfl; exact h.ne (List.length_eq_zero_iff.1 h3.symm)
    simp [shufWeights, effWeights, h1, this, h3]

/-- **C70 (switching replacement off).** In every reachable state with replacement, positive weights (or
none, which counts as all ones) and pairwise different items: after `replace = False`, the probability
that `em(k)` returns the items at the positions `ps`, in this order, is the product of
`weight / weight of everything not yet drawn`. -/
theorem C70_replace_false [MeasurableSpace R.G] (μ : Measure R.G) (hU : FairDraws R μ)
    (hlog : NaturalLog R) {items : List α} {s : ChoiceSt α R × Nat} (h : ChoiceReach R items s)
    (hr : s.1.replace = true) (hnd : items.Nodup)
    (hpos : ∀ w ∈ effWeights items.length s.1.weights, 0 < w) {ps : List Nat} (hps : ps.Nodup)
    (hlt : ∀ p ∈ ps, p < items.length) {vs : List α} (hv : vs.map some = ps.map (items[·]?)) :
    μ {g | ((setReplace false >>= fun _ => call (some (ps.length : Int)))
        ({ s.1 with rng := g }, s.2)).1 = .ok vs} =
      ENNReal.ofReal (succProb (effWeights items.length s.1.weights).sum
        (ps.map ((effWeights items.length s.1.weights).getD · 0))) := by
  have hwf := reach_wf h
  obtain ⟨e1, e2⟩ := shufWeights_eq hwf
  have hset : ∀ g, setReplace false (({ s.1 with rng := g }, s.2) : ChoiceSt α R × Nat) =
      globalShuffle ({ s.1 with replace := false, roac := false, rng := g }, s.2) := by
    intro g
    rw [setReplace_run, if_neg (by simp [hr]), if_neg (by simp)]
  have := shuffle_call_prob μ hU hlog (c := { s.1 with replace := false, roac := false }) rfl
    (by rw [hwf.items_eq]; exact hwf.ne) (by rw [hwf.items_eq]; exact hnd)
    (by rw [hwf.items_eq, ← e2, ← e1]; rfl) (by rw [← e1] at hpos; exact hpos) hps
    (by rw [hwf.items_eq]; exact hlt) (by rw [hwf.items_eq]; exact hv) s.2
  rw [← e1]
  refine Eq.trans (congrArg μ ?_) this
  ext g
  simp only [Set.mem_ofPred_eq, PyM.bind_apply, hset]

/-- **C70 (assigning weights).** Without replacement, after `weights = ws` with positive weights. -/
theorem C70_set_weights [MeasurableSpace R.G] (μ : Measure R.G) (hU : FairDraws R μ)
    (hlog : NaturalLog R) {items : List α} {s : ChoiceSt α R × Nat} (h : ChoiceReach R items s)
    (hr : s.1.replace = false) (hnd : items.Nodup) (ws : List ℝ) (hl : ws.length = items.length)
    (hpos : ∀ w ∈ ws, 0 < w) {ps : List Nat} (hps : ps.Nodup)
    (hlt : ∀ p ∈ ps, p < items.length) {vs : List α} (hv : vs.map some = ps.map (items[·]?)) :
    μ {g | ((setWeights (some ws) >>= fun _ => call (some (ps.length : Int)))
        ({ s.1 with rng := g }, s.2)).1 = .ok vs} =
      ENNReal.ofReal (succProb ws.sum (ps.map (ws.getD · 0))) := by
  have hwf := reach_wf h
  have hne : ws ≠ [] := by
    rintro rfl; exact hwf.ne (List.length_eq_zero_iff.1 hl.symm)
  have hset : ∀ g, setWeights (some ws) (({ s.1 with rng := g }, s.2) : ChoiceSt α R × Nat) =
      globalShuffle ({ s.1 with weights := some ws, cumWeights := some (accumulate ws), rng := g },
        s.2) := by
    intro g
    have := setAll_run (some ws) false (({ s.1 with rng := g }, s.2) : ChoiceSt α R × Nat)
    rw [if_neg (by simp)] at this
    rw [this]
    simp [allWeights, hwf.items_eq, hl, hr]
  have e1 : shufWeights ({ s.1 with weights := some ws, cumWeights := some (accumulate ws) } :
      ChoiceSt α R) = ws := by simp [shufWeights, hne]
  have := shuffle_call_prob μ hU hlog
    (c := { s.1 with weights := some ws, cumWeights := some (accumulate ws) }) hr
    (by rw [hwf.items_eq]; exact hwf.ne) (by rw [hwf.items_eq]; exact hnd)
    (by rw [e1, hl, hwf.items_eq]) (by rw [e1]; exact hpos) hps
    (by rw [hwf.items_eq]; exact hlt) (by rw [hwf.items_eq]; exact hv) s.2
  rw [e1] at this
  refine Eq.trans (congrArg μ ?_) this
  ext g
  simp only [Set.mem_ofPred_eq, PyM.bind_apply, hset]

/-- What `em(n)` draws when values are replaced only after a call. -/
theorem roac_call_eq {items : List α} (s : ChoiceSt α R × Nat) (hwf : WF items s.1)
    (hro : s.1.roac = true) (n : Nat) (h1 : 1 < n) (hk : n ≤ items.length) :
    (call (some (n : Int)) s).1 = ((match s.1.weights with
      | none => R.samplePos items.length n
      | some ws => weightedShuffle R items.length ws (some (n : Int))) s.1.rng).1.map
        (pick items) := by
  have hr := hwf.roac hro
  rw [call_roac n s hro h1, withoutReplacement_repl _ _ hr,
    if_neg (by rw [hwf.num hr]; omega), hwf.items_eq]
  rcases s.1.weights with _ | ws
  · simp only
    rcases R.samplePos items.length n s.1.rng with ⟨x | ps, g⟩ <;> rfl
  · simp only
    rcases weightedShuffle R items.length ws (some (n : Int)) s.1.rng with ⟨x | ps, g⟩ <;> rfl

/-- **C70 (replace only after a call).** `em(n)` with positive weights. -/
theorem C70_roac [MeasurableSpace R.G] (μ : Measure R.G) (hU : FairDraws R μ)
    (hlog : NaturalLog R) {items : List α} {s : ChoiceSt α R × Nat} (h : ChoiceReach R items s)
    (hro : s.1.roac = true) (hnd : items.Nodup) {ws : List ℝ} (hw : s.1.weights = some ws)
    (hpos : ∀ w ∈ ws, 0 < w) {ps : List Nat} (hps : ps.Nodup) (h1 : 1 < ps.length)
    (hlt : ∀ p ∈ ps, p < items.length) {vs : List α} (hv : vs.map some = ps.map (items[·]?)) :
    μ {g | (call (some (ps.length : Int)) ({ s.1 with rng := g }, s.2)).1 = .ok vs} =
      ENNReal.ofReal (succProb ws.sum (ps.map (ws.getD · 0))) := by
  have hwf := reach_wf h
  have hl : ws.length = items.length := by
    rcases hwf.weights with ⟨h0, _⟩ | ⟨ws', h1, _, h3⟩
    · rw [hw] at h0; cases h0
    · rw [hw] at h1; cases h1; exact h3
  have hk : ps.length ≤ items.length := by
    have := (List.Nodup.subperm hps (fun p hp => List.mem_range.2 (hlt p hp))).length_le
    simpa using this
  have hr := hwf.roac hro
  rw [← C70_weighted_shuffle μ hU hlog ws hpos (some (ps.length : Int)) hps
    (by rw [hl]; exact hlt) rfl]
  congr 1
  ext g
  simp only [Set.mem_ofPred_eq]
  rw [roac_call_eq (({ s.1 with rng := g }, s.2) : ChoiceSt α R × Nat) (hwf.rng g) hro ps.length h1 hk]
  simp only [hw]
  rw [hl]
  rcases hq : weightedShuffle R items.length ws (some (ps.length : Int)) g with ⟨x | qs, g'⟩
  · simp [Except.map]
  · simp only [Except.map, Except.ok.injEq]
    exact pick_inj hnd hlt hv (weightedShuffle_ok hq).2.1

/-! ### Failures have probability zero -/

/-- **C70 (success).** With positive weights and `0 <= number <= len(items)`, `weighted_shuffle` returns
with probability 1. -/
theorem C70_success [MeasurableSpace R.G] (μ : Measure R.G) (hU : FairDraws R μ) (ws : List ℝ)
    (hpos : ∀ w ∈ ws, 0 < w) (k : Nat) (hk : k ≤ ws.length) :
    μ {g | ∀ ps, (weightedShuffle R ws.length ws (some (k : Int)) g).1 ≠ .ok ps} = 0 := by
  unfold weightedShuffle
  simp only [ne_eq, not_true_eq_false, if_false, Option.getD_some, Int.toNat_natCast]
  by_cases h : (k : Int) * 100 ≤ (ws.length : Int) * 42
  · simp only [if_pos h]
    convert measure_empty (μ := μ)
    ext g
    simp only [Set.mem_ofPred_eq, Set.mem_empty_iff_false, iff_false, not_forall, not_not]
    by_cases hne : ws = []
    · subst hne
      have : k = 0 := by simpa using hk
      subst this
      exact ⟨[], rfl⟩
    · have hf : ws.filter (0 < ·) = ws :=
        List.filter_eq_self.2 fun w hw => by simpa using hpos w hw
      rcases lowK_total (R := R) (k := k) hne (fun w hw => (hpos w hw).le) (k + 1) g
        (LowInv.start ws) (by simp) (by simp) with ⟨_, ps, g', h'⟩ | ⟨h', _⟩
      · exact ⟨ps, by rw [h']⟩
      · rw [hf] at h'
        omega
  · simp only [if_neg h]
    have hsub : {g : R.G | ∀ ps, (highK R ws k g).1 ≠ .ok ps} ⊆
        (fun g => fun j : Fin ws.length => R.nthDraw j g) ⁻¹'
          ⋃ j : Fin ws.length, (fun v => v j) ⁻¹' {0} := by
      intro g hg
      simp only [Set.mem_preimage, Set.mem_iUnion, Set.mem_singleton_iff]
      by_contra hcon
      push Not at hcon
      obtain ⟨g', h1⟩ := (highKScores_draws ws (fun w hw => (hpos w hw).ne') g).1 fun i hi =>
        lt_of_le_of_ne (nthDraw_mem R i g).1 (Ne.symm (hcon ⟨i, hi⟩))
      refine hg (((sortDesc ((((List.range ws.length).map fun i =>
        R.log (R.nthDraw i g) / ws.getD i 0)).zip (List.range ws.length))).take k).map (·.2)) ?_
      unfold highK
      rw [PyM.bind_ok h1]
      rfl
    refine measure_mono_null hsub ?_
    rw [← Measure.map_apply (hU _).1 (MeasurableSet.iUnion fun j =>
      measurable_pi_apply j (measurableSet_singleton 0)), (hU _).2, measure_iUnion_null_iff]
    intro j
    have : (fun v : Fin ws.length → ℝ => v j) ⁻¹' {0} =
        Set.univ.pi fun i => if i = j then {0} else Set.univ := by
      ext v
      simp only [Set.mem_preimage, Set.mem_singleton_iff, Set.mem_univ_pi]
      constructor
      · intro hv i
        by_cases hij : i = j
        · subst hij; simp [hv]
        · simp [hij]
      · intro hv
        have := hv j
        simpa using this
    rw [this, Measure.pi_pi]
    refine Finset.prod_eq_zero (Finset.mem_univ j) ?_
    rw [if_pos rfl]
    exact le_antisymm ((Measure.restrict_apply_le _ _).trans (by simp)) zero_le

/-! ### Equal weights -/

theorem succProb_equal {w : ℝ} (hw : 0 < w) : ∀ (k n : Nat), k ≤ n →
    succProb (n * w) (List.replicate k w) = 1 / (n.descFactorial k : ℝ)
  | 0, n, _ => by simp [succProb]
  | k + 1, 0, h => by omega
  | k + 1, n + 1, h => by
    have e : ((n + 1 : Nat) : ℝ) * w - w = n * w := by push_cast; ring
    rw [List.replicate_succ, succProb, e, succProb_equal hw k n (by omega),
      Nat.succ_descFactorial_succ]
    push_cast
    have : (n.descFactorial k : ℝ) ≠ 0 := by
      exact_mod_cast (Nat.descFactorial_pos.2 (by omega)).ne'
    have : (n : ℝ) + 1 ≠ 0 := by positivity
    field_simp

theorem positions_of {items vs : List α} (hv : vs.Nodup) (hsub : ∀ v ∈ vs, v ∈ items) :
    ∃ ps : List Nat, ps.Nodup ∧ (∀ p ∈ ps, p < items.length) ∧
      vs.map some = ps.map (items[·]?) := by
  classical
  have hget : ∀ v ∈ vs, items[items.idxOf v]? = some v := fun v hm => by
    rw [List.getElem?_eq_getElem (List.idxOf_lt_length_iff.2 (hsub v hm)), List.getElem_idxOf]
  refine ⟨vs.map (items.idxOf ·), ?_, ?_, ?_⟩
  · refine List.Nodup.map_on (fun a ha b hb hab => ?_) hv
    have h1 := hget a ha
    rw [hab, hget b hb] at h1
    exact (Option.some.inj h1).symm
  · intro p hp
    obtain ⟨v, hm, rfl⟩ := List.mem_map.1 hp
    exact List.idxOf_lt_length_iff.2 (hsub v hm)
  · rw [List.map_map]
    exact List.map_congr_left fun v hm => (hget v hm).symm

/-- **C71 (no replacement).** Without weights, after `replace = False` every sequence of `k` different
items comes first with the same probability `1 / (n (n - 1) ... (n - k + 1))`; all `n!` orders are
equally likely. -/
theorem C71_permutation [MeasurableSpace R.G] (μ : Measure R.G) (hU : FairDraws R μ)
    (hlog : NaturalLog R) {items : List α} {s : ChoiceSt α R × Nat} (h : ChoiceReach R items s)
    (hr : s.1.replace = true) (hw : s.1.weights = none) (hnd : items.Nodup) {vs : List α}
    (hv : vs.Nodup) (hsub : ∀ v ∈ vs, v ∈ items) :
    μ {g | ((setReplace false >>= fun _ => call (some (vs.length : Int)))
        ({ s.1 with rng := g }, s.2)).1 = .ok vs} =
      ENNReal.ofReal (1 / (items.length.descFactorial vs.length : ℝ)) := by
  obtain ⟨ps, hpnd, hp, hvs⟩ := positions_of hv hsub
  have hlen : ps.length = vs.length := by
    have := congrArg List.length hvs
    simpa using this.symm
  have := C70_replace_false μ hU hlog h hr hnd (by rw [hw]; simp [effWeights]) hpnd hp hvs
  rw [hlen] at this
  rw [this, hw]
  congr 1
  have e1 : (effWeights items.length none).sum = (items.length : ℝ) * 1 := by simp [effWeights]
  have e2 : ps.map ((effWeights items.length none).getD · 0) =
      List.replicate vs.length (1 : ℝ) := by
    refine List.eq_replicate_iff.2 ⟨by simp [hlen], fun w hw => ?_⟩
    obtain ⟨p, hm, rfl⟩ := List.mem_map.1 hw
    simp [effWeights, hp p hm]
  rw [e1, e2, succProb_equal one_pos]
  have := (List.Nodup.subperm hv hsub).length_le
  exact this

theorem map_range_ofFn {β : Type} (n : Nat) (f : Nat → β) :
    (List.range n).map f = List.ofFn fun j : Fin n => f j :=
  List.ext_getElem (by simp) (by simp)

theorem unweighted_draw {items : List α} (s : ChoiceSt α R × Nat) (hwf : WF items s.1)
    (hr : s.1.replace = true) (hl : items.length ≠ 1) (n : Option Nat)
    (hro : s.1.roac = true → wanted n ≤ 1) (hw : s.1.weights = none) (h1 : wanted n ≠ 1) :
    (call (n.map Int.ofNat) s).1 = .ok (pick items ((List.range (wanted n)).map fun j =>
      ⌊R.nthDraw j s.1.rng * (items.length : ℝ)⌋.toNat)) := by
  have hcw : s.1.cumWeights = none := by
    rcases hwf.weights with ⟨_, h⟩ | ⟨ws, h, _⟩
    · exact h
    · rw [hw] at h; cases h
  have hdw : drawWith s.1 (wanted n : Int) s.1.rng = (.ok ((List.range (wanted n)).map fun j =>
      ⌊R.nthDraw j s.1.rng * (items.length : ℝ)⌋.toNat), R.after (wanted n) s.1.rng) := by
    unfold drawWith
    rw [if_neg (by rintro ⟨_, h⟩; omega), hcw]
    simp only [Rng.choicesUniform, Int.toNat_natCast]
    rw [if_neg, PyM.bind_ok (rands_after R _ _), List.map_map, hwf.items_eq]
    · rfl
    · rintro ⟨h, _⟩
      exact hwf.ne (List.length_eq_zero_iff.1 (by rw [← h, hwf.items_eq]))
  rw [call_repl n s hr hro, if_neg h1, withReplacement_run, if_neg (by rw [hwf.items_eq]; exact hl),
    hdw, hwf.items_eq]

/-- **C71 (with replacement).** Without weights, `em(n)` returns each sequence of `n` items (`n` other
than 1) with the same probability: picks are independent and uniform. -/
theorem C71_independent [MeasurableSpace R.G] (μ : Measure R.G) {items : List α}
    {s : ChoiceSt α R × Nat} (h : ChoiceReach R items s) (hr : s.1.replace = true) (n : Nat)
    (hn : n ≠ 1) (hU : UniformDraws R μ n) (hro : s.1.roac = true → n = 0)
    (hl : items.length ≠ 1) (hnd : items.Nodup) (hw : s.1.weights = none)
    (is : Fin n → Fin items.length) :
    μ {g | (call (some (n : Int)) ({ s.1 with rng := g }, s.2)).1 =
        .ok (List.ofFn fun j => items[is j])} =
      ENNReal.ofReal (1 / items.length) ^ n := by
  have hwf := reach_wf h
  have hN : (0 : ℝ) < items.length := by
    exact_mod_cast List.length_pos_of_ne_nil hwf.ne
  have hfl : ∀ (u : ℝ) (i : Nat), 0 ≤ u → (⌊u * (items.length : ℝ)⌋.toNat = i ↔
      (i : ℝ) / items.length ≤ u ∧ u < ((i : ℝ) + 1) / items.length) := by
    intro u i h0
    rw [div_le_iff₀ hN, lt_div_iff₀ hN]
    have h1 : 0 ≤ ⌊u * (items.length : ℝ)⌋ := Int.floor_nonneg.2 (by positivity)
    have h2 : ⌊u * (items.length : ℝ)⌋.toNat = i ↔ ⌊u * (items.length : ℝ)⌋ = (i : Int) := by omega
    rw [h2, Int.floor_eq_iff]
    simp
  have hset : {g | (call (some (n : Int)) ({ s.1 with rng := g }, s.2)).1 =
      .ok (List.ofFn fun j => items[is j])} =
      (fun g => fun j : Fin n => R.nthDraw j g) ⁻¹' (Set.univ.pi fun j =>
        Set.Ico (((is j : Nat) : ℝ) / items.length) ((((is j : Nat) : ℝ) + 1) / items.length)) := by
    ext g
    have hc := unweighted_draw (({ s.1 with rng := g }, s.2) : ChoiceSt α R × Nat) (hwf.rng g) hr hl
      (some n) (fun hx => by have := hro hx; simp [wanted, this]) hw hn
    have hc' : (call (some (n : Int)) ({ s.1 with rng := g }, s.2)).1 = _ := hc
    simp only [Set.mem_ofPred_eq, Set.mem_preimage, Set.mem_univ_pi, Set.mem_Ico]
    rw [hc', Except.ok.injEq]
    change pick items ((List.range n).map fun j => ⌊R.nthDraw j g * (items.length : ℝ)⌋.toNat) = _ ↔ _
    rw [pick_inj hnd (ps := List.ofFn fun j => (is j : Nat)) (by
        intro p hp
        obtain ⟨j, rfl⟩ := List.mem_ofFn.1 hp
        exact (is j).2) (by
        rw [List.map_ofFn, List.map_ofFn]
        congr 1
        funext j
        exact (List.getElem?_eq_getElem _).symm) (by
        intro q hq
        obtain ⟨j, _, rfl⟩ := List.mem_map.1 hq
        exact floor_lt_of_draw _ _ (nthDraw_mem R j g).1 (nthDraw_mem R j g).2
          (List.length_pos_of_ne_nil hwf.ne)), map_range_ofFn, List.ofFn_inj, funext_iff]
    exact forall_congr' fun j => hfl _ _ (nthDraw_mem R j g).1
  rw [hset, ← Measure.map_apply hU.1 (MeasurableSet.univ_pi fun _ => measurableSet_Ico), hU.2,
    Measure.pi_pi, Finset.prod_congr rfl (g := fun _ => ENNReal.ofReal (1 / items.length))]
  · simp
  · intro j _
    rw [Measure.restrict_apply measurableSet_Ico, Set.inter_eq_left.2, Real.volume_Ico]
    · congr 1; ring
    · intro u hu
      refine ⟨le_trans (by positivity) hu.1, lt_of_lt_of_le hu.2 ?_⟩
      rw [div_le_one hN]
      exact_mod_cast (is j).2

theorem unweighted_single {items : List α} (s : ChoiceSt α R × Nat) (hwf : WF items s.1)
    (hr : s.1.replace = true) (hl : items.length ≠ 1) (n : Option Nat) (h1 : wanted n = 1)
    (hw : s.1.weights = none) :
    (call (n.map Int.ofNat) s).1 = .ok [items[(R.randbelow items.length s.1.rng).1]'(
      R.randbelow_lt _ _ (List.length_pos_of_ne_nil hwf.ne))] := by
  have hlt := R.randbelow_lt items.length s.1.rng (List.length_pos_of_ne_nil hwf.ne)
  have hdw : drawWith s.1 1 s.1.rng = (.ok [(R.randbelow items.length s.1.rng).1],
      (R.randbelow items.length s.1.rng).2) := by
    unfold drawWith
    rw [if_pos (by simp [hw])]
    have hc : R.choice items.length s.1.rng =
        (.ok (R.randbelow items.length s.1.rng).1, (R.randbelow items.length s.1.rng).2) := by
      unfold Rng.choice
      rw [if_neg (by omega)]
    rw [hwf.items_eq, PyM.bind_ok hc]
    rfl
  rw [call_repl n s hr (fun _ => h1.le), if_pos h1, withReplacement_run,
    if_neg (by rw [hwf.items_eq]; exact hl), hdw, hwf.items_eq]
  simp only [pick]
  rw [List.filterMap_cons, List.getElem?_eq_getElem hlt]
  rfl

/-- **C71 (one value).** Without weights, `em()` and `em(1)` pick each item with the same probability if
the generator's `_randbelow(len(items))` is uniform. -/
theorem C71_single [MeasurableSpace R.G] (μ : Measure R.G) {items : List α}
    {s : ChoiceSt α R × Nat} (h : ChoiceReach R items s) (hr : s.1.replace = true)
    (hl : items.length ≠ 1) (hnd : items.Nodup) (hw : s.1.weights = none)
    (hU : ∀ i < items.length, μ {g | (R.randbelow items.length g).1 = i} =
      ENNReal.ofReal (1 / items.length)) (n : Option Nat) (hn : wanted n = 1) :
    ∀ v ∈ items, μ {g | (call (n.map Int.ofNat) ({ s.1 with rng := g }, s.2)).1 = .ok [v]} =
      ENNReal.ofReal (1 / items.length) := by
  intro v hv
  obtain ⟨i, hi, rfl⟩ := List.mem_iff_getElem.1 hv
  have hwf := reach_wf h
  rw [← hU i hi]
  congr 1
  ext g
  simp only [Set.mem_ofPred_eq]
  rw [unweighted_single (({ s.1 with rng := g }, s.2) : ChoiceSt α R × Nat) (hwf.rng g) hr hl n hn hw]
  rw [Except.ok.injEq, List.cons.injEq, and_iff_left rfl, hnd.getElem_inj_iff]

/-- **C71 (replace only after a call).** Without weights, all sequences of `n` different items are equally
likely for `em(n)` if they are for the generator's `sample`. -/
theorem C71_sample [MeasurableSpace R.G] (μ : Measure R.G) {items : List α}
    {s : ChoiceSt α R × Nat} (h : ChoiceReach R items s) (hro : s.1.roac = true)
    (hnd : items.Nodup) (hw : s.1.weights = none) {vs : List α} (hv : vs.Nodup)
    (hsub : ∀ v ∈ vs, v ∈ items) (h1 : 1 < vs.length)
    (hU : ∀ ps : List Nat, ps.Nodup → (∀ p ∈ ps, p < items.length) → ps.length = vs.length →
      μ {g | (R.sample items.length vs.length g).1 = ps} =
        ENNReal.ofReal (1 / (items.length.descFactorial vs.length : ℝ))) :
    μ {g | (call (some (vs.length : Int)) ({ s.1 with rng := g }, s.2)).1 = .ok vs} =
      ENNReal.ofReal (1 / (items.length.descFactorial vs.length : ℝ)) := by
  have hwf := reach_wf h
  have hk : vs.length ≤ items.length := (List.Nodup.subperm hv hsub).length_le
  obtain ⟨ps, hps, hp, hvs⟩ := positions_of hv hsub
  have hlen : ps.length = vs.length := by
    have := congrArg List.length hvs
    simpa using this.symm
  rw [← hU ps hps hp hlen]
  congr 1
  ext g
  simp only [Set.mem_ofPred_eq]
  rw [roac_call_eq (({ s.1 with rng := g }, s.2) : ChoiceSt α R × Nat) (hwf.rng g) hro vs.length h1 hk]
  simp only [hw]
  have hs : R.samplePos items.length (vs.length : Int) g =
      (.ok (R.sample items.length vs.length g).1, (R.sample items.length vs.length g).2) := by
    unfold Rng.samplePos
    rw [if_pos (by omega)]
    simp
  rw [hs]
  simp only [Except.map, Except.ok.injEq]
  exact pick_inj hnd hp hvs (R.sample_lt _ _ g hk)

/-! ### Instances -/

theorem replayRng_fair : FairDraws replayRng replayMeasure := replayRng_uniform

theorem replayRng_log : NaturalLog replayRng := fun _ _ _ => rfl

/-- A full shuffle: weights 1, 2, 3 come out as third, first, second with probability
3/6 * 1/3 * 2/2. -/
example : replayMeasure {g | (weightedShuffle replayRng 3 [1, 2, 3] none g).1 = .ok [2, 0, 1]} =
    ENNReal.ofReal (1 / 6) := by
  have := C70_weighted_shuffle replayMeasure replayRng_fair replayRng_log [1, 2, 3] (by simp) none
    (ps := [2, 0, 1]) (by simp) (by simp) (by simp)
  refine this.trans ?_
  norm_num [succProb]

/-- A small sample: weights 1, 1, 1, 1, 2, two drawn, the last and then the first, with probability
2/6 * 1/4. -/
example : replayMeasure {g | (weightedShuffle replayRng 5 [1, 1, 1, 1, 2] (some 2) g).1 =
    .ok [4, 0]} = ENNReal.ofReal (1 / 12) := by
  have := C70_weighted_shuffle replayMeasure replayRng_fair replayRng_log [1, 1, 1, 1, 2] (by simp)
    (some 2) (ps := [4, 0]) (by simp) (by simp) (by simp)
  refine this.trans ?_
  norm_num [succProb]

/-- A `Choice` switched to drawing without replacement: 'c' (weight 3 of 6) comes first with
probability 1/2. -/
example : ∃ s : ChoiceSt Char replayRng × Nat, ChoiceReach replayRng ['a', 'b', 'c'] s ∧
    replayMeasure {g | ((setReplace false >>= fun _ => call (some 1))
      ({ s.1 with rng := g }, s.2)).1 = .ok ['c']} = ENNReal.ofReal (1 / 2) := by
  obtain ⟨st, h1, h2, h3⟩ : ∃ st : ChoiceSt Char replayRng,
      Choice.init ['a', 'b', 'c'] (some [1, 2, 3]) true false (some 1) none 0 = (.ok st, 0) ∧
      st.weights = some [1, 2, 3] ∧ st.replace = true := ⟨_, rfl, rfl, rfl⟩
  refine ⟨(st, 0), .init _ _ _ _ _ _ _ _ h1, ?_⟩
  have := C70_replace_false replayMeasure replayRng_fair replayRng_log
    (.init _ _ _ _ _ _ _ _ h1) h3 (by decide) (by simp [h2, effWeights]) (ps := [2]) (by simp)
    (by simp) (vs := ['c']) rfl
  refine this.trans ?_
  norm_num [succProb, h2, effWeights]

/-- Unweighted: every order of three items has probability 1/6. -/
example : ∃ s : ChoiceSt Char replayRng × Nat, ChoiceReach replayRng ['a', 'b', 'c'] s ∧
    replayMeasure {g | ((setReplace false >>= fun _ => call (some 3))
      ({ s.1 with rng := g }, s.2)).1 = .ok ['b', 'c', 'a']} = ENNReal.ofReal (1 / 6) := by
  obtain ⟨st, h1, h2, h3⟩ : ∃ st : ChoiceSt Char replayRng,
      Choice.init ['a', 'b', 'c'] none true false (some 1) none 0 = (.ok st, 0) ∧
      st.weights = none ∧ st.replace = true := ⟨_, rfl, rfl, rfl⟩
  refine ⟨(st, 0), .init _ _ _ _ _ _ _ _ h1, ?_⟩
  have := C71_permutation replayMeasure replayRng_fair replayRng_log
    (.init _ _ _ _ _ _ _ _ h1) h3 h2 (by decide) (vs := ['b', 'c', 'a']) (by decide) (by decide)
  refine this.trans ?_
  norm_num [Nat.descFactorial]

end Fauxdoc
