import Verif.Spec.LongRun
import Verif.Props.CallDraw
import Mathlib.Probability.StrongLaw
/-
C123: in the long run the items of a `Choice` turn up as often as their weights say.
-/
set_option linter.unusedSectionVars false
namespace Fauxdoc
open MeasureTheory Choice Filter ProbabilityTheory
open scoped Topology
variable {R : Rng ℝ} {α : Type} [PyHash α]

/-! ### The calls -/

section
variable {items : List α} {c : ChoiceSt α R} {ws : List ℝ}

/-- The values of a call are decided by one draw each. -/
theorem choice_call_run (h : WF items c) (hr : c.replace = true) (hl : items.length ≠ 1)
    (hw : c.weights = some ws) (hsum : 0 < ws.sum) (e : Nat) (n : Option Nat)
    (hro : c.roac = true → wanted n ≤ 1) (g : R.G) :
    ∃ vs, call (n.map Int.ofNat) (({ c with rng := g }, e) : ChoiceSt α R × Nat) =
        (.ok vs, ({ c with rng := R.after (wanted n) g }, e)) ∧
      vs.map some = (List.range (wanted n)).map fun j =>
        items[choicesPick (accumulate ws) ws.sum (R.nthDraw j g)]? := by
  have hwl := weights_length h hw
  have hne : ws ≠ [] := by
    rintro rfl
    exact h.ne (List.length_eq_zero_iff.1 hwl.symm)
  obtain ⟨us, g1, hd, hcall, hul, hu⟩ := call_weighted (s := (({ c with rng := g }, e) : ChoiceSt α R × Nat))
    (h.rng g) hr n hro hl hw hsum
  have hd : R.rands (wanted n) g = (.ok us, g1) := hd
  rw [rands_after] at hd
  cases hd
  refine ⟨_, hcall, ?_⟩
  rw [own_positions, List.map_map, List.map_map]
  · rfl
  · intro q hq
    obtain ⟨u, hu', rfl⟩ := List.mem_map.1 hq
    rw [← hwl]
    exact (choicesPick_spec ws hne hsum u (hu u hu').1 (hu u hu').2).1

/-- So are the values of several calls. -/
theorem callAll_run (h : WF items c) (hr : c.replace = true) (hl : items.length ≠ 1)
    (hw : c.weights = some ws) (hsum : 0 < ws.sum) (e : Nat) (ns : List (Option Nat))
    (hro : c.roac = true → ∀ n ∈ ns, wanted n ≤ 1) : ∀ g : R.G,
    ∃ vss, callAll ns (({ c with rng := g }, e) : ChoiceSt α R × Nat) =
        (.ok vss, ({ c with rng := R.after (ns.map wanted).sum g }, e)) ∧
      vss.flatten.map some = (List.range (ns.map wanted).sum).map fun j =>
        items[choicesPick (accumulate ws) ws.sum (R.nthDraw j g)]? := by
  induction ns with
  | nil => exact fun g => ⟨[], rfl, rfl⟩
  | cons n ns ih =>
    intro g
    obtain ⟨vs, h1, h2⟩ := choice_call_run h hr hl hw hsum e n (fun hx => hro hx n List.mem_cons_self) g
    obtain ⟨vss, h3, h4⟩ := ih (fun hx m hm => hro hx m (List.mem_cons_of_mem _ hm)) (R.after (wanted n) g)
    refine ⟨vs :: vss, ?_, ?_⟩
    · change (call (n.map Int.ofNat) >>= fun vs => callAll ns >>= fun rest => pure (vs :: rest)) _ = _
      rw [PyM.bind_ok h1, PyM.bind_ok h3, after_add]
      rfl
    · rw [List.flatten_cons, List.map_append, h2, h4, List.map_cons, List.sum_cons, List.range_add,
        List.map_append, List.map_map]
      congr 1
      refine List.map_congr_left fun j _ => ?_
      rw [nthDraw_after, Function.comp, Nat.add_comm]

end

/-! ### The law of large numbers -/

/-- The numbers that lead to an item equal to `x`. -/
def hits [DecidableEq α] (items : List α) (ws : List ℝ) (x : α) : Set ℝ :=
  ⋃ p ∈ (Finset.range items.length).filter (fun p => items[p]? = some x),
    Set.Ico ((ws.take p).sum / ws.sum) ((ws.take (p + 1)).sum / ws.sum)

section
variable [DecidableEq α] {items : List α} {ws : List ℝ}

theorem mem_hits (hne : ws ≠ []) (hlen : items.length = ws.length) (hnn : ∀ w ∈ ws, 0 ≤ w) (hsum : 0 < ws.sum)
    (x : α) {u : ℝ} (h0 : 0 ≤ u) (h1 : u < 1) :
    u ∈ hits items ws x ↔ items[choicesPick (accumulate ws) ws.sum u]? = some x := by
  unfold hits
  simp only [Set.mem_iUnion, Finset.mem_filter, Finset.mem_range, Set.mem_Ico, exists_prop]
  constructor
  · rintro ⟨p, ⟨_, hp⟩, hu⟩
    rwa [(choicesPick_iff ws hne hnn hsum u h0 h1 p).2 hu]
  · intro hp
    refine ⟨_, ⟨?_, hp⟩, (choicesPick_iff ws hne hnn hsum u h0 h1 _).1 rfl⟩
    rw [hlen]
    exact (choicesPick_spec ws hne hsum u h0 h1).1

theorem hits_measurable (x : α) : MeasurableSet (hits items ws x) := by
  unfold hits
  exact Finset.measurableSet_biUnion _ fun p _ => measurableSet_Ico

theorem take_le_sum (hnn : ∀ w ∈ ws, 0 ≤ w) (p : Nat) : (ws.take p).sum ≤ ws.sum := by
  have := take_sum_mono ws hnn (show min p ws.length ≤ ws.length by omega)
  rw [List.take_of_length_le le_rfl] at this
  by_cases h : p ≤ ws.length
  · rwa [Nat.min_eq_left h] at this
  · rw [List.take_of_length_le (by omega)]

theorem share_eq (hlen : items.length = ws.length) (x : α) : shareOf items ws x =
    ∑ p ∈ (Finset.range items.length).filter (fun p => items[p]? = some x), ws.getD p 0 / ws.sum := by
  unfold shareOf
  rw [← Finset.sum_div]
  congr 1
  induction items generalizing ws with
  | nil => simp
  | cons a items ih =>
    cases ws with
    | nil => simp at hlen
    | cons w ws =>
      have hlen : items.length = ws.length := by simpa using hlen
      rw [Finset.sum_filter, List.length_cons, Finset.sum_range_succ']
      have := ih hlen
      rw [Finset.sum_filter] at this
      by_cases hx : a = x
      · simp [hx, this, add_comm]
      · simp [hx, this]

theorem hits_volume (hlen : items.length = ws.length) (hnn : ∀ w ∈ ws, 0 ≤ w)
    (hsum : 0 < ws.sum) (x : α) :
    (volume.restrict (Set.Ico (0 : ℝ) 1)).real (hits items ws x) = shareOf items ws x := by
  have hsub : ∀ p, Set.Ico ((ws.take p).sum / ws.sum) ((ws.take (p + 1)).sum / ws.sum) ⊆ Set.Ico (0 : ℝ) 1 := by
    intro p u hu
    refine ⟨le_trans (div_nonneg (List.sum_nonneg fun w hw => hnn w (List.mem_of_mem_take hw)) hsum.le) hu.1,
      hu.2.trans_le ?_⟩
    rw [div_le_one hsum]
    exact take_le_sum hnn _
  have hne : ws ≠ [] := by rintro rfl; simp at hsum
  rw [share_eq hlen]
  unfold hits
  rw [measureReal_biUnion_finset]
  · refine Finset.sum_congr rfl fun p hp => ?_
    have hp : p < ws.length := by
      rw [← hlen]
      exact Finset.mem_range.1 (Finset.mem_filter.1 hp).1
    rw [measureReal_restrict_apply measurableSet_Ico, Set.inter_eq_left.2 (hsub p), Real.volume_real_Ico_of_le]
    · rw [take_succ_sum ws p hp]
      ring
    · exact div_le_div_of_nonneg_right (take_sum_mono ws hnn (Nat.le_succ p)) hsum.le
  · intro p _ q _ hpq
    refine Set.disjoint_left.2 fun u hu hv => hpq ?_
    obtain ⟨h0, h1⟩ := hsub p hu
    rw [← (choicesPick_iff ws hne hnn hsum u h0 h1 p).2 hu, (choicesPick_iff ws hne hnn hsum u h0 h1 q).2 hv]
  · exact fun p _ => measurableSet_Ico

/-- How many of the first `n` draws are in a set, as a share of `n`. -/
theorem draws_frequency [MeasurableSpace R.G] {μ : Measure R.G} (hU : FairDraws R μ) {A : Set ℝ}
    (hA : MeasurableSet A) : ∀ᵐ g ∂μ, Tendsto
      (fun n : ℕ => (∑ i ∈ Finset.range n, A.indicator (fun _ => (1 : ℝ)) (R.nthDraw i g)) / n) atTop
      (𝓝 ((volume.restrict (Set.Ico (0 : ℝ) 1)).real A)) := by
  have := fair_prob hU
  have := unit_prob
  have hm : Measurable (A.indicator fun _ => (1 : ℝ)) := measurable_const.indicator hA
  have hX : ∀ i, Measurable fun g => A.indicator (fun _ => (1 : ℝ)) (R.nthDraw i g) :=
    fun i => hm.comp (fair_measurable hU i)
  have key := strong_law_ae_real (μ := μ) (fun i g => A.indicator (fun _ => (1 : ℝ)) (R.nthDraw i g))
    (Integrable.of_bound (hX 0).aestronglyMeasurable 1 (ae_of_all _ fun g => by
      by_cases h : R.nthDraw 0 g ∈ A <;> simp [h]))
    (fun i j hij => ((fair_indep hU).indepFun hij).comp hm hm)
    (fun i => ⟨(hX i).aemeasurable, (hX 0).aemeasurable, by
      change μ.map ((A.indicator fun _ => (1 : ℝ)) ∘ R.nthDraw i) = μ.map ((A.indicator fun _ => (1 : ℝ)) ∘ R.nthDraw 0)
      rw [← Measure.map_map hm (fair_measurable hU i), ← Measure.map_map hm (fair_measurable hU 0),
        fair_law hU, fair_law hU]⟩)
  have hI : ∫ g, A.indicator (fun _ => (1 : ℝ)) (R.nthDraw 0 g) ∂μ =
      (volume.restrict (Set.Ico (0 : ℝ) 1)).real A := by
    have h1 := integral_map (μ := μ) (fair_measurable hU 0).aemeasurable
      (f := A.indicator fun _ => (1 : ℝ)) hm.aestronglyMeasurable
    rw [← h1, fair_law hU, integral_indicator hA]
    simp
  rw [hI] at key
  exact key

theorem count_range (p : ℕ → Prop) [DecidablePred p] (n : ℕ) :
    (((List.range n).countP fun j => decide (p j) : ℕ) : ℝ) = ∑ i ∈ Finset.range n, if p i then (1 : ℝ) else 0 := by
  induction n with
  | zero => simp
  | succ n ih =>
    rw [List.range_succ, List.countP_append, Finset.sum_range_succ, ← ih]
    by_cases h : p n <;> simp [h]

/-- What follows if each value is decided by one draw. -/
theorem freq_of_run [MeasurableSpace R.G] {μ : Measure R.G} (hU : FairDraws R μ) {A : Set ℝ}
    (hA : MeasurableSet A) (x : α) (item : ℝ → Option α)
    (hx : ∀ u, 0 ≤ u → u < 1 → (u ∈ A ↔ item u = some x)) {T : R.G → ℕ → ℕ}
    (hT : ∀ g, Tendsto (T g) atTop atTop)
    (vals : R.G → ℕ → List α)
    (hv : ∀ g k, (vals g k).map some = (List.range (T g k)).map fun j => item (R.nthDraw j g)) :
    ∀ᵐ g ∂μ, Tendsto (fun k => freq x (vals g k)) atTop
      (𝓝 ((volume.restrict (Set.Ico (0 : ℝ) 1)).real A)) := by
  filter_upwards [draws_frequency hU hA] with g hg
  refine (hg.comp (hT g)).congr fun k => ?_
  have hlen : (vals g k).length = T g k := by
    have := congrArg List.length (hv g k)
    simpa using this
  have hcount : ((vals g k).count x : ℝ) =
      ∑ i ∈ Finset.range (T g k), A.indicator (fun _ => (1 : ℝ)) (R.nthDraw i g) := by
    have h1 : (vals g k).count x = ((vals g k).map some).count (some x) :=
      (List.count_map_of_injective (vals g k) some (Option.some_injective α) x).symm
    rw [h1, hv g k, List.count_eq_countP, List.countP_map]
    have h2 := count_range (fun j => item (R.nthDraw j g) = some x) (T g k)
    rw [show ((fun y : Option α => y == some x) ∘ fun j => item (R.nthDraw j g)) =
      fun j => decide (item (R.nthDraw j g) = some x) from funext fun j => by
        rw [Bool.eq_iff_iff]; simp]
    rw [h2]
    refine Finset.sum_congr rfl fun i _ => ?_
    have h3 := hx _ (nthDraw_mem R i g).1 (nthDraw_mem R i g).2
    by_cases h4 : R.nthDraw i g ∈ A
    · rw [if_pos (h3.1 h4), Set.indicator_of_mem h4]
    · rw [if_neg fun h5 => h4 (h3.2 h5), Set.indicator_of_notMem h4]
  unfold freq
  rw [hcount, hlen]
  rfl

/-- **C123 (weights).** In every state with replacement that a `Choice` with weights can get into, whatever
sequence of calls, each for one or several values: all calls succeed, and with probability 1 the share of
the values equal to `x` tends to the share of the weights of `x`, as the calls go on. (With
`replace_only_after_call`, for calls for one value.) -/
theorem C123_weighted [MeasurableSpace R.G] (μ : Measure R.G) (hU : FairDraws R μ)
    {s : ChoiceSt α R × Nat} (h : ChoiceReach R items s) (hr : s.1.replace = true) (hl : items.length ≠ 1)
    (hw : s.1.weights = some ws) (hnn : ∀ w ∈ ws, 0 ≤ w) (hsum : 0 < ws.sum) (ns : ℕ → Option Nat)
    (hro : s.1.roac = true → ∀ k, wanted (ns k) ≤ 1) (hns : Tendsto (askedBy ns) atTop atTop) :
    ∃ vals : R.G → ℕ → List α,
      (∀ g k, ∃ vss, (callAll ((List.range k).map ns) ({ s.1 with rng := g }, s.2)).1 = .ok vss ∧
        vals g k = vss.flatten ∧ vss.flatten.length = askedBy ns k) ∧
      ∀ x, ∀ᵐ g ∂μ, Tendsto (fun k => freq x (vals g k)) atTop (𝓝 (shareOf items ws x)) := by
  have hwf := reach_wf h
  have hwl := weights_length hwf hw
  have hne : ws ≠ [] := by rintro rfl; simp at hsum
  have hrun := fun (g : R.G) (k : ℕ) => callAll_run hwf hr hl hw hsum s.2 ((List.range k).map ns)
    (fun hx n hn => by obtain ⟨i, _, rfl⟩ := List.mem_map.1 hn; exact hro hx i) g
  choose vss h1 h2 using hrun
  have hask : ∀ k, (((List.range k).map ns).map wanted).sum = askedBy ns k := fun k => by
    rw [List.map_map]; rfl
  refine ⟨fun g k => (vss g k).flatten, fun g k => ⟨vss g k, congrArg Prod.fst (h1 g k), rfl, ?_⟩, fun x => ?_⟩
  · have := congrArg List.length (h2 g k)
    rwa [hask, List.length_map, List.length_map, List.length_range] at this
  · rw [← hits_volume hwl.symm hnn hsum x]
    refine freq_of_run hU (hits_measurable x) x (fun u => items[choicesPick (accumulate ws) ws.sum u]?)
      (fun u h0 h1 => mem_hits hne hwl.symm hnn hsum x h0 h1) (fun _ => hns) _ fun g k => ?_
    rw [h2 g k, hask]

/-- **C123 (again and again).** So, with probability 1, each item with a weight turns up as many times as
you like if you go on calling. -/
theorem C123_again [MeasurableSpace R.G] (μ : Measure R.G) (hU : FairDraws R μ)
    {s : ChoiceSt α R × Nat} (h : ChoiceReach R items s) (hr : s.1.replace = true) (hl : items.length ≠ 1)
    (hw : s.1.weights = some ws) (hnn : ∀ w ∈ ws, 0 ≤ w) (ns : ℕ → Option Nat)
    (hro : s.1.roac = true → ∀ k, wanted (ns k) ≤ 1) (hns : Tendsto (askedBy ns) atTop atTop)
    {p : Nat} {x : α} (hp : items[p]? = some x) (hpos : 0 < ws.getD p 0) :
    ∀ᵐ g ∂μ, ∀ m, ∃ k vss, (callAll ((List.range k).map ns) ({ s.1 with rng := g }, s.2)).1 = .ok vss ∧
      m ≤ vss.flatten.count x := by
  have hwl := weights_length (reach_wf h) hw
  have hsum : 0 < ws.sum := by
    have hp' : p < ws.length := by
      rw [hwl]
      exact (List.getElem?_eq_some_iff.1 hp).1
    rw [List.getD_eq_getElem _ _ hp'] at hpos
    exact hpos.trans_le (List.single_le_sum hnn _ (List.getElem_mem hp'))
  have hshare : 0 < shareOf items ws x := by
    rw [share_eq hwl.symm]
    have hmem : p ∈ (Finset.range items.length).filter (fun p => items[p]? = some x) :=
      Finset.mem_filter.2 ⟨Finset.mem_range.2 (List.getElem?_eq_some_iff.1 hp).1, hp⟩
    refine lt_of_lt_of_le (div_pos hpos hsum) (Finset.single_le_sum (f := fun p => ws.getD p 0 / ws.sum)
      (fun q _ => div_nonneg ?_ hsum.le) hmem)
    by_cases hq : q < ws.length
    · rw [List.getD_eq_getElem _ _ hq]; exact hnn _ (List.getElem_mem hq)
    · rw [List.getD_eq_default _ _ (by omega)]
  obtain ⟨vals, h1, h2⟩ := C123_weighted μ hU h hr hl hw hnn hsum ns hro hns
  filter_upwards [h2 x] with g hg m
  have hlen : ∀ k, (vals g k).length = askedBy ns k := fun k => by
    obtain ⟨vss, _, e, hle⟩ := h1 g k
    rw [e, hle]
  have hlim : Tendsto (fun k => freq x (vals g k) * (askedBy ns k : ℝ)) atTop atTop :=
    hg.pos_mul_atTop hshare (tendsto_natCast_atTop_atTop.comp hns)
  obtain ⟨k, hk, hk'⟩ := ((hlim.eventually_ge_atTop (m : ℝ)).and (hns.eventually_gt_atTop 0)).exists
  obtain ⟨vss, e1, e2, _⟩ := h1 g k
  refine ⟨k, vss, e1, ?_⟩
  rw [← e2]
  unfold freq at hk
  rw [hlen, div_mul_cancel₀] at hk
  · exact_mod_cast hk
  · exact_mod_cast hk'.ne'

/-! ### Without weights -/

theorem uniform_pick (hn : 0 < items.length) {u : ℝ} (h0 : 0 ≤ u) (h1 : u < 1) :
    choicesPick (accumulate (List.replicate items.length (1 : ℝ))) (List.replicate items.length (1 : ℝ)).sum u =
      ⌊u * (items.length : ℝ)⌋.toNat := by
  have hN : (0 : ℝ) < items.length := by exact_mod_cast hn
  have hs : (List.replicate items.length (1 : ℝ)).sum = items.length := by simp
  rw [choicesPick_iff _ (by simpa using hn.ne') (by simp [List.mem_replicate]) (by rw [hs]; exact hN) u h0 h1]
  have hlt := floor_lt_of_draw u items.length h0 h1 hn
  have h2 : 0 ≤ ⌊u * (items.length : ℝ)⌋ := Int.floor_nonneg.2 (by positivity)
  have h3 : ((⌊u * (items.length : ℝ)⌋.toNat : ℕ) : ℝ) = (⌊u * (items.length : ℝ)⌋ : ℝ) := by
    have : ((⌊u * (items.length : ℝ)⌋.toNat : ℕ) : ℤ) = ⌊u * (items.length : ℝ)⌋ := Int.toNat_of_nonneg h2
    exact_mod_cast this
  rw [hs, List.take_replicate, List.take_replicate, List.sum_replicate, List.sum_replicate,
    Nat.min_eq_left (by omega), Nat.min_eq_left (by omega), div_le_iff₀ hN, lt_div_iff₀ hN]
  simp only [nsmul_eq_mul, mul_one, Nat.cast_add, Nat.cast_one, h3]
  exact ⟨Int.floor_le _, Int.lt_floor_add_one _⟩

theorem uniform_share (x : α) : shareOf items (List.replicate items.length (1 : ℝ)) x = freq x items := by
  unfold shareOf freq
  congr 1
  · induction items with
    | nil => simp
    | cons a items ih =>
      rw [List.length_cons, List.replicate_succ, List.zip_cons_cons, List.filter_cons, List.count_cons]
      by_cases h : a = x
      · simp [h, ih, add_comm]
      · simp [h, ih]
  · simp

end

section
variable {items : List α} {c : ChoiceSt α R}

theorem call_run_uniform (h : WF items c) (hr : c.replace = true) (hro : c.roac = false)
    (hl : items.length ≠ 1) (hw : c.weights = none) (e : Nat) (n : Option Nat) (h1 : wanted n ≠ 1) (g : R.G) :
    ∃ vs, call (n.map Int.ofNat) (({ c with rng := g }, e) : ChoiceSt α R × Nat) =
        (.ok vs, ({ c with rng := R.after (wanted n) g }, e)) ∧
      vs.map some = (List.range (wanted n)).map fun j =>
        items[⌊R.nthDraw j g * (items.length : ℝ)⌋.toNat]? := by
  have hcw : c.cumWeights = none := by
    rcases h.weights with ⟨_, h⟩ | ⟨ws, h, _⟩
    · exact h
    · rw [hw] at h; cases h
  have hdw : drawWith { c with rng := g } (wanted n : Int) g = (.ok ((List.range (wanted n)).map fun j =>
      ⌊R.nthDraw j g * (items.length : ℝ)⌋.toNat), R.after (wanted n) g) := by
    unfold drawWith
    rw [if_neg (by rintro ⟨_, h⟩; omega), hcw]
    simp only [Rng.choicesUniform, Int.toNat_natCast]
    rw [if_neg, PyM.bind_ok (rands_after R _ _), List.map_map, h.items_eq]
    · rfl
    · rintro ⟨h', _⟩
      exact h.ne (List.length_eq_zero_iff.1 (by rw [← h', h.items_eq]))
  refine ⟨pick items ((List.range (wanted n)).map fun j => ⌊R.nthDraw j g * (items.length : ℝ)⌋.toNat), ?_, ?_⟩
  · rw [call_repl n (({ c with rng := g }, e) : ChoiceSt α R × Nat) hr (fun hx => by
      change c.roac = true at hx; rw [hro] at hx; cases hx), if_neg h1, withReplacement_run,
      if_neg (by change ¬ c.items.length = 1; rw [h.items_eq]; exact hl)]
    simp only [hdw]
    rw [h.items_eq]
  · rw [own_positions, List.map_map]
    · rfl
    · intro q hq
      obtain ⟨j, _, rfl⟩ := List.mem_map.1 hq
      exact floor_lt_of_draw _ _ (nthDraw_mem R j g).1 (nthDraw_mem R j g).2 (List.length_pos_of_ne_nil h.ne)

theorem callAll_run_uniform (h : WF items c) (hr : c.replace = true) (hro : c.roac = false)
    (hl : items.length ≠ 1) (hw : c.weights = none) (e : Nat) (ns : List (Option Nat))
    (h1 : ∀ n ∈ ns, wanted n ≠ 1) : ∀ g : R.G,
    ∃ vss, callAll ns (({ c with rng := g }, e) : ChoiceSt α R × Nat) =
        (.ok vss, ({ c with rng := R.after (ns.map wanted).sum g }, e)) ∧
      vss.flatten.map some = (List.range (ns.map wanted).sum).map fun j =>
        items[⌊R.nthDraw j g * (items.length : ℝ)⌋.toNat]? := by
  induction ns with
  | nil => exact fun g => ⟨[], rfl, rfl⟩
  | cons n ns ih =>
    intro g
    obtain ⟨vs, e1, e2⟩ := call_run_uniform h hr hro hl hw e n (h1 n List.mem_cons_self) g
    obtain ⟨vss, e3, e4⟩ := ih (fun m hm => h1 m (List.mem_cons_of_mem _ hm)) (R.after (wanted n) g)
    refine ⟨vs :: vss, ?_, ?_⟩
    · change (call (n.map Int.ofNat) >>= fun vs => callAll ns >>= fun rest => pure (vs :: rest)) _ = _
      rw [PyM.bind_ok e1, PyM.bind_ok e3, after_add]
      rfl
    · rw [List.flatten_cons, List.map_append, e2, e4, List.map_cons, List.sum_cons, List.range_add,
        List.map_append, List.map_map]
      congr 1
      refine List.map_congr_left fun j _ => ?_
      rw [nthDraw_after, Function.comp, Nat.add_comm]

/-- **C123 (without weights).** Without weights the share tends to that of `x` among the items. (For calls
for no or several values: `em()` and `em(1)` take their random numbers from `getrandbits`.) -/
theorem C123_uniform [DecidableEq α] [MeasurableSpace R.G] (μ : Measure R.G) (hU : FairDraws R μ)
    {s : ChoiceSt α R × Nat} (h : ChoiceReach R items s) (hr : s.1.replace = true) (hro : s.1.roac = false)
    (hl : items.length ≠ 1) (hw : s.1.weights = none) (ns : ℕ → Option Nat) (h1 : ∀ k, wanted (ns k) ≠ 1)
    (hns : Tendsto (askedBy ns) atTop atTop) :
    ∃ vals : R.G → ℕ → List α,
      (∀ g k, ∃ vss, (callAll ((List.range k).map ns) ({ s.1 with rng := g }, s.2)).1 = .ok vss ∧
        vals g k = vss.flatten ∧ vss.flatten.length = askedBy ns k) ∧
      ∀ x, ∀ᵐ g ∂μ, Tendsto (fun k => freq x (vals g k)) atTop (𝓝 (freq x items)) := by
  have hwf := reach_wf h
  have hpos := List.length_pos_of_ne_nil hwf.ne
  have hrun := fun (g : R.G) (k : ℕ) => callAll_run_uniform hwf hr hro hl hw s.2 ((List.range k).map ns)
    (fun n hn => by obtain ⟨i, _, rfl⟩ := List.mem_map.1 hn; exact h1 i) g
  choose vss e1 e2 using hrun
  have hask : ∀ k, (((List.range k).map ns).map wanted).sum = askedBy ns k := fun k => by
    rw [List.map_map]; rfl
  refine ⟨fun g k => (vss g k).flatten, fun g k => ⟨vss g k, congrArg Prod.fst (e1 g k), rfl, ?_⟩, fun x => ?_⟩
  · have := congrArg List.length (e2 g k)
    rwa [hask, List.length_map, List.length_map, List.length_range] at this
  · have hnn : ∀ w ∈ List.replicate items.length (1 : ℝ), 0 ≤ w := by simp [List.mem_replicate]
    have hsum : 0 < (List.replicate items.length (1 : ℝ)).sum := by
      simp only [List.sum_replicate, nsmul_eq_mul, mul_one]
      exact_mod_cast hpos
    rw [← uniform_share x, ← hits_volume (by simp) hnn hsum x]
    refine freq_of_run hU (hits_measurable x) x (fun u => items[⌊u * (items.length : ℝ)⌋.toNat]?)
      (fun u h0 h1 => ?_) (fun _ => hns) _ fun g k => ?_
    · rw [mem_hits (by simpa using hpos.ne') (by simp) hnn hsum x h0 h1, uniform_pick hpos h0 h1]
    · rw [e2 g k, hask]

end

/-! ### Examples -/

/-- `chance(0.25)` called for ever, for two values and for one in turn: a quarter of the values is true. -/
example : ∃ s : ChoiceSt Bool replayRng × Nat, ChoiceReach replayRng [true, false] s ∧
    ∃ vals : replayRng.G → ℕ → List Bool,
      (∀ g k, ∃ vss, (callAll ((List.range k).map fun i => if i % 2 = 0 then some 2 else none)
          ({ s.1 with rng := g }, s.2)).1 = .ok vss ∧ vals g k = vss.flatten) ∧
      ∀ᵐ g ∂replayMeasure, Tendsto (fun k => freq true (vals g k)) atTop (𝓝 (1 / 4)) := by
  obtain ⟨st, h1, h2, h3, h4⟩ : ∃ st : ChoiceSt Bool replayRng,
      Choice.init [true, false] (some [1 / 4, 3 / 4]) true false (some 1) none 0 = (.ok st, 0) ∧
      st.weights = some [1 / 4, 3 / 4] ∧ st.replace = true ∧ st.roac = false := ⟨_, rfl, rfl, rfl, rfl⟩
  refine ⟨(st, 0), .init _ _ _ _ _ _ _ _ h1, ?_⟩
  obtain ⟨vals, e1, e2⟩ := C123_weighted replayMeasure replayRng_fair (.init _ _ _ _ _ _ _ _ h1) h3
    (by decide) h2 (by intro w hw; simp at hw; rcases hw with rfl | rfl <;> norm_num) (by norm_num)
    (fun i => if i % 2 = 0 then some 2 else none) (fun hx => by rw [h4] at hx; cases hx)
    (tendsto_atTop_mono (f := fun k => k) (fun k => by
      induction k with
      | zero => simp
      | succ k ih =>
        unfold askedBy at ih ⊢
        rw [List.range_succ, List.map_append, List.sum_append]
        have : 1 ≤ wanted (if k % 2 = 0 then some 2 else none) := by split <;> simp [wanted]
        simp only [List.map_cons, List.map_nil, List.sum_cons, List.sum_nil] at ih ⊢
        omega) tendsto_id)
  refine ⟨vals, fun g k => ?_, ?_⟩
  · obtain ⟨vss, a, b, _⟩ := e1 g k
    exact ⟨vss, a, b⟩
  · have := e2 true
    rwa [show shareOf [true, false] [1 / 4, 3 / 4] true = 1 / 4 by norm_num [shareOf]] at this

/-- And each of `True` and `False` turns up again and again. -/
example : ∃ s : ChoiceSt Bool replayRng × Nat, ChoiceReach replayRng [true, false] s ∧
    ∀ᵐ g ∂replayMeasure, ∀ m, ∃ k vss, (callAll ((List.range k).map fun _ => some 3)
      ({ s.1 with rng := g }, s.2)).1 = .ok vss ∧ m ≤ vss.flatten.count false := by
  obtain ⟨st, h1, h2, h3, h4⟩ : ∃ st : ChoiceSt Bool replayRng,
      Choice.init [true, false] (some [1 / 4, 3 / 4]) true false (some 1) none 0 = (.ok st, 0) ∧
      st.weights = some [1 / 4, 3 / 4] ∧ st.replace = true ∧ st.roac = false := ⟨_, rfl, rfl, rfl, rfl⟩
  exact ⟨(st, 0), .init _ _ _ _ _ _ _ _ h1, C123_again replayMeasure replayRng_fair (.init _ _ _ _ _ _ _ _ h1) h3
    (by decide) h2 (by intro w hw; simp at hw; rcases hw with rfl | rfl <;> norm_num) (fun _ => some 3)
    (fun hx => by rw [h4] at hx; cases hx)
    (tendsto_atTop_mono (f := fun k => k) (fun k => by simp [askedBy, wanted]; omega) tendsto_id)
    (p := 1) rfl (by norm_num)⟩

/-- Without weights, three equal items among five. -/
example : ∃ s : ChoiceSt Nat replayRng × Nat, ChoiceReach replayRng [7, 8, 7, 9, 7] s ∧
    ∃ vals : replayRng.G → ℕ → List Nat,
      (∀ g k, ∃ vss, (callAll ((List.range k).map fun _ => some 3) ({ s.1 with rng := g }, s.2)).1 = .ok vss ∧
        vals g k = vss.flatten) ∧
      ∀ᵐ g ∂replayMeasure, Tendsto (fun k => freq 7 (vals g k)) atTop (𝓝 (3 / 5)) := by
  obtain ⟨st, h1, h2, h3, h4⟩ : ∃ st : ChoiceSt Nat replayRng,
      Choice.init [7, 8, 7, 9, 7] none true false (some 1) none 0 = (.ok st, 0) ∧
      st.weights = none ∧ st.replace = true ∧ st.roac = false := ⟨_, rfl, rfl, rfl, rfl⟩
  refine ⟨(st, 0), .init _ _ _ _ _ _ _ _ h1, ?_⟩
  obtain ⟨vals, e1, e2⟩ := C123_uniform replayMeasure replayRng_fair (.init _ _ _ _ _ _ _ _ h1) h3 h4
    (by decide) h2 (fun _ => some 3) (fun _ => by decide)
    (tendsto_atTop_mono (f := fun k => k) (fun k => by simp [askedBy, wanted]; omega) tendsto_id)
  refine ⟨vals, fun g k => ?_, ?_⟩
  · obtain ⟨vss, a, b, _⟩ := e1 g k
    exact ⟨vss, a, b⟩
  · have := e2 7
    rwa [show freq 7 [7, 8, 7, 9, 7] = 3 / 5 by norm_num [freq]] at this

end Fauxdoc
