import Verif.Props.DocRun
import Mathlib.Probability.Independence.Basic
/-
C128: how often the values of two fields come together in the long run.
-/
set_option linter.unusedSectionVars false
namespace Fauxdoc
open MeasureTheory Filter World ProbabilityTheory
open scoped Topology
variable {R : Rng ℝ}

/-- Events that are independent of each other and equally likely. -/
theorem events_frequency {Ω : Type} [MeasurableSpace Ω] (P : Measure Ω) [IsProbabilityMeasure P]
    (E : ℕ → Set Ω) (hE : ∀ i, MeasurableSet (E i))
    (hind : ∀ i j, i ≠ j → P (E i ∩ E j) = P (E i) * P (E j)) (hlaw : ∀ i, P (E i) = P (E 0)) :
    ∀ᵐ o ∂P, Tendsto (fun n : ℕ => (∑ i ∈ Finset.range n, (E i).indicator (fun _ => (1 : ℝ)) o) / n) atTop
      (𝓝 (P.real (E 0))) := by
  have hX : ∀ i, Measurable ((E i).indicator fun _ => (1 : ℝ)) := fun i => measurable_const.indicator (hE i)
  have hgen : ∀ i, MeasurableSpace.comap ((E i).indicator fun _ => (1 : ℝ)) inferInstance ≤
      MeasurableSpace.generateFrom {E i} := by
    intro i
    refine Measurable.comap_le ?_
    exact Measurable.indicator (m := MeasurableSpace.generateFrom {E i}) measurable_const
      (MeasurableSpace.measurableSet_generateFrom rfl)
  have key := strong_law_ae_real (μ := P) (fun i => (E i).indicator fun _ => (1 : ℝ))
    (Integrable.of_bound (hX 0).aestronglyMeasurable 1 (ae_of_all _ fun o => by
      by_cases h : o ∈ E 0 <;> simp [h]))
    (fun i j hij => by
      have hs : IndepSet (E i) (E j) P := (indepSet_iff_measure_inter_eq_mul (hE i) (hE j) P).2 (hind i j hij)
      exact indep_of_indep_of_le_left (indep_of_indep_of_le_right hs (hgen j)) (hgen i))
    (fun i => ⟨(hX i).aemeasurable, (hX 0).aemeasurable, by
      refine Measure.ext fun s hs => ?_
      rw [Measure.map_apply (hX i) hs, Measure.map_apply (hX 0) hs]
      classical
      rw [Set.indicator_const_preimage_eq_union, Set.indicator_const_preimage_eq_union]
      have hc : P (E i)ᶜ = P (E 0)ᶜ := by
        rw [measure_compl (hE i) (measure_ne_top _ _), measure_compl (hE 0) (measure_ne_top _ _), hlaw]
      by_cases h1 : (1 : ℝ) ∈ s <;> by_cases h0 : (0 : ℝ) ∈ s <;> simp [h1, h0, hlaw i, hc]⟩)
  have hI : ∫ o, (E 0).indicator (fun _ => (1 : ℝ)) o ∂P = P.real (E 0) := by
    rw [integral_indicator (hE 0)]
    simp
  rw [hI] at key
  exact key

/-- Pairs of draws of two generators that have nothing to do with each other. -/
theorem pairs_frequency [MeasurableSpace R.G] {μ ν : Measure R.G} (hU : FairDraws R μ) (hV : FairDraws R ν)
    {A B : Set ℝ} (hA : MeasurableSet A) (hB : MeasurableSet B) : ∀ᵐ p ∂(μ.prod ν), Tendsto
      (fun n : ℕ => (∑ i ∈ Finset.range n,
        {q : R.G × R.G | R.nthDraw i q.1 ∈ A ∧ R.nthDraw i q.2 ∈ B}.indicator (fun _ => (1 : ℝ)) p) / n) atTop
      (𝓝 ((volume.restrict (Set.Ico (0 : ℝ) 1)).real A * (volume.restrict (Set.Ico (0 : ℝ) 1)).real B)) := by
  have := fair_prob hU
  have := fair_prob hV
  have hE : ∀ i, {q : R.G × R.G | R.nthDraw i q.1 ∈ A ∧ R.nthDraw i q.2 ∈ B} =
      (R.nthDraw i ⁻¹' A) ×ˢ (R.nthDraw i ⁻¹' B) := fun i => rfl
  have hmA : ∀ i, MeasurableSet (R.nthDraw i ⁻¹' A) := fun i => fair_measurable hU i hA
  have hmB : ∀ i, MeasurableSet (R.nthDraw i ⁻¹' B) := fun i => fair_measurable hV i hB
  have lawA : ∀ i, μ (R.nthDraw i ⁻¹' A) = volume.restrict (Set.Ico (0 : ℝ) 1) A := fun i => by
    rw [← Measure.map_apply (fair_measurable hU i) hA, fair_law hU]
  have lawB : ∀ i, ν (R.nthDraw i ⁻¹' B) = volume.restrict (Set.Ico (0 : ℝ) 1) B := fun i => by
    rw [← Measure.map_apply (fair_measurable hV i) hB, fair_law hV]
  have key := events_frequency (μ.prod ν)
    (fun i => {q : R.G × R.G | R.nthDraw i q.1 ∈ A ∧ R.nthDraw i q.2 ∈ B})
    (fun i => by rw [hE]; exact (hmA i).prod (hmB i))
    (fun i j hij => by
      simp only [hE]
      rw [Set.prod_inter_prod, Measure.prod_prod, Measure.prod_prod, Measure.prod_prod,
        ((fair_indep hU).indepFun hij).measure_inter_preimage_eq_mul _ _ hA hA,
        ((fair_indep hV).indepFun hij).measure_inter_preimage_eq_mul _ _ hB hB]
      ring)
    (fun i => by simp only [hE]; rw [Measure.prod_prod, Measure.prod_prod, lawA, lawB, lawA, lawB])
  have hlim : (μ.prod ν).real {q : R.G × R.G | R.nthDraw 0 q.1 ∈ A ∧ R.nthDraw 0 q.2 ∈ B} =
      (volume.restrict (Set.Ico (0 : ℝ) 1)).real A * (volume.restrict (Set.Ico (0 : ℝ) 1)).real B := by
    rw [hE]
    unfold Measure.real
    rw [Measure.prod_prod, lawA, lawB, ENNReal.toReal_mul]
  rw [hlim] at key
  exact key

/-- Counting documents by their numbers, again. -/
theorem shareWhere_iff (Q : Dict Val → Prop) (E : ℕ → Prop) [DecidablePred E] (docs : List (Dict Val))
    (h : ∀ i d, docs[i]? = some d → (Q d ↔ E i)) :
    shareWhere Q docs = (∑ i ∈ Finset.range docs.length, if E i then (1 : ℝ) else 0) / docs.length := by
  classical
  rw [shareWhere_eq Q {1} (fun i => if E i then (1 : ℝ) else 0) docs fun i d hi => by
    rw [h i d hi]
    by_cases hi : E i <;> simp [hi]]
  congr 1
  refine Finset.sum_congr rfl fun i _ => ?_
  by_cases hi : E i <;> simp [hi]

/-- In which part of the unit interval the draw for document `i` is. -/
theorem drawn_iff {V : Ref → Val → Prop} (str : Val → List Char) {w : World R} {fields : Dict Ref}
    {name : String} {f e : Ref} {items : List Val} {ws : List ℝ}
    (h : DrawnField w fields name f e items ws) (hnn : ∀ x ∈ ws, 0 ≤ x) (ht : TypedOn V (fun _ => True) w)
    {fuel n : Nat} {docs : List (Dict Val)} (hd : World.documents str fuel fields n w = docs.map .ok)
    (ho : OneEach name docs) (x : Val) {i : Nat} {d : Dict Val} (hi : docs[i]? = some d) :
    d.get? name = some x ↔ R.nthDraw i (w.obj e).choice.rng ∈ hits items ws x := by
  have hne : ws ≠ [] := by
    rintro rfl
    exact absurd h.picks.total (by simp)
  have hv := C116_values str h ht fuel n docs hd
  have hg := ho.getElem i
  rw [hi] at hg
  obtain ⟨y, hy, _⟩ := ho d (List.mem_of_getElem? hi)
  have hg' : (valuesOf name docs)[i]? = d.get? name := hg
  have hlt : i < (valuesOf name docs).length := by
    by_contra hc
    rw [List.getElem?_eq_none (by omega), hy] at hg'
    cases hg'
  have h2 := ((pickedBy_getElem (R := R) h.picks.same h.picks.total (valuesOf name docs).length
    (w.obj e).choice.rng).2 i hlt).2
  rw [← hv, hg'] at h2
  rw [h2, mem_hits hne h.picks.same.symm hnn h.picks.total x (nthDraw_mem R i _).1 (nthDraw_mem R i _).2]

/-- **C128, violated.** After `seed_fields(s)`, whatever the seed and however many documents are made: the
share of the documents in which the one field has the `i`-th item of its choice and the other the `j`-th
item of its own is zero, if the parts of the unit interval that belong to the two do not meet, although
both have a weight. -/
theorem C128_seeded_violated {V : Ref → Val → Prop} (str : Val → List Char) {w : World R}
    {fields : Dict Ref} {a b : String} {f e f' e' : Ref} {items items' : List Val} {wa wb : List ℝ}
    (ha : DrawnField w fields a f e items wa) (hb : DrawnField w fields b f' e' items' wb)
    (hna : items.Nodup) (hnb : items'.Nodup) (ht : TypedOn V (fun _ => True) w) (s : Int) (fuel : Nat)
    (hok : (World.seedFields fuel (some s) fields w).1 = .ok ()) (fuel' n : Nat) (docs : List (Dict Val))
    (hd : World.documents str fuel' fields n (World.seedFields fuel (some s) fields w).2 = docs.map .ok)
    (hoa : OneEach a docs) (hob : OneEach b docs) {i j : Nat} {x y : Val} (hi : items[i]? = some x)
    (hj : items'[j]? = some y) (hap : SharesApart wa i wb j) :
    shareWhere (fun d => d.get? a = some x ∧ d.get? b = some y) docs = 0 := by
  classical
  rw [shareWhere_iff _ (fun _ => False) docs]
  · simp
  · intro m d hm
    simp only [iff_false]
    rintro ⟨h1, h2⟩
    refine (C116_violated str ha hb hna hnb ht s fuel hok fuel' n docs hd (m := m) (x := x) (y := y) ?_ hi ?_
      hj).1 hap
    · rw [hoa.getElem, hm]; exact h1
    · rw [hob.getElem, hm]; exact h2

/-- **C128 (partial).** If the generators of the two fields have nothing to do with each other, then, with
probability 1, the share of the documents with `x` in the one field and `y` in the other tends to the
product of the shares of the two. -/
theorem C128_pairs_partial [MeasurableSpace R.G] (μ ν : Measure R.G) (hU : FairDraws R μ)
    (hV : FairDraws R ν) {V : Ref → Val → Prop} (str : Val → List Char) {w : World R} {fields : Dict Ref}
    {a b : String} {f e f' e' : Ref} {items items' : List Val} {wa wb : List ℝ}
    (ha : DrawnField w fields a f e items wa) (hb : DrawnField w fields b f' e' items' wb) (he : e ≠ e')
    (hwa : ∀ x ∈ wa, 0 ≤ x) (hwb : ∀ x ∈ wb, 0 ≤ x) (ht : TypedOn V (fun _ => True) w) (fuel : Nat)
    (docs : R.G × R.G → ℕ → List (Dict Val))
    (hd : ∀ p k, World.documents str fuel fields k ((w.withGen e p.1).withGen e' p.2) = (docs p k).map .ok)
    (hoa : ∀ p k, OneEach a (docs p k)) (hob : ∀ p k, OneEach b (docs p k)) (x y : Val) :
    ∀ᵐ p ∂(μ.prod ν), Tendsto
      (fun k => shareWhere (fun d => d.get? a = some x ∧ d.get? b = some y) (docs p k)) atTop
      (𝓝 (shareOf items wa x * shareOf items' wb y)) := by
  classical
  obtain ⟨k1, hk1⟩ := ha.picks.node
  obtain ⟨k2, hk2⟩ := hb.picks.node
  rw [← hits_volume ha.picks.same.symm hwa ha.picks.total x,
    ← hits_volume hb.picks.same.symm hwb hb.picks.total y]
  filter_upwards [pairs_frequency hU hV (hits_measurable (items := items) (ws := wa) x)
    (hits_measurable (items := items') (ws := wb) y)] with p hp
  refine hp.congr fun k => ?_
  have hlen : (docs p k).length = k := by
    have := World.documents_length str fuel fields k ((w.withGen e p.1).withGen e' p.2)
    rwa [hd, List.length_map] at this
  have hk2' : ((w.withGen e p.1).obj e').node = some (.choice k2) := by
    rw [World.withGen_obj, if_neg (Ne.symm he)]; exact hk2
  have al : World.Alike w ((w.withGen e p.1).withGen e' p.2) :=
    World.withGen_alike (World.withGen_alike (fun _ => rfl) hk1 p.1) hk2' p.2
  have ht' := withGen_typed (r := e') p.2 (withGen_typed (r := e) p.1 ht)
  rw [shareWhere_iff _ (fun i => R.nthDraw i p.1 ∈ hits items wa x ∧ R.nthDraw i p.2 ∈ hits items' wb y), hlen]
  · congr 1
    refine Finset.sum_congr rfl fun i _ => ?_
    rw [Set.indicator_apply]
    rfl
  · intro i d hi
    have h1 := drawn_iff str (ha.congr al) hwa ht' (hd p k) (hoa p k) x hi
    have h2 := drawn_iff str (hb.congr al) hwb ht' (hd p k) (hob p k) y hi
    rw [World.withGen_obj, if_neg he, World.withGen_obj, if_pos rfl] at h1
    rw [World.withGen_obj, if_pos rfl] at h2
    rw [h1, h2]

/-- **C128 (same state).** If the generators of the two fields are always in the same state, as after
seeding, the share tends to the length of what the parts of the unit interval that belong to `x` and `y`
have in common. -/
theorem C128_same_state [MeasurableSpace R.G] (μ : Measure R.G) (hU : FairDraws R μ)
    {V : Ref → Val → Prop} (str : Val → List Char) {w : World R} {fields : Dict Ref}
    {a b : String} {f e f' e' : Ref} {items items' : List Val} {wa wb : List ℝ}
    (ha : DrawnField w fields a f e items wa) (hb : DrawnField w fields b f' e' items' wb) (he : e ≠ e')
    (hwa : ∀ x ∈ wa, 0 ≤ x) (hwb : ∀ x ∈ wb, 0 ≤ x) (ht : TypedOn V (fun _ => True) w) (fuel : Nat)
    (docs : R.G → ℕ → List (Dict Val))
    (hd : ∀ g k, World.documents str fuel fields k ((w.withGen e g).withGen e' g) = (docs g k).map .ok)
    (hoa : ∀ g k, OneEach a (docs g k)) (hob : ∀ g k, OneEach b (docs g k)) (x y : Val) :
    ∀ᵐ g ∂μ, Tendsto
      (fun k => shareWhere (fun d => d.get? a = some x ∧ d.get? b = some y) (docs g k)) atTop
      (𝓝 ((volume.restrict (Set.Ico (0 : ℝ) 1)).real (hits items wa x ∩ hits items' wb y))) := by
  obtain ⟨k1, hk1⟩ := ha.picks.node
  obtain ⟨k2, hk2⟩ := hb.picks.node
  filter_upwards [draws_frequency hU ((hits_measurable (items := items) (ws := wa) x).inter
    (hits_measurable (items := items') (ws := wb) y))] with g hg
  refine hg.congr fun k => ?_
  have hlen : (docs g k).length = k := by
    have := World.documents_length str fuel fields k ((w.withGen e g).withGen e' g)
    rwa [hd, List.length_map] at this
  have hk2' : ((w.withGen e g).obj e').node = some (.choice k2) := by
    rw [World.withGen_obj, if_neg (Ne.symm he)]; exact hk2
  have al : World.Alike w ((w.withGen e g).withGen e' g) :=
    World.withGen_alike (World.withGen_alike (fun _ => rfl) hk1 g) hk2' g
  have ht' := withGen_typed (r := e') g (withGen_typed (r := e) g ht)
  rw [shareWhere_eq _ (hits items wa x ∩ hits items' wb y) (fun i => R.nthDraw i g), hlen]
  intro i d hi
  have h1 := drawn_iff str (ha.congr al) hwa ht' (hd g k) (hoa g k) x hi
  have h2 := drawn_iff str (hb.congr al) hwb ht' (hd g k) (hob g k) y hi
  rw [World.withGen_obj, if_neg he, World.withGen_obj, if_pos rfl] at h1
  rw [World.withGen_obj, if_pos rfl] at h2
  rw [h1, h2]
  rfl

/-! ### Examples -/

/-- With generators of their own a quarter of the shirts is blue and of size S. -/
example : ∃ docs : replayRng.G × replayRng.G → ℕ → List (Dict Val),
    (∀ p k, World.documents demoStr 5 shirtFields k
      (((shirtWorld replayRng).withGen 0 p.1).withGen 4 p.2) = (docs p k).map .ok) ∧
    ∀ᵐ p ∂(replayMeasure.prod replayMeasure), Tendsto (fun k => shareWhere (fun d =>
      d.get? "color" = some (.str ['b', 'l', 'u', 'e']) ∧ d.get? "size" = some (.str ['S'])) (docs p k))
      atTop (𝓝 (1 / 4)) := by
  have hex := fun (p : replayRng.G × replayRng.G) (k : ℕ) => shirt_documents demoStr 3 k
    (World.withGen_alike (World.withGen_alike (w := shirtWorld replayRng) (fun _ => rfl) (k := .list)
      (r := 0) rfl p.1) (k := .list) (r := 4) rfl p.2)
  choose docs hd h1 h2 using hex
  refine ⟨docs, hd, ?_⟩
  have := C128_pairs_partial replayMeasure replayMeasure replayRng_fair replayRng_fair demoStr
    (shirt_color (R := replayRng)) (shirt_size (R := replayRng)) (by decide) (by norm_num) (by norm_num)
    shirt_typed 5 docs hd h1 h2 (.str ['b', 'l', 'u', 'e']) (.str ['S'])
  rwa [show shareOf [Val.str ['S'], .str ['M'], .str ['L']] [2, 1, 1] (.str ['S']) = 1 / 2 by
      have hM : ¬ ('M' : Char) = 'S' := by decide
      have hL : ¬ ('L' : Char) = 'S' := by decide
      norm_num [shareOf, List.filter_cons, hM, hL],
    show shareOf [Val.str ['r', 'e', 'd'], .str ['b', 'l', 'u', 'e']] [1, 1] (.str ['b', 'l', 'u', 'e']) =
        1 / 2 by
      have hr : ¬ (['r', 'e', 'd'] : List Char) = ['b', 'l', 'u', 'e'] := by decide
      norm_num [shareOf, List.filter_cons, hr],
    show (1 / 2 : ℝ) * (1 / 2) = 1 / 4 by norm_num] at this

/-- After seeding there is none, however many are made. -/
example (s : Int) (n : Nat) : ∃ docs : List (Dict Val), World.documents demoStr 5 shirtFields n
      (World.seedFields 5 (some s) shirtFields (shirtWorld replayRng)).2 = docs.map .ok ∧
    shareWhere (fun d =>
      d.get? "color" = some (.str ['b', 'l', 'u', 'e']) ∧ d.get? "size" = some (.str ['S'])) docs = 0 := by
  obtain ⟨docs, h, h1, h2⟩ := shirt_documents demoStr 3 n
    (World.seedFields_shape 5 (some s) shirtFields (shirtWorld replayRng))
  exact ⟨docs, h, C128_seeded_violated demoStr shirt_color shirt_size (by decide) (by decide) shirt_typed s 5
    rfl 5 n docs h h1 h2 (i := 1) (j := 0) rfl rfl (.inr (by norm_num))⟩

/-- In the same state half of the shirts is red and of size S. -/
example : ∃ docs : replayRng.G → ℕ → List (Dict Val),
    (∀ g k, World.documents demoStr 5 shirtFields k
      (((shirtWorld replayRng).withGen 0 g).withGen 4 g) = (docs g k).map .ok) ∧
    ∀ᵐ g ∂replayMeasure, Tendsto (fun k => shareWhere (fun d =>
      d.get? "color" = some (.str ['r', 'e', 'd']) ∧ d.get? "size" = some (.str ['S'])) (docs g k))
      atTop (𝓝 (1 / 2)) := by
  have hex := fun (g : replayRng.G) (k : ℕ) => shirt_documents demoStr 3 k
    (World.withGen_alike (World.withGen_alike (w := shirtWorld replayRng) (fun _ => rfl) (k := .list)
      (r := 0) rfl g) (k := .list) (r := 4) rfl g)
  choose docs hd h1 h2 using hex
  refine ⟨docs, hd, ?_⟩
  have := C128_same_state replayMeasure replayRng_fair demoStr
    (shirt_color (R := replayRng)) (shirt_size (R := replayRng)) (by decide) (by norm_num) (by norm_num)
    shirt_typed 5 docs hd h1 h2 (.str ['r', 'e', 'd']) (.str ['S'])
  have e1 : hits [Val.str ['r', 'e', 'd'], .str ['b', 'l', 'u', 'e']] [1, 1] (.str ['r', 'e', 'd']) =
      Set.Ico (0 : ℝ) (1 / 2) := by
    unfold hits
    rw [show (Finset.range [Val.str ['r', 'e', 'd'], .str ['b', 'l', 'u', 'e']].length).filter (fun p =>
      [Val.str ['r', 'e', 'd'], .str ['b', 'l', 'u', 'e']][p]? = some (.str ['r', 'e', 'd'])) = {0} by decide]
    norm_num
  have e2 : hits [Val.str ['S'], .str ['M'], .str ['L']] [2, 1, 1] (.str ['S']) =
      Set.Ico (0 : ℝ) (1 / 2) := by
    unfold hits
    rw [show (Finset.range [Val.str ['S'], .str ['M'], .str ['L']].length).filter (fun p =>
      [Val.str ['S'], .str ['M'], .str ['L']][p]? = some (.str ['S'])) = {0} by decide]
    norm_num
  rw [e1, e2, Set.inter_self] at this
  have e3 : (volume.restrict (Set.Ico (0 : ℝ) 1)).real (Set.Ico 0 (1 / 2)) = 1 / 2 := by
    rw [measureReal_restrict_apply measurableSet_Ico,
      Set.inter_eq_left.2 (Set.Ico_subset_Ico_right (by norm_num)), Real.volume_real_Ico_of_le (by norm_num)]
    norm_num
  rwa [e3] at this

end Fauxdoc
