import Verif.Props.FarShare
/-
C137: how often two documents have the same value in a field.
-/
set_option linter.unusedSectionVars false
namespace Fauxdoc
open MeasureTheory World ProbabilityTheory
variable {R : Rng ℝ}

/-- **C137.** Take a field, in every document, with values from a `Choice` of its own.  Two documents have
the same value there with the probability `∑ q_x ^ 2`, over the items `x`, where `q_x` is the share of the
weights of `x`. -/
theorem C137_same [MeasurableSpace R.G] (μ : Measure R.G) (hU : FairDraws R μ) {V : Ref → Val → Prop}
    (str : Val → List Char) {w : World R} {fields : Dict Ref} {name : String} {f e : Ref} {items : List Val}
    {ws : List ℝ} (h : DrawnField w fields name f e items ws) (hnn : ∀ x ∈ ws, 0 ≤ x)
    (ht : TypedOn V (fun _ => True) w) (fuel n : Nat) (docs : R.G → List (Dict Val))
    (hd : ∀ g, World.documents str fuel fields n (w.withGen e g) = (docs g).map .ok)
    (ho : ∀ g, OneEach name (docs g)) {i j : Nat} (hi : i < n) (hj : j < n) (hij : i ≠ j) :
    μ.real {g | ∃ di dj, (docs g)[i]? = some di ∧ (docs g)[j]? = some dj ∧ di.get? name = dj.get? name} =
      ∑ x ∈ items.toFinset, shareOf items ws x ^ 2 := by
  have hprob := fair_prob hU
  obtain ⟨kd, hk⟩ := h.picks.node
  have hlen : ∀ g, (docs g).length = n := fun g => by
    have := World.documents_length str fuel fields n (w.withGen e g)
    rwa [hd, List.length_map] at this
  have hget : ∀ g m, m < n → ∃ d, (docs g)[m]? = some d := fun g m hm =>
    ⟨_, List.getElem?_eq_getElem (by rw [hlen]; exact hm)⟩
  have hiff : ∀ g m d x, (docs g)[m]? = some d →
      (d.get? name = some x ↔ R.nthDraw m g ∈ hits items ws x) := fun g m d x hm => by
    have al := World.withGen_alike (w := w) (fun _ => rfl) hk g
    have := drawn_iff str (h.congr al) hnn (withGen_typed (r := e) g ht) (hd g) (ho g) x hm
    rwa [World.withGen_obj, if_pos rfl] at this
  have hmem : ∀ (u : ℝ) x, u ∈ hits items ws x → x ∈ items := fun u x hu => by
    simp only [hits, Set.mem_iUnion, Finset.mem_filter] at hu
    obtain ⟨p, ⟨_, hp⟩, _⟩ := hu
    exact List.mem_of_getElem? hp
  have hset : {g | ∃ di dj, (docs g)[i]? = some di ∧ (docs g)[j]? = some dj ∧ di.get? name = dj.get? name} =
      ⋃ x ∈ items.toFinset,
        (R.nthDraw i ⁻¹' hits items ws x ∩ R.nthDraw j ⁻¹' hits items ws x) := by
    ext g
    simp only [Set.mem_ofPred_eq, Set.mem_iUnion, List.mem_toFinset, Set.mem_inter_iff, Set.mem_preimage,
      exists_prop]
    constructor
    · rintro ⟨di, dj, h1, h2, h3⟩
      obtain ⟨x, hx, _⟩ := ho g di (List.mem_of_getElem? h1)
      have h4 := (hiff g i di x h1).1 hx
      exact ⟨x, hmem _ _ h4, h4, (hiff g j dj x h2).1 (h3 ▸ hx)⟩
    · rintro ⟨x, _, h4, h5⟩
      obtain ⟨di, h1⟩ := hget g i hi
      obtain ⟨dj, h2⟩ := hget g j hj
      exact ⟨di, dj, h1, h2, ((hiff g i di x h1).2 h4).trans ((hiff g j dj x h2).2 h5).symm⟩
  have hA : ∀ x, MeasurableSet (hits items ws x) := fun x => hits_measurable x
  rw [hset, measureReal_biUnion_finset]
  · refine Finset.sum_congr rfl fun x _ => ?_
    have hone : ∀ m, μ.real (R.nthDraw m ⁻¹' hits items ws x) = shareOf items ws x := fun m => by
      rw [← hits_volume h.picks.same.symm hnn h.picks.total x, Measure.real, Measure.real,
        ← Measure.map_apply (fair_measurable hU m) (hA x), fair_law hU]
    have := ((fair_indep hU).indepFun hij).measure_inter_preimage_eq_mul _ _ (hA x) (hA x)
    rw [Measure.real, this, ENNReal.toReal_mul, ← Measure.real, ← Measure.real, hone, hone, sq]
  · intro x _ y _ hxy
    refine Set.disjoint_left.2 fun g hg hg' => hxy ?_
    obtain ⟨di, h1⟩ := hget g i hi
    have hx := (hiff g i di x h1).2 hg.1
    have hy := (hiff g i di y h1).2 hg'.1
    exact Option.some.inj (hx.symm.trans hy)
  · exact fun x _ => (fair_measurable hU i (hA x)).inter (fair_measurable hU j (hA x))

/-! ### Examples -/

/-- The first and third of five shirts have the same size with the probability 3/8. -/
example : ∃ docs : replayRng.G → List (Dict Val),
    (∀ g, World.documents demoStr 5 shirtFields 5 ((shirtWorld replayRng).withGen 4 g) = (docs g).map .ok) ∧
    replayMeasure.real {g | ∃ di dj, (docs g)[0]? = some di ∧ (docs g)[2]? = some dj ∧
      di.get? "size" = dj.get? "size"} = 3 / 8 := by
  have hex := fun (g : replayRng.G) => shirt_documents demoStr 3 5
    (World.withGen_alike (w := shirtWorld replayRng) (fun _ => rfl) (k := .list) (r := 4) rfl g)
  choose docs hd h1 h2 using hex
  refine ⟨docs, hd, ?_⟩
  rw [C137_same replayMeasure replayRng_fair demoStr (shirt_size (R := replayRng))
    (by intro x hx; simp at hx; rcases hx with rfl | rfl <;> norm_num) shirt_typed 5 5
    docs hd h2 (i := 0) (j := 2) (by norm_num) (by norm_num) (by norm_num)]
  have hs : ([Val.str ['S'], .str ['M'], .str ['L']] : List Val).toFinset =
      {Val.str ['S'], .str ['M'], .str ['L']} := by simp
  have hMS : ¬ ('M' : Char) = 'S' := by decide
  have hLS : ¬ ('L' : Char) = 'S' := by decide
  have hSM : ¬ ('S' : Char) = 'M' := by decide
  have hLM : ¬ ('L' : Char) = 'M' := by decide
  have hSL : ¬ ('S' : Char) = 'L' := by decide
  have hML : ¬ ('M' : Char) = 'L' := by decide
  rw [hs, Finset.sum_insert (by simp [hSM, hSL]), Finset.sum_insert (by simp [hML]), Finset.sum_singleton]
  norm_num [shareOf, List.filter_cons, hMS, hLS, hSM, hLM, hSL, hML]

end Fauxdoc
