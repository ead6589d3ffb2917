import Verif.Spec.DocRun
import Verif.Props.LongRun
import Verif.Props.FieldDraw
/-
C124: in the long run documents have the values of a field as often as the weights say, and the field is
filled as often as its gate says.
-/
set_option linter.unusedSectionVars false
namespace Fauxdoc
open MeasureTheory Filter World
open scoped Topology
variable {R : Rng ℝ}

/-- **C124 (values).** Take a field whose values come from a `Choice` of its own, and make more and more
documents, so that the field gets more and more values: with probability 1 the share of the values equal
to `x` tends to the share of the weights of `x`, whatever the gate, the repeat and the other fields. -/
theorem C124_values [MeasurableSpace R.G] (μ : Measure R.G) (hU : FairDraws R μ) {V : Ref → Val → Prop}
    (str : Val → List Char) {w : World R} {fields : Dict Ref} {name : String} {f e : Ref} {items : List Val}
    {ws : List ℝ} (h : DrawnField w fields name f e items ws) (hnn : ∀ x ∈ ws, 0 ≤ x)
    (ht : TypedOn V (fun _ => True) w) (fuel : Nat) (docs : R.G → ℕ → List (Dict Val))
    (hd : ∀ g k, World.documents str fuel fields k (w.withGen e g) = (docs g k).map .ok)
    (hT : ∀ g, Tendsto (fun k => (valuesOf name (docs g k)).length) atTop atTop) (x : Val) :
    ∀ᵐ g ∂μ, Tendsto (fun k => freq x (valuesOf name (docs g k))) atTop (𝓝 (shareOf items ws x)) := by
  have hne : ws ≠ [] := by
    rintro rfl
    exact absurd h.picks.total (by simp)
  rw [← hits_volume h.picks.same.symm hnn h.picks.total x]
  refine freq_of_run hU (hits_measurable x) x (fun u => items[choicesPick (accumulate ws) ws.sum u]?)
    (fun u h0 h1 => mem_hits hne h.picks.same.symm hnn h.picks.total x h0 h1) hT _ fun g k => ?_
  obtain ⟨kd, hk⟩ := h.picks.node
  have hv := C116_values str (h.congr (World.withGen_alike (fun _ => rfl) hk g)) (withGen_typed g ht) fuel k
    (docs g k) (hd g k)
  rw [show ((w.withGen e g).obj e).choice.rng = g by rw [World.withGen_obj, if_pos rfl]] at hv
  obtain ⟨_, h2⟩ := pickedBy_getElem (R := R) h.picks.same h.picks.total (valuesOf name (docs g k)).length g
  rw [← hv] at h2
  refine List.ext_getElem? fun m => ?_
  rw [List.getElem?_map, List.getElem?_map]
  by_cases hm : m < (valuesOf name (docs g k)).length
  · obtain ⟨h3, h4⟩ := h2 m hm
    rw [h4, List.getElem?_range hm, List.getElem?_eq_getElem h3]
    simp [List.getElem?_eq_getElem h3]
  · rw [List.getElem?_eq_none (by omega), List.getElem?_eq_none (by simpa using hm)]
    rfl

/-- Counting documents by their numbers. -/
theorem shareWhere_eq (P : Dict Val → Prop) (A : Set ℝ) (u : ℕ → ℝ) (docs : List (Dict Val))
    (h : ∀ i d, docs[i]? = some d → (P d ↔ u i ∈ A)) :
    shareWhere P docs = (∑ i ∈ Finset.range docs.length, A.indicator (fun _ => (1 : ℝ)) (u i)) / docs.length := by
  classical
  unfold shareWhere
  congr 1
  have h1 : docs.map (fun d => decide (P d)) = (List.range docs.length).map fun i => decide (u i ∈ A) := by
    refine List.ext_getElem (by simp) fun i h2 h3 => ?_
    have h4 : i < docs.length := by simpa using h2
    rw [List.getElem_map, List.getElem_map, List.getElem_range]
    exact decide_eq_decide.2 (h i _ (List.getElem?_eq_getElem h4))
  have h2 : docs.countP (fun d => decide (P d)) = (List.range docs.length).countP fun i => decide (u i ∈ A) := by
    have := congrArg (List.countP id) h1
    rwa [List.countP_map, List.countP_map] at this
  rw [h2, count_range fun i => u i ∈ A]
  refine Finset.sum_congr rfl fun i _ => ?_
  by_cases hi : u i ∈ A <;> simp [hi]

/-- **C124 (documents).** If the field has one value in each document, the share of the documents in which
it is `x` tends to the share of the weights of `x`. -/
theorem C124_documents [MeasurableSpace R.G] (μ : Measure R.G) (hU : FairDraws R μ) {V : Ref → Val → Prop}
    (str : Val → List Char) {w : World R} {fields : Dict Ref} {name : String} {f e : Ref} {items : List Val}
    {ws : List ℝ} (h : DrawnField w fields name f e items ws) (hnn : ∀ x ∈ ws, 0 ≤ x)
    (ht : TypedOn V (fun _ => True) w) (fuel : Nat) (docs : R.G → ℕ → List (Dict Val))
    (hd : ∀ g k, World.documents str fuel fields k (w.withGen e g) = (docs g k).map .ok)
    (ho : ∀ g k, OneEach name (docs g k)) (x : Val) :
    ∀ᵐ g ∂μ, Tendsto (fun k => shareWhere (fun d => d.get? name = some x) (docs g k)) atTop
      (𝓝 (shareOf items ws x)) := by
  have hlen : ∀ g k, (docs g k).length = k := fun g k => by
    have := World.documents_length str fuel fields k (w.withGen e g)
    rwa [hd, List.length_map] at this
  have hmap : ∀ g k, (valuesOf name (docs g k)).map some = (docs g k).map fun d => d.get? name := fun g k => by
    refine List.ext_getElem? fun m => ?_
    rw [List.getElem?_map, List.getElem?_map, (ho g k).getElem]
    cases hm : (docs g k)[m]? with
    | none => rfl
    | some d =>
      obtain ⟨y, hy, _⟩ := ho g k d (List.mem_of_getElem? hm)
      simp [hy]
  have hl : ∀ g k, (valuesOf name (docs g k)).length = k := fun g k => by
    have := congrArg List.length (hmap g k)
    rwa [List.length_map, List.length_map, hlen] at this
  filter_upwards [C124_values μ hU str h hnn ht fuel docs hd (fun g => by
    simp only [hl]; exact tendsto_id) x] with g hg
  refine hg.congr fun k => ?_
  unfold freq shareWhere
  rw [hl, hlen]
  congr 2
  have h1 : (valuesOf name (docs g k)).count x = ((valuesOf name (docs g k)).map some).count (some x) :=
    (List.count_map_of_injective _ some (Option.some_injective _) x).symm
  rw [h1, hmap, List.count_eq_countP, List.countP_map]
  refine List.countP_congr fun d _ => ?_
  simp

/-- **C124 (filled).** Take a field with the gate `chance(p)` and an emitter that never returns `None`:
with probability 1 the share of the documents in which the field is filled tends to `p`. -/
theorem C124_filled [MeasurableSpace R.G] (μ : Measure R.G) (hU : FairDraws R μ)
    (str : Val → List Char) {w : World R} {fields : Dict Ref} {name : String} {f e rp g : Ref} {p : ℝ}
    (h : GateOf w fields name f e rp g p) (h0 : 0 ≤ p) (h1 : p ≤ 1) (he : NeverNone str w e) (fuel : Nat)
    (docs : R.G → ℕ → List (Dict Val))
    (hd : ∀ x k, World.documents str fuel fields k (w.withGen g x) = (docs x k).map .ok) :
    ∀ᵐ x ∂μ, Tendsto (fun k => shareWhere (fun d => Filled d name) (docs x k)) atTop (𝓝 p) := by
  obtain ⟨kd, hk⟩ := h.chance.node
  have hvol : (volume.restrict (Set.Ico (0 : ℝ) 1)).real (Set.Ico 0 p) = p := by
    rw [measureReal_restrict_apply measurableSet_Ico, Set.inter_eq_left.2 (Set.Ico_subset_Ico_right h1),
      Real.volume_real_Ico_of_le h0, sub_zero]
  have key := draws_frequency hU (measurableSet_Ico (a := (0 : ℝ)) (b := p))
  rw [hvol] at key
  filter_upwards [key] with x hx
  refine hx.congr fun k => ?_
  have hlen : (docs x k).length = k := by
    have := World.documents_length str fuel fields k (w.withGen g x)
    rwa [hd, List.length_map] at this
  have al := World.withGen_alike (w := w) (fun _ => rfl) hk x
  rw [shareWhere_eq _ (Set.Ico 0 p) (fun i => R.nthDraw i x), hlen]
  intro i d hi
  rw [filled_iff (h.congr al) (he.congr al) (hd x k) hi, World.withGen_obj, if_pos rfl]
  exact ⟨fun hu => ⟨(nthDraw_mem R i x).1, hu⟩, fun hu => hu.2⟩

/-! ### Examples -/

/-- Half of the shirts are of size S. -/
example : ∃ docs : replayRng.G → ℕ → List (Dict Val),
    (∀ g k, World.documents demoStr 5 shirtFields k ((shirtWorld replayRng).withGen 4 g) =
      (docs g k).map .ok) ∧
    ∀ᵐ g ∂replayMeasure, Tendsto (fun k => shareWhere (fun d => d.get? "size" = some (.str ['S'])) (docs g k))
      atTop (𝓝 (1 / 2)) := by
  have hex := fun (g : replayRng.G) (k : ℕ) => shirt_documents demoStr 3 k
    (World.withGen_alike (w := shirtWorld replayRng) (fun _ => rfl) (k := .list) (r := 4) rfl g)
  choose docs hd h1 h2 using hex
  refine ⟨docs, hd, ?_⟩
  have := C124_documents replayMeasure replayRng_fair demoStr (shirt_size (R := replayRng))
    (by intro x hx; simp at hx; rcases hx with rfl | rfl <;> norm_num) shirt_typed 5 docs hd h2 (.str ['S'])
  rwa [show shareOf [Val.str ['S'], .str ['M'], .str ['L']] [2, 1, 1] (.str ['S']) = 1 / 2 by
    have hM : ¬ ('M' : Char) = 'S' := by decide
    have hL : ¬ ('L' : Char) = 'S' := by decide
    norm_num [shareOf, List.filter_cons, hM, hL]] at this

/-- The field `a` is filled in a third of the documents. -/
example : ∃ docs : replayRng.G → ℕ → List (Dict Val),
    (∀ g k, World.documents demoStr 5 coinFields k ((coinWorld replayRng (1 / 3) (1 / 2)).withGen 2 g) =
      (docs g k).map .ok) ∧
    ∀ᵐ g ∂replayMeasure, Tendsto (fun k => shareWhere (fun d => Filled d "a") (docs g k)) atTop
      (𝓝 (1 / 3)) := by
  have hex := fun (g : replayRng.G) (k : ℕ) => coin_documents demoStr 3 k
    (World.withGen_alike (w := coinWorld replayRng (1 / 3) (1 / 2)) (fun _ => rfl) (k := .list) (r := 2) rfl g)
  choose docs hd using hex
  exact ⟨docs, hd, C124_filled replayMeasure replayRng_fair demoStr (coin_a (R := replayRng)) (by norm_num)
    (by norm_num) (coin_never_a demoStr) 5 docs hd⟩

end Fauxdoc
