import Verif.Props.GateRun
/-
C133: how long one waits for a value of a field or for a gate to open.
-/
set_option linter.unusedSectionVars false
namespace Fauxdoc
open MeasureTheory Filter World
open scoped Topology
variable {R : Rng ℝ}

/-- The first draw in a set is the one with number `k`. -/
theorem first_draw [MeasurableSpace R.G] (μ : Measure R.G) {k : Nat} (hU : UniformDraws R μ (k + 1)) {A : Set ℝ}
    (hA : MeasurableSet A) {v : ℝ} (hv : (volume.restrict (Set.Ico (0 : ℝ) 1)).real A = v) :
    μ {g | (∀ i < k, R.nthDraw i g ∉ A) ∧ R.nthDraw k g ∈ A} = ENNReal.ofReal ((1 - v) ^ k * v) := by
  have hprob : IsProbabilityMeasure (volume.restrict (Set.Ico (0 : ℝ) 1)) := ⟨by simp⟩
  have hset : {g | (∀ i < k, R.nthDraw i g ∉ A) ∧ R.nthDraw k g ∈ A} =
      (fun g => fun j : Fin (k + 1) => R.nthDraw j g) ⁻¹'
        (Set.univ.pi fun j : Fin (k + 1) => if (j : Nat) < k then Aᶜ else A) := by
    ext g
    simp only [Set.mem_ofPred_eq, Set.mem_preimage, Set.mem_univ_pi]
    constructor
    · rintro ⟨h1, h2⟩ j
      by_cases hj : (j : Nat) < k
      · rw [if_pos hj]; exact h1 j hj
      · rw [if_neg hj, show (j : Nat) = k by omega]; exact h2
    · intro h
      refine ⟨fun i hi => ?_, ?_⟩
      · have := h ⟨i, by omega⟩
        rwa [if_pos hi] at this
      · have := h ⟨k, by omega⟩
        rwa [if_neg (lt_irrefl k)] at this
  have hm : ∀ j : Fin (k + 1), MeasurableSet (if (j : Nat) < k then Aᶜ else A) := fun j => by
    split
    · exact hA.compl
    · exact hA
  have hv0 : 0 ≤ v := hv ▸ measureReal_nonneg
  have hc : (volume.restrict (Set.Ico (0 : ℝ) 1)).real Aᶜ = 1 - v := by
    rw [probReal_compl_eq_one_sub hA, hv]
  have h1v : 0 ≤ 1 - v := hc ▸ measureReal_nonneg
  rw [hset, ← Measure.map_apply hU.1 (MeasurableSet.univ_pi hm), hU.2, Measure.pi_pi, Fin.prod_univ_castSucc]
  simp only [Fin.val_castSucc, Fin.is_lt, if_true, Fin.val_last, lt_irrefl, if_false, Finset.prod_const,
    Finset.card_univ, Fintype.card_fin]
  rw [← ofReal_measureReal (s := A), ← ofReal_measureReal (s := Aᶜ), hc, hv, ENNReal.ofReal_mul (by positivity),
    ENNReal.ofReal_pow h1v]

/-- What happens with a share that tends to something positive happens sooner or later. -/
theorem happens_of_share {Q : Dict Val → Prop} {docs : ℕ → List (Dict Val)} {v : ℝ} (hv : 0 < v)
    (h : Tendsto (fun k => shareWhere Q (docs k)) atTop (𝓝 v)) : ∃ k, ∃ d ∈ docs k, Q d := by
  by_contra hno
  push Not at hno
  refine hv.ne' (tendsto_nhds_unique h ?_)
  refine tendsto_const_nhds.congr fun k => ?_
  rw [shareWhere_iff Q (fun _ => False) (docs k) fun i d hi => ⟨hno k d (List.mem_of_getElem? hi), False.elim⟩]
  simp

/-- **C133 (waiting for a value).** Take a field, in every document, with values from a `Choice` of its own:
the probability that document `k` is the first with the value `x` is `(1 - q) ^ k * q`, where `q` is the
share of the weights of `x`. -/
theorem C133_value [MeasurableSpace R.G] (μ : Measure R.G) {V : Ref → Val → Prop}
    (str : Val → List Char) {w : World R} {fields : Dict Ref} {name : String} {f e : Ref} {items : List Val}
    {ws : List ℝ} (h : DrawnField w fields name f e items ws) (hnn : ∀ x ∈ ws, 0 ≤ x)
    (ht : TypedOn V (fun _ => True) w) (fuel k : Nat) (hU : UniformDraws R μ (k + 1))
    (docs : R.G → List (Dict Val))
    (hd : ∀ g, World.documents str fuel fields (k + 1) (w.withGen e g) = (docs g).map .ok)
    (ho : ∀ g, OneEach name (docs g)) (x : Val) :
    μ {g | (∀ i < k, ∀ d, (docs g)[i]? = some d → d.get? name ≠ some x) ∧
        ∃ d, (docs g)[k]? = some d ∧ d.get? name = some x} =
      ENNReal.ofReal ((1 - shareOf items ws x) ^ k * shareOf items ws x) := by
  obtain ⟨kd, hk⟩ := h.picks.node
  rw [← first_draw μ hU (hits_measurable (items := items) (ws := ws) x)
    (hits_volume h.picks.same.symm hnn h.picks.total x)]
  congr 1
  ext g
  simp only [Set.mem_ofPred_eq]
  have al := World.withGen_alike (w := w) (fun _ => rfl) hk g
  have hlen : (docs g).length = k + 1 := by
    have := World.documents_length str fuel fields (k + 1) (w.withGen e g)
    rwa [hd, List.length_map] at this
  have key : ∀ i d, (docs g)[i]? = some d → (d.get? name = some x ↔ R.nthDraw i g ∈ hits items ws x) := by
    intro i d hi
    have := drawn_iff str (h.congr al) hnn (withGen_typed (r := e) g ht) (hd g) (ho g) x hi
    rwa [World.withGen_obj, if_pos rfl] at this
  have hat : ∀ i, i < k + 1 → ∃ d, (docs g)[i]? = some d := fun i hi =>
    ⟨_, List.getElem?_eq_getElem (by omega)⟩
  constructor
  · rintro ⟨h1, d, hdk, h2⟩
    refine ⟨fun i hi => ?_, (key k d hdk).1 h2⟩
    obtain ⟨d', hd'⟩ := hat i (by omega)
    exact fun hc => h1 i hi d' hd' ((key i d' hd').2 hc)
  · rintro ⟨h1, h2⟩
    obtain ⟨d, hdk⟩ := hat k (by omega)
    exact ⟨fun i hi d' hd' hc => h1 i hi ((key i d' hd').1 hc), d, hdk, (key k d hdk).2 h2⟩

/-- **C133 (sooner or later).** If `x` has a weight, then, with probability 1, some document has it. -/
theorem C133_value_comes [MeasurableSpace R.G] (μ : Measure R.G) (hU : FairDraws R μ) {V : Ref → Val → Prop}
    (str : Val → List Char) {w : World R} {fields : Dict Ref} {name : String} {f e : Ref} {items : List Val}
    {ws : List ℝ} (h : DrawnField w fields name f e items ws) (hnn : ∀ x ∈ ws, 0 ≤ x)
    (ht : TypedOn V (fun _ => True) w) (fuel : Nat) (docs : R.G → ℕ → List (Dict Val))
    (hd : ∀ g k, World.documents str fuel fields k (w.withGen e g) = (docs g k).map .ok)
    (ho : ∀ g k, OneEach name (docs g k)) (x : Val) (hx : 0 < shareOf items ws x) :
    ∀ᵐ g ∂μ, ∃ k, ∃ d ∈ docs g k, d.get? name = some x := by
  filter_upwards [C124_documents μ hU str h hnn ht fuel docs hd ho x] with g hg
  exact happens_of_share hx hg

/-- **C133 (waiting for a gate).** Take a field with the gate `chance(p)` and an emitter that never returns
`None`: the probability that document `k` is the first with the field filled is `(1 - p) ^ k * p`. -/
theorem C133_gate [MeasurableSpace R.G] (μ : Measure R.G) (str : Val → List Char) {w : World R}
    {fields : Dict Ref} {name : String} {f e rp g : Ref} {p : ℝ} (h : GateOf w fields name f e rp g p)
    (h0 : 0 ≤ p) (h1 : p ≤ 1) (he : NeverNone str w e) (fuel k : Nat) (hU : UniformDraws R μ (k + 1))
    (docs : R.G → List (Dict Val))
    (hd : ∀ x, World.documents str fuel fields (k + 1) (w.withGen g x) = (docs x).map .ok) :
    μ {x | (∀ i < k, ∀ d, (docs x)[i]? = some d → ¬ Filled d name) ∧
        ∃ d, (docs x)[k]? = some d ∧ Filled d name} = ENNReal.ofReal ((1 - p) ^ k * p) := by
  obtain ⟨kd, hk⟩ := h.chance.node
  have hvol := gateDraws_volume h0 h1 true
  rw [if_pos rfl] at hvol
  rw [← first_draw μ hU (gateDraws_measurable p true) hvol]
  congr 1
  ext x
  simp only [Set.mem_ofPred_eq]
  have al := World.withGen_alike (w := w) (fun _ => rfl) hk x
  have hlen : (docs x).length = k + 1 := by
    have := World.documents_length str fuel fields (k + 1) (w.withGen g x)
    rwa [hd, List.length_map] at this
  have key : ∀ i d, (docs x)[i]? = some d → (Filled d name ↔ R.nthDraw i x ∈ gateDraws p true) := by
    intro i d hi
    have := filled_iff (h.congr al) (he.congr al) (hd x) hi
    rw [World.withGen_obj, if_pos rfl] at this
    exact this
  have hat : ∀ i, i < k + 1 → ∃ d, (docs x)[i]? = some d := fun i hi =>
    ⟨_, List.getElem?_eq_getElem (by omega)⟩
  constructor
  · rintro ⟨h1, d, hdk, h2⟩
    refine ⟨fun i hi => ?_, (key k d hdk).1 h2⟩
    obtain ⟨d', hd'⟩ := hat i (by omega)
    exact fun hc => h1 i hi d' hd' ((key i d' hd').2 hc)
  · rintro ⟨h1, h2⟩
    obtain ⟨d, hdk⟩ := hat k (by omega)
    exact ⟨fun i hi d' hd' hc => h1 i hi ((key i d' hd').1 hc), d, hdk, (key k d hdk).2 h2⟩

/-- **C133 (a gate opens).** If `p` is not zero, then, with probability 1, the field is filled sooner or
later. -/
theorem C133_gate_opens [MeasurableSpace R.G] (μ : Measure R.G) (hU : FairDraws R μ)
    (str : Val → List Char) {w : World R} {fields : Dict Ref} {name : String} {f e rp g : Ref} {p : ℝ}
    (h : GateOf w fields name f e rp g p) (h0 : 0 < p) (h1 : p ≤ 1) (he : NeverNone str w e) (fuel : Nat)
    (docs : R.G → ℕ → List (Dict Val))
    (hd : ∀ x k, World.documents str fuel fields k (w.withGen g x) = (docs x k).map .ok) :
    ∀ᵐ x ∂μ, ∃ k, ∃ d ∈ docs x k, Filled d name := by
  filter_upwards [C124_filled μ hU str h h0.le h1 he fuel docs hd] with x hx
  exact happens_of_share h0 hx

/-! ### Examples -/

/-- The first shirt of size S is the third with the probability 1/8. -/
example : ∃ docs : replayRng.G → List (Dict Val),
    (∀ g, World.documents demoStr 5 shirtFields 3 ((shirtWorld replayRng).withGen 4 g) = (docs g).map .ok) ∧
    replayMeasure {g | (∀ i < 2, ∀ d, (docs g)[i]? = some d → d.get? "size" ≠ some (.str ['S'])) ∧
      ∃ d, (docs g)[2]? = some d ∧ d.get? "size" = some (.str ['S'])} = ENNReal.ofReal (1 / 8) := by
  have hex := fun (g : replayRng.G) => shirt_documents demoStr 3 3
    (World.withGen_alike (w := shirtWorld replayRng) (fun _ => rfl) (k := .list) (r := 4) rfl g)
  choose docs hd h1 h2 using hex
  refine ⟨docs, hd, ?_⟩
  have := C133_value replayMeasure demoStr (shirt_size (R := replayRng))
    (by intro x hx; simp at hx; rcases hx with rfl | rfl <;> norm_num) shirt_typed 5 2 (replayRng_uniform 3)
    docs hd h2 (.str ['S'])
  rwa [show shareOf [Val.str ['S'], .str ['M'], .str ['L']] [2, 1, 1] (.str ['S']) = 1 / 2 by
    have hM : ¬ ('M' : Char) = 'S' := by decide
    have hL : ¬ ('L' : Char) = 'S' := by decide
    norm_num [shareOf, List.filter_cons, hM, hL], show ((1 - 1 / 2 : ℝ) ^ 2 * (1 / 2)) = 1 / 8 by norm_num] at this

/-- The field `a`, with the chance 1/3, is filled for the first time in the second document with the
probability 2/9, and sooner or later it is. -/
example : ∃ docs : replayRng.G → ℕ → List (Dict Val),
    (∀ x k, World.documents demoStr 5 coinFields k ((coinWorld replayRng (1 / 3) (1 / 2)).withGen 2 x) =
      (docs x k).map .ok) ∧
    replayMeasure {x | (∀ i < 1, ∀ d, (docs x 2)[i]? = some d → ¬ Filled d "a") ∧
      ∃ d, (docs x 2)[1]? = some d ∧ Filled d "a"} = ENNReal.ofReal (2 / 9) ∧
    ∀ᵐ x ∂replayMeasure, ∃ k, ∃ d ∈ docs x k, Filled d "a" := by
  have hex := fun (g : replayRng.G) (k : ℕ) => coin_documents demoStr 3 k
    (World.withGen_alike (w := coinWorld replayRng (1 / 3) (1 / 2)) (fun _ => rfl) (k := .list) (r := 2) rfl g)
  choose docs hd using hex
  refine ⟨docs, hd, ?_, C133_gate_opens replayMeasure replayRng_fair demoStr coin_a (by norm_num) (by norm_num)
    (coin_never_a demoStr) 5 docs hd⟩
  have := C133_gate replayMeasure demoStr (coin_a (R := replayRng) (p := 1 / 3) (q := 1 / 2)) (by norm_num)
    (by norm_num) (coin_never_a demoStr) 5 1 (replayRng_uniform 2) (fun x => docs x 2) fun x => hd x 2
  rwa [show ((1 - 1 / 3 : ℝ) ^ 1 * (1 / 3)) = 2 / 9 by norm_num] at this

end Fauxdoc
