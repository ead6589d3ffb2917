import Verif.Spec.HowMany
import Verif.Props.Waiting
/-
C134: the number of documents with a value of a field, or with the field filled.
-/
set_option linter.unusedSectionVars false
namespace Fauxdoc
open MeasureTheory World
variable {R : Rng ℝ}

/-- Exactly `k` of `n` draws are in a set. -/
theorem binomial_draws [MeasurableSpace R.G] (μ : Measure R.G) {n : Nat} (hU : UniformDraws R μ n) {A : Set ℝ}
    [DecidablePred (· ∈ A)] (hA : MeasurableSet A) {v : ℝ}
    (hv : (volume.restrict (Set.Ico (0 : ℝ) 1)).real A = v) (k : Nat) :
    μ {g | ((Finset.range n).filter fun i => R.nthDraw i g ∈ A).card = k} =
      ENNReal.ofReal (n.choose k * (v ^ k * (1 - v) ^ (n - k))) := by
  have hprob : IsProbabilityMeasure (volume.restrict (Set.Ico (0 : ℝ) 1)) := ⟨by simp⟩
  have hv0 : 0 ≤ v := hv ▸ measureReal_nonneg
  have hc : (volume.restrict (Set.Ico (0 : ℝ) 1)).real Aᶜ = 1 - v := by
    rw [probReal_compl_eq_one_sub hA, hv]
  have h1v : 0 ≤ 1 - v := hc ▸ measureReal_nonneg
  have hm : ∀ (S : Finset Nat) (j : Fin n), MeasurableSet (if (j : Nat) ∈ S then A else Aᶜ) := fun S j => by
    split
    · exact hA
    · exact hA.compl
  have hpat : ∀ S ∈ (Finset.range n).powersetCard k,
      {g | ((Finset.range n).filter fun i => R.nthDraw i g ∈ A) = S} =
      (fun g => fun j : Fin n => R.nthDraw j g) ⁻¹'
        (Set.univ.pi fun j : Fin n => if (j : Nat) ∈ S then A else Aᶜ) := by
    intro S hS
    ext g
    simp only [Set.mem_ofPred_eq, Set.mem_preimage, Set.mem_univ_pi]
    constructor
    · rintro rfl j
      by_cases hj : R.nthDraw j g ∈ A
      · rw [if_pos (Finset.mem_filter.2 ⟨Finset.mem_range.2 j.2, hj⟩)]; exact hj
      · have : (j : Nat) ∉ (Finset.range n).filter fun i => R.nthDraw i g ∈ A :=
          fun h => hj (Finset.mem_filter.1 h).2
        rw [if_neg this]
        exact hj
    · intro h
      ext i
      rw [Finset.mem_filter, Finset.mem_range]
      constructor
      · rintro ⟨hi, hiA⟩
        by_contra hiS
        have := h ⟨i, hi⟩
        rw [if_neg hiS] at this
        exact this hiA
      · intro hiS
        have hi := Finset.mem_range.1 ((Finset.mem_powersetCard.1 hS).1 hiS)
        have := h ⟨i, hi⟩
        rw [if_pos hiS] at this
        exact ⟨hi, this⟩
  have hmeas : ∀ S ∈ (Finset.range n).powersetCard k,
      MeasurableSet {g | ((Finset.range n).filter fun i => R.nthDraw i g ∈ A) = S} := by
    intro S hS
    rw [hpat S hS]
    exact hU.1 (MeasurableSet.univ_pi (hm S))
  have hone : ∀ S ∈ (Finset.range n).powersetCard k,
      μ {g | ((Finset.range n).filter fun i => R.nthDraw i g ∈ A) = S} =
        ENNReal.ofReal (v ^ k * (1 - v) ^ (n - k)) := by
    intro S hS
    obtain ⟨hsub, hcard⟩ := Finset.mem_powersetCard.1 hS
    rw [hpat S hS, ← Measure.map_apply hU.1 (MeasurableSet.univ_pi (hm S)), hU.2, Measure.pi_pi]
    have : ∀ j : Fin n, (volume.restrict (Set.Ico (0 : ℝ) 1)) (if (j : Nat) ∈ S then A else Aᶜ) =
        (fun i : Nat => ENNReal.ofReal (if i ∈ S then v else 1 - v)) j := by
      intro j
      rw [← ofReal_measureReal]
      dsimp only
      split
      · rw [hv]
      · rw [hc]
    rw [Finset.prod_congr rfl fun j _ => this j,
      Fin.prod_univ_eq_prod_range (fun i : Nat => ENNReal.ofReal (if i ∈ S then v else 1 - v)) n,
      ← ENNReal.ofReal_prod_of_nonneg fun i _ => by split <;> assumption, Finset.prod_ite, Finset.prod_const,
      Finset.prod_const, Finset.filter_mem_eq_inter, Finset.inter_eq_right.2 hsub, hcard,
      Finset.filter_notMem_eq_sdiff, Finset.card_sdiff_of_subset hsub, hcard, Finset.card_range]
  have hset : {g | ((Finset.range n).filter fun i => R.nthDraw i g ∈ A).card = k} =
      ⋃ S ∈ (Finset.range n).powersetCard k,
        {g | ((Finset.range n).filter fun i => R.nthDraw i g ∈ A) = S} := by
    ext g
    simp only [Set.mem_ofPred_eq, Set.mem_iUnion, exists_prop, Finset.mem_powersetCard]
    constructor
    · exact fun h => ⟨_, ⟨Finset.filter_subset _ _, h⟩, rfl⟩
    · rintro ⟨S, ⟨_, h⟩, rfl⟩
      exact h
  rw [hset, measure_biUnion_finset _ hmeas, Finset.sum_congr rfl hone, Finset.sum_const,
    Finset.card_powersetCard, Finset.card_range, nsmul_eq_mul, ENNReal.ofReal_mul (Nat.cast_nonneg _),
    ENNReal.ofReal_natCast]
  intro S _ T _ hST
  refine Set.disjoint_left.2 fun g hg hg' => hST ?_
  exact hg.symm.trans hg'

/-- Counting documents by the draws with their numbers. -/
theorem howMany_eq (P : Dict Val → Prop) (A : Set ℝ) [DecidablePred (· ∈ A)] (u : ℕ → ℝ) (docs : List (Dict Val))
    (h : ∀ i d, docs[i]? = some d → (P d ↔ u i ∈ A)) :
    howMany P docs = ((Finset.range docs.length).filter fun i => u i ∈ A).card := by
  classical
  have h1 : docs.map (fun d => decide (P d)) = (List.range docs.length).map fun i => decide (u i ∈ A) := by
    refine List.ext_getElem (by simp) fun i h2 h3 => ?_
    have h4 : i < docs.length := by simpa using h2
    rw [List.getElem_map, List.getElem_map, List.getElem_range]
    exact decide_eq_decide.2 (h i _ (List.getElem?_eq_getElem h4))
  have h2 : docs.countP (fun d => decide (P d)) = (List.range docs.length).countP fun i => decide (u i ∈ A) := by
    have := congrArg (List.countP id) h1
    rwa [List.countP_map, List.countP_map] at this
  refine (show howMany P docs = docs.countP fun d => decide (P d) from rfl).trans (h2.trans ?_)
  rw [Finset.card_def, Finset.filter_val, Finset.range_val, ← Multiset.countP_eq_card_filter]
  rfl

/-- **C134 (values).** Take a field, in every document, with values from a `Choice` of its own: the number of
documents among `n` with the value `x` is `k` with the probability `C(n, k) q ^ k (1 - q) ^ (n - k)`, where
`q` is the share of the weights of `x`. -/
theorem C134_values [MeasurableSpace R.G] (μ : Measure R.G) {V : Ref → Val → Prop}
    (str : Val → List Char) {w : World R} {fields : Dict Ref} {name : String} {f e : Ref} {items : List Val}
    {ws : List ℝ} (h : DrawnField w fields name f e items ws) (hnn : ∀ x ∈ ws, 0 ≤ x)
    (ht : TypedOn V (fun _ => True) w) (fuel n : Nat) (hU : UniformDraws R μ n)
    (docs : R.G → List (Dict Val))
    (hd : ∀ g, World.documents str fuel fields n (w.withGen e g) = (docs g).map .ok)
    (ho : ∀ g, OneEach name (docs g)) (x : Val) (k : Nat) :
    μ {g | howMany (fun d => d.get? name = some x) (docs g) = k} =
      ENNReal.ofReal (n.choose k * (shareOf items ws x ^ k * (1 - shareOf items ws x) ^ (n - k))) := by
  classical
  obtain ⟨kd, hk⟩ := h.picks.node
  rw [← binomial_draws μ hU (hits_measurable (items := items) (ws := ws) x)
    (hits_volume h.picks.same.symm hnn h.picks.total x)]
  congr 1
  ext g
  simp only [Set.mem_ofPred_eq]
  have al := World.withGen_alike (w := w) (fun _ => rfl) hk g
  have hlen : (docs g).length = n := by
    have := World.documents_length str fuel fields n (w.withGen e g)
    rwa [hd, List.length_map] at this
  rw [howMany_eq _ (hits items ws x) (fun i => R.nthDraw i g), hlen]
  intro i d hi
  have := drawn_iff str (h.congr al) hnn (withGen_typed (r := e) g ht) (hd g) (ho g) x hi
  rwa [World.withGen_obj, if_pos rfl] at this

/-- **C134 (filled).** Take a field with the gate `chance(p)` and an emitter that never returns `None`: the
number of documents among `n` in which it is filled is `k` with the probability
`C(n, k) p ^ k (1 - p) ^ (n - k)`. -/
theorem C134_filled [MeasurableSpace R.G] (μ : Measure R.G) (str : Val → List Char) {w : World R}
    {fields : Dict Ref} {name : String} {f e rp g : Ref} {p : ℝ} (h : GateOf w fields name f e rp g p)
    (h0 : 0 ≤ p) (h1 : p ≤ 1) (he : NeverNone str w e) (fuel n : Nat) (hU : UniformDraws R μ n)
    (docs : R.G → List (Dict Val))
    (hd : ∀ x, World.documents str fuel fields n (w.withGen g x) = (docs x).map .ok) (k : Nat) :
    μ {x | howMany (fun d => Filled d name) (docs x) = k} =
      ENNReal.ofReal (n.choose k * (p ^ k * (1 - p) ^ (n - k))) := by
  classical
  obtain ⟨kd, hk⟩ := h.chance.node
  have hvol := gateDraws_volume h0 h1 true
  rw [if_pos rfl] at hvol
  rw [← binomial_draws μ hU (gateDraws_measurable p true) hvol]
  congr 1
  ext x
  simp only [Set.mem_ofPred_eq]
  have al := World.withGen_alike (w := w) (fun _ => rfl) hk x
  have hlen : (docs x).length = n := by
    have := World.documents_length str fuel fields n (w.withGen g x)
    rwa [hd, List.length_map] at this
  rw [howMany_eq _ (gateDraws p true) (fun i => R.nthDraw i x), hlen]
  intro i d hi
  have := filled_iff (h.congr al) (he.congr al) (hd x) hi
  rw [World.withGen_obj, if_pos rfl] at this
  exact this

/-! ### Examples -/

/-- Two of four shirts are of size S with the probability 3/8. -/
example : ∃ docs : replayRng.G → List (Dict Val),
    (∀ g, World.documents demoStr 5 shirtFields 4 ((shirtWorld replayRng).withGen 4 g) = (docs g).map .ok) ∧
    replayMeasure {g | howMany (fun d => d.get? "size" = some (.str ['S'])) (docs g) = 2} =
      ENNReal.ofReal (3 / 8) := by
  have hex := fun (g : replayRng.G) => shirt_documents demoStr 3 4
    (World.withGen_alike (w := shirtWorld replayRng) (fun _ => rfl) (k := .list) (r := 4) rfl g)
  choose docs hd h1 h2 using hex
  refine ⟨docs, hd, ?_⟩
  have := C134_values replayMeasure demoStr (shirt_size (R := replayRng))
    (by intro x hx; simp at hx; rcases hx with rfl | rfl <;> norm_num) shirt_typed 5 4 (replayRng_uniform 4)
    docs hd h2 (.str ['S']) 2
  rwa [show shareOf [Val.str ['S'], .str ['M'], .str ['L']] [2, 1, 1] (.str ['S']) = 1 / 2 by
    have hM : ¬ ('M' : Char) = 'S' := by decide
    have hL : ¬ ('L' : Char) = 'S' := by decide
    norm_num [shareOf, List.filter_cons, hM, hL], show Nat.choose 4 2 = 6 by decide,
    show (((6 : ℕ) : ℝ) * ((1 / 2 : ℝ) ^ 2 * (1 - 1 / 2) ^ (4 - 2))) = 3 / 8 by norm_num] at this

/-- With the chance 1/3 one of three documents has the field `a` with the probability 4/9. -/
example : ∃ docs : replayRng.G → List (Dict Val),
    (∀ x, World.documents demoStr 5 coinFields 3 ((coinWorld replayRng (1 / 3) (1 / 2)).withGen 2 x) =
      (docs x).map .ok) ∧
    replayMeasure {x | howMany (fun d => Filled d "a") (docs x) = 1} = ENNReal.ofReal (4 / 9) := by
  have hex := fun (g : replayRng.G) => coin_documents demoStr 3 3
    (World.withGen_alike (w := coinWorld replayRng (1 / 3) (1 / 2)) (fun _ => rfl) (k := .list) (r := 2) rfl g)
  choose docs hd using hex
  refine ⟨docs, hd, ?_⟩
  have := C134_filled replayMeasure demoStr (coin_a (R := replayRng) (p := 1 / 3) (q := 1 / 2)) (by norm_num)
    (by norm_num) (coin_never_a demoStr) 5 3 (replayRng_uniform 3) docs hd 1
  rwa [show Nat.choose 3 1 = 3 by decide,
    show (((3 : ℕ) : ℝ) * ((1 / 3 : ℝ) ^ 1 * (1 - 1 / 3) ^ (3 - 1))) = 4 / 9 by norm_num] at this

end Fauxdoc
