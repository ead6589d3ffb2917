import Verif.Props.ChoiceProb2
import Mathlib.Probability.Independence.Basic
/-
What a program draws is independent of what the programs before it drew, even if these decide by their
draws how many they take.
-/
set_option linter.unusedSectionVars false
namespace Fauxdoc
open MeasureTheory ProbabilityTheory
variable {R : Rng ℝ}

/-- All draws from the state `g` on. -/
noncomputable def Rng.stream (R : Rng ℝ) (g : R.G) : ℕ → ℝ := fun i => R.nthDraw i g

/-- The numbers from the `m`-th on. -/
def dropFirst (m : ℕ) (u : ℕ → ℝ) : ℕ → ℝ := fun i => u (i + m)

theorem stream_after (m : ℕ) (g : R.G) : R.stream (R.after m g) = dropFirst m (R.stream g) :=
  funext fun i => nthDraw_after R m i g

theorem after_add (m n : ℕ) : ∀ g : R.G, R.after n (R.after m g) = R.after (m + n) g := by
  induction m with
  | zero => intro g; rw [Nat.zero_add]; rfl
  | succ m ih => intro g; rw [show m + 1 + n = (m + n) + 1 by omega]; exact ih _

theorem measurable_dropFirst (m : ℕ) : Measurable (dropFirst m) :=
  measurable_pi_lambda _ fun i => measurable_pi_apply (i + m)

/-- The set is measurable and the first `m` numbers decide about membership. -/
def Settled (m : ℕ) (S : Set (ℕ → ℝ)) : Prop :=
  MeasurableSet S ∧ ∀ u v : ℕ → ℝ, (∀ i < m, u i = v i) → u ∈ S → v ∈ S

/-- The states `E` are those whose draws are in one of the sets `S m`, decided by `m` draws, and from them
`next` leads to the state after these draws. -/
structure Stops (E : Set R.G) (next : R.G → R.G) (S : ℕ → Set (ℕ → ℝ)) : Prop where
  settled : ∀ m, Settled m (S m)
  mem : ∀ g, g ∈ E ↔ ∃ m, R.stream g ∈ S m
  next : ∀ g m, R.stream g ∈ S m → next g = R.after m g
  once : ∀ g m m', R.stream g ∈ S m → R.stream g ∈ S m' → m = m'

section
variable [MeasurableSpace R.G] {μ : Measure R.G}

theorem fair_prob (hU : FairDraws R μ) : IsProbabilityMeasure μ := by
  constructor
  have h := hU 0
  have h2 := congrArg (fun ν => ν Set.univ) h.2
  rw [Measure.map_apply h.1 MeasurableSet.univ] at h2
  simpa using h2

theorem fair_measurable (hU : FairDraws R μ) (i : ℕ) : Measurable (R.nthDraw i) := by
  have := (measurable_pi_apply (⟨i, Nat.lt_succ_self i⟩ : Fin (i + 1))).comp (hU (i + 1)).1
  exact this

theorem unit_prob : IsProbabilityMeasure (volume.restrict (Set.Ico (0 : ℝ) 1)) := by
  constructor
  simp

theorem fair_law (hU : FairDraws R μ) (i : ℕ) :
    μ.map (R.nthDraw i) = volume.restrict (Set.Ico (0 : ℝ) 1) := by
  have := unit_prob
  have h := hU (i + 1)
  have e : R.nthDraw i = (Function.eval (⟨i, Nat.lt_succ_self i⟩ : Fin (i + 1))) ∘
      (fun g => fun j : Fin (i + 1) => R.nthDraw j g) := rfl
  rw [e, ← Measure.map_map (measurable_pi_apply _) h.1, h.2]
  exact (measurePreserving_eval (fun _ : Fin (i + 1) => volume.restrict (Set.Ico (0 : ℝ) 1)) _).map_eq

theorem fair_indep (hU : FairDraws R μ) : iIndepFun (fun i => R.nthDraw i) μ := by
  have := fair_prob hU
  have hfin : ∀ n, iIndepFun (fun j : Fin n => R.nthDraw j) μ := by
    intro n
    rw [iIndepFun_iff_map_fun_eq_pi_map fun j => (fair_measurable hU _).aemeasurable, (hU n).2]
    congr 1
    funext j
    exact (fair_law hU _).symm
  rw [iIndepFun_iff_finset]
  intro s
  have hlt : ∀ i : s, (i : ℕ) < s.sup id + 1 := fun i => Nat.lt_succ_of_le (Finset.le_sup (f := id) i.2)
  exact (hfin (s.sup id + 1)).precomp (g := fun i : s => ⟨i, hlt i⟩)
    (fun a b h => Subtype.ext (by simpa using h))

theorem stream_measurable (hU : FairDraws R μ) : Measurable R.stream :=
  measurable_pi_lambda _ fun i => fair_measurable hU i

/-- The numbers of `s`, and zeros elsewhere. -/
def padded (s : Finset ℕ) (k : ℕ) (t : s → ℝ) : ℕ → ℝ := fun i => if h : i + k ∈ s then t ⟨i + k, h⟩ else 0

theorem measurable_padded (s : Finset ℕ) (k : ℕ) : Measurable (padded s k) := by
  refine measurable_pi_lambda _ fun i => ?_
  by_cases h : i + k ∈ s
  · simp only [padded, h, dif_pos]
    exact measurable_pi_apply _
  · simp only [padded, h, dif_neg, not_false_eq_true]
    exact measurable_const

/-- All later draws are like the first ones. -/
theorem later_law (hU : FairDraws R μ) (m : ℕ) {n : ℕ} {T : Set (ℕ → ℝ)} (hT : Settled n T) :
    μ {g | dropFirst m (R.stream g) ∈ T} = μ {g | R.stream g ∈ T} := by
  have key : ∀ m, μ {g | dropFirst m (R.stream g) ∈ T} =
      (Measure.pi fun _ : Fin n => volume.restrict (Set.Ico (0 : ℝ) 1))
        {v | (fun i => if h : i < n then v ⟨i, h⟩ else 0) ∈ T} := by
    intro m
    have hi := ((fair_indep hU).precomp (g := fun j : Fin n => (j : ℕ) + m)
      (fun a b h => Fin.ext (by simpa using h)))
    have hm := hi.map_fun_eq_pi_map fun j => (fair_measurable hU _).aemeasurable
    have e : (fun j : Fin n => μ.map (R.nthDraw ((j : ℕ) + m))) =
        fun _ : Fin n => volume.restrict (Set.Ico (0 : ℝ) 1) := funext fun j => fair_law hU _
    rw [e] at hm
    rw [← hm, Measure.map_apply (measurable_pi_lambda _ fun j => fair_measurable hU _)]
    · congr 1
      ext g
      constructor
      · exact hT.2 _ _ fun i hi => by simp [hi, dropFirst, Rng.stream]
      · exact hT.2 _ _ fun i hi => by simp [hi, dropFirst, Rng.stream]
    · refine hT.1.preimage (measurable_pi_lambda _ fun i => ?_)
      by_cases h : i < n
      · simp only [h, dif_pos]
        exact measurable_pi_apply _
      · simp only [h, dif_neg, not_false_eq_true]
        exact measurable_const
  rw [key m]
  exact (key 0).symm

/-- The first draws are independent of the later ones. -/
theorem first_later (hU : FairDraws R μ) {m n : ℕ} {S T : Set (ℕ → ℝ)} (hS : Settled m S)
    (hT : Settled n T) :
    μ {g | R.stream g ∈ S ∧ dropFirst m (R.stream g) ∈ T} =
      μ {g | R.stream g ∈ S} * μ {g | R.stream g ∈ T} := by
  rw [← later_law hU m hT]
  have hd : Disjoint (Finset.range m) (Finset.Ico m (m + n)) := by
    rw [Finset.disjoint_left]
    intro a ha hb
    simp at ha hb
    omega
  have hi := (fair_indep hU).indepFun_finset _ _ hd (fair_measurable hU)
  have := hi.measure_inter_preimage_eq_mul _ _ (hS.1.preimage (measurable_padded (Finset.range m) 0))
    (hT.1.preimage (measurable_padded (Finset.Ico m (m + n)) m))
  have e1 : {g | R.stream g ∈ S} = (fun a (i : Finset.range m) => R.nthDraw i a) ⁻¹'
      (padded (Finset.range m) 0 ⁻¹' S) := by
    ext g
    constructor
    · exact hS.2 _ _ fun i hi => by simp [padded, hi, Rng.stream]
    · exact hS.2 _ _ fun i hi => by simp [padded, hi, Rng.stream]
  have e2 : {g | dropFirst m (R.stream g) ∈ T} = (fun a (i : Finset.Ico m (m + n)) => R.nthDraw i a) ⁻¹'
      (padded (Finset.Ico m (m + n)) m ⁻¹' T) := by
    ext g
    constructor
    · exact hT.2 _ _ fun i hi => by
        have h1 : m ≤ i + m ∧ i + m < m + n := by omega
        simp [padded, h1, dropFirst, Rng.stream]
    · exact hT.2 _ _ fun i hi => by
        have h1 : m ≤ i + m ∧ i + m < m + n := by omega
        simp [padded, h1, dropFirst, Rng.stream]
  rw [← e1, ← e2] at this
  exact this

theorem Stops.measure {E : Set R.G} {next : R.G → R.G} {S : ℕ → Set (ℕ → ℝ)} (h : Stops E next S)
    (hU : FairDraws R μ) : μ E = ∑' m, μ {g | R.stream g ∈ S m} := by
  have e : E = ⋃ m, {g | R.stream g ∈ S m} := by
    ext g
    simpa using h.mem g
  rw [e, measure_iUnion]
  · intro m m' hne
    refine Set.disjoint_left.2 fun g h1 h2 => hne (h.once g m m' h1 h2)
  · exact fun m => (h.settled m).1.preimage (stream_measurable hU)

end

/-- One program and then another one. -/
theorem Stops.comp {E F : Set R.G} {next next' : R.G → R.G} {S T : ℕ → Set (ℕ → ℝ)} (h : Stops E next S)
    (h' : Stops F next' T) : Stops {g | g ∈ E ∧ next g ∈ F} (fun g => next' (next g))
      (fun N => {u | ∃ m m', m + m' = N ∧ u ∈ S m ∧ dropFirst m u ∈ T m'}) := by
  constructor
  · intro N
    constructor
    · have e : {u | ∃ m m', m + m' = N ∧ u ∈ S m ∧ dropFirst m u ∈ T m'} =
          ⋃ m, ⋃ m', ⋃ _ : m + m' = N, S m ∩ dropFirst m ⁻¹' T m' := by
        ext u
        simp only [Set.mem_ofPred_eq, Set.mem_iUnion, Set.mem_inter_iff, Set.mem_preimage, exists_prop]
      rw [e]
      exact MeasurableSet.iUnion fun m => MeasurableSet.iUnion fun m' => MeasurableSet.iUnion fun _ =>
        (h.settled m).1.inter ((h'.settled m').1.preimage (measurable_dropFirst m))
    · rintro u v huv ⟨m, m', rfl, h1, h2⟩
      exact ⟨m, m', rfl, (h.settled m).2 u v (fun i hi => huv i (by omega)) h1,
        (h'.settled m').2 _ _ (fun i hi => huv (i + m) (by omega)) h2⟩
  · intro g
    constructor
    · rintro ⟨h1, h2⟩
      obtain ⟨m, h1⟩ := (h.mem g).1 h1
      obtain ⟨m', h2⟩ := (h'.mem _).1 h2
      rw [h.next g m h1, stream_after] at h2
      exact ⟨m + m', m, m', rfl, h1, h2⟩
    · rintro ⟨N, m, m', rfl, h1, h2⟩
      refine ⟨(h.mem g).2 ⟨m, h1⟩, (h'.mem _).2 ⟨m', ?_⟩⟩
      rw [h.next g m h1, stream_after]
      exact h2
  · rintro g N ⟨m, m', rfl, h1, h2⟩
    rw [← after_add, ← h.next g m h1]
    refine h'.next _ m' ?_
    rw [h.next g m h1, stream_after]
    exact h2
  · rintro g N N' ⟨m, m', rfl, h1, h2⟩ ⟨k, k', rfl, h3, h4⟩
    have e := h.once g m k h1 h3
    subst e
    rw [← stream_after] at h2 h4
    rw [h'.once _ m' k' h2 h4]

/-- **Independence.** -/
theorem Stops.indep [MeasurableSpace R.G] {μ : Measure R.G} (hU : FairDraws R μ) {E F : Set R.G}
    {next next' : R.G → R.G} {S T : ℕ → Set (ℕ → ℝ)} (h : Stops E next S) (h' : Stops F next' T) :
    μ {g | g ∈ E ∧ next g ∈ F} = μ E * μ F := by
  have e : {g | g ∈ E ∧ next g ∈ F} =
      ⋃ p : ℕ × ℕ, {g | R.stream g ∈ S p.1 ∧ dropFirst p.1 (R.stream g) ∈ T p.2} := by
    ext g
    simp only [Set.mem_ofPred_eq, Set.mem_iUnion, Prod.exists]
    rw [h.mem g]
    constructor
    · rintro ⟨⟨m, h1⟩, h2⟩
      obtain ⟨m', h2⟩ := (h'.mem _).1 h2
      rw [h.next g m h1, stream_after] at h2
      exact ⟨m, m', h1, h2⟩
    · rintro ⟨m, m', h1, h2⟩
      refine ⟨⟨m, h1⟩, (h'.mem _).2 ⟨m', ?_⟩⟩
      rw [h.next g m h1, stream_after]
      exact h2
  rw [e, measure_iUnion, ENNReal.tsum_prod']
  · simp only [first_later hU (h.settled _) (h'.settled _)]
    rw [h.measure hU, h'.measure hU, ← ENNReal.tsum_mul_right]
    exact tsum_congr fun m => ENNReal.tsum_mul_left
  · rintro ⟨m, m'⟩ ⟨k, k'⟩ hne
    refine Set.disjoint_left.2 fun g h1 h2 => hne ?_
    obtain ⟨h1, h2'⟩ := h1
    obtain ⟨h3, h4⟩ := h2
    have e := h.once g m k h1 h3
    subst e
    simp only at h2' h4
    rw [← stream_after] at h2' h4
    rw [h'.once _ m' k' h2' h4]
  · rintro ⟨m, m'⟩
    exact ((h.settled m).1.preimage (stream_measurable hU)).inter
      (((h'.settled m').1.preimage (measurable_dropFirst m)).preimage (stream_measurable hU))

/-- A program that always takes `n` draws. -/
theorem Stops.fixed {E : Set R.G} {next : R.G → R.G} {n : ℕ} {S : Set (ℕ → ℝ)} (hS : Settled n S)
    (hE : ∀ g, g ∈ E ↔ R.stream g ∈ S) (hn : ∀ g, R.stream g ∈ S → next g = R.after n g) :
    Stops E next (fun m => {u | m = n ∧ u ∈ S}) := by
  constructor
  · intro m
    by_cases h : m = n
    · subst h
      simpa using hS
    · have : {u | m = n ∧ u ∈ S} = ∅ := by
        ext u
        simp [h]
      rw [this]
      exact ⟨MeasurableSet.empty, fun _ _ _ h => h⟩
  · intro g
    rw [hE]
    simp
  · rintro g m ⟨rfl, h⟩
    exact hn g h
  · rintro g m m' ⟨rfl, _⟩ ⟨rfl, _⟩
    rfl

end Fauxdoc
