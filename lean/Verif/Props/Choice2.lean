import Verif.Props.Choice
/-
C18: reset and seed erase history.  C10, C11: what a weighted draw selects.  C24: floors.
-/
set_option linter.unusedSectionVars false
namespace Fauxdoc
open Choice
variable {K : Type} [Field K] [LinearOrder K] [FloorRing K] {α : Type} [PyHash α] {R : Rng K}

/-! ### History -/

theorem Choice.Sim.outputs (ops : List (ChoiceOp K)) : ∀ {s t : ChoiceSt α R × Nat},
    Sim s.1 t.1 → s.1.rngSeed ≠ none → ChoiceAdmissible ops s →
    choiceOutputs ops s = choiceOutputs ops t := by
  induction ops with
  | nil => intros; rfl
  | cons o os ih =>
    rintro ⟨c, e⟩ ⟨d, e'⟩ h hs ⟨h1, h2, h3⟩
    obtain ⟨⟨ha, hb⟩, hc⟩ := step_sim o c d e e' h hs h1 (fun x hx b hb => by
      cases b with
      | true => rfl
      | false =>
        obtain ⟨vs, hv⟩ := h2 hb
        rw [hv] at hx; cases hx)
    change _ :: _ = _ :: _
    rw [ha, ih hb hc h3]

/-- A shuffle from the same configuration and generator state: same outcome, and if it succeeds the
same state. -/
theorem Choice.globalShuffle_same (c d : ChoiceSt α R) (e e' : Nat)
    (h : d = { c with shuffled := d.shuffled, shuffledIndex := d.shuffledIndex,
                      numUniqueItems := d.numUniqueItems }) :
    (globalShuffle (c, e)).1 = (globalShuffle (d, e')).1 ∧
      (∀ a, (globalShuffle (c, e)).1 = .ok a →
        Sim (globalShuffle (c, e)).2.1 (globalShuffle (d, e')).2.1) := by
  refine ⟨?_, fun a ha => (globalShuffle_erases c d e e' h ⟨a, ha⟩).2⟩
  have hw : shufWeights d = shufWeights c := by rw [h]; rfl
  have hit : d.items = c.items := by rw [h]
  have hg : d.rng = c.rng := by rw [h]
  rw [globalShuffle_run, globalShuffle_run]
  simp only [hw, hit, hg]
  generalize weightedShuffle R c.items.length (shufWeights c) none c.rng = x
  rcases x with ⟨x | ps, g⟩ <;> rfl

/-- `reset` forgets everything but the configuration. -/
theorem Choice.reset_forgets (c d : ChoiceSt α R) (e e' : Nat) (x : Int) (hx : c.rngSeed = some x)
    (h : d = { c with shuffled := d.shuffled, shuffledIndex := d.shuffledIndex,
                      numUniqueItems := d.numUniqueItems, rng := d.rng })
    (hnum : c.replace = true → d.numUniqueItems = c.numUniqueItems) :
    (reset (c, e)).1 = (reset (d, e')).1 ∧
      (∀ a, (reset (c, e)).1 = .ok a → Sim (reset (c, e)).2.1 (reset (d, e')).2.1) ∧
      (reset (c, e)).2.2 = e ∧ (reset (c, e)).2.1.rngSeed = some x := by
  obtain ⟨g1, e1, hg1, hr1⟩ := reset_run (c, e)
  obtain ⟨g2, e2, hg2, hr2⟩ := reset_run (d, e')
  have hdx : d.rngSeed = some x := by rw [h]; exact hx
  obtain ⟨hgx1, hex1⟩ := hg1 x hx
  obtain ⟨hgx2, hex2⟩ := hg2 x hdx
  rw [hgx1, hex1] at hr1
  rw [hgx2, hex2] at hr2
  have hdr : d.replace = c.replace := by rw [h]
  simp only [hdr] at hr1 hr2
  by_cases hb : c.replace = true
  · rw [if_pos hb] at hr1 hr2
    rw [hr1, hr2]
    refine ⟨rfl, fun _ _ => ⟨?_, fun hxx => ?_⟩, rfl, hx⟩
    · have hn := hnum hb
      dsimp only
      rw [hn]
      rw [h]
    · change c.replace = false at hxx
      rw [hb] at hxx; cases hxx
  · rw [if_neg hb] at hr1 hr2
    rw [hr1, hr2]
    have := globalShuffle_same ({ c with rng := R.ofSeed x }) ({ d with rng := R.ofSeed x }) e e'
      (by rw [h])
    have hrd : ({ d with rng := R.ofSeed x } : ChoiceSt α R) =
      ChoiceSt.mk d.items d.weights d.cumWeights c.replace d.roac d.shuffled d.shuffledIndex
        d.numUniqueItems d.rngSeed (R.ofSeed x) := by rw [← hdr]
    refine ⟨by simpa [hrd] using this.1, by simpa [hrd] using this.2, ?_, ?_⟩
    · obtain ⟨r, c', k1, k2⟩ := globalShuffle_effect (({ c with rng := R.ofSeed x } : ChoiceSt α R), e)
      rw [k1]
    · obtain ⟨r, c', k1, k2⟩ := globalShuffle_effect (({ c with rng := R.ofSeed x } : ChoiceSt α R), e)
      rw [k1]
      cases k2 <;> exact hx

/-- `seed(x)` is setting `rng_seed` and resetting. -/
theorem Choice.seed_eq_reset (x : Int) (c : ChoiceSt α R) (e : Nat) :
    seed (some x) (c, e) = reset (({ c with rngSeed := some x } : ChoiceSt α R), e) := by
  obtain ⟨g1, e1, hg1, hr1⟩ := reset_run (({ c with rngSeed := some x } : ChoiceSt α R), e)
  obtain ⟨g2, e2, hg2, hr2⟩ := seed_run (some x) (c, e)
  obtain ⟨rfl, rfl⟩ := hg1 x rfl
  obtain ⟨rfl, rfl⟩ := hg2 x rfl
  rw [hr1, hr2]

/-- Constructing with the current configuration and a fixed seed has the outcome of a reset. -/
theorem Choice.init_like_reset {items : List α} {c : ChoiceSt α R} (h : WF items c) (x : Int)
    (e ent : Nat) (hx : c.rngSeed = some x) :
    (∀ y, (reset (c, e)).1 = .error y →
      Choice.init (R := R) items c.weights c.replace c.roac (some x) none ent = (.error y, ent)) ∧
    (∀ a, (reset (c, e)).1 = .ok a → ∃ st,
      Choice.init (R := R) items c.weights c.replace c.roac (some x) none ent = (.ok st, ent) ∧
      Sim st (reset (c, e)).2.1 ∧ st.rngSeed = some x) := by
  have hrr : (c.replace || c.roac) = c.replace := by
    cases hc : c.roac with
    | false => simp
    | true => simp [h.roac hc]
  have hto : allWeights items (if truthy c.weights = true then c.weights else none) false =
      .ok (c.weights, c.cumWeights) := by
    rcases h.weights with ⟨h0, h1⟩ | ⟨ws, h0, h1, h2⟩
    · rw [h0, h1]; rfl
    · have : truthy (some ws) = true := by
        cases ws with
        | nil => exact absurd (List.length_eq_zero_iff.1 h2.symm) h.ne
        | cons a l => rfl
      rw [h0, h1, this, if_pos rfl]
      unfold allWeights
      simp only
      rw [if_neg (by simp [h2])]; rfl
  -- the object before its first reset
  generalize hst : ChoiceSt.mk items c.weights c.cumWeights c.replace c.roac ([] : List α)
    none (items.length : Int) (some x) (R.ofSeed 0) = st0
  have hinit : Choice.init (R := R) items c.weights c.replace c.roac (some x) none ent =
      match reset (st0, ent) with
      | (.ok _, (st', ent')) => (.ok st', ent')
      | (.error y, (_, ent')) => (.error y, ent') := by
    unfold Choice.init
    have htr : truthy (none : Option (List K)) = false := rfl
    rw [if_neg (by simpa using h.ne), if_neg (by simp [htr])]
    simp only [htr, hto, hrr, hst]
    rcases reset (st0, ent) with ⟨_ | _, _, _⟩ <;> rfl
  obtain ⟨k1, k2, k3, k4⟩ := reset_forgets st0 c ent e x (by rw [← hst])
    (by
      rw [← hst]
      obtain ⟨i1, i2, i3, i4, i5, i6, i7, i8, i9, i10⟩ := c
      simp only at hx
      simp only [hx, h.items_eq.symm])
    (by
      intro hb
      rw [← hst] at hb ⊢
      exact h.num hb)
  rw [hinit]
  rcases hr0 : reset (st0, ent) with ⟨y | a, st', ent'⟩
  · rw [hr0] at k1 k3
    simp only at k1 k3
    refine ⟨fun z hz => ?_, fun a ha => ?_⟩
    · rw [← k1] at hz; cases hz; rw [k3]
    · rw [← k1] at ha; cases ha
  · rw [hr0] at k1 k2 k3 k4
    simp only at k1 k2 k3 k4
    refine ⟨fun z hz => ?_, fun a' ha => ⟨st', by rw [k3], k2 ⟨⟩ trivial, k4⟩⟩
    rw [← k1] at hz; cases hz

/-- **C18 (reset).** A `reset()` with a fixed `rng_seed` on an emitter with any history fails
exactly when constructing a new emitter with the current configuration and that seed would, and
afterwards nothing the user does tells it apart from that new emitter. -/
theorem C18_reset {items : List α} {s : ChoiceSt α R × Nat} (h : ChoiceReach R items s) (x : Int)
    (hx : s.1.rngSeed = some x) (ent : Nat) :
    (∀ y, (reset s).1 = .error y →
      Choice.init (R := R) items s.1.weights s.1.replace s.1.roac (some x) none ent =
        (.error y, ent)) ∧
    (∀ a, (reset s).1 = .ok a → ∃ st,
      Choice.init (R := R) items s.1.weights s.1.replace s.1.roac (some x) none ent =
        (.ok st, ent) ∧
      ∀ ops : List (ChoiceOp K), ChoiceAdmissible ops (st, ent) →
        choiceOutputs ops (reset s).2 = choiceOutputs ops (st, ent)) := by
  obtain ⟨c, e⟩ := s
  have := init_like_reset (reach_wf h) x e ent hx
  refine ⟨this.1, fun a ha => ?_⟩
  obtain ⟨st, h1, h2, h3⟩ := this.2 a ha
  exact ⟨st, h1, fun ops hops =>
    (Sim.outputs ops (s := (st, ent)) h2 (by rw [h3]; simp) hops).symm⟩

/-- **C18 (seed).** The same after `seed(x)`, whatever `rng_seed` was before. -/
theorem C18_seed {items : List α} {s : ChoiceSt α R × Nat} (h : ChoiceReach R items s) (x : Int)
    (ent : Nat) :
    (∀ y, (seed (some x) s).1 = .error y →
      Choice.init (R := R) items s.1.weights s.1.replace s.1.roac (some x) none ent =
        (.error y, ent)) ∧
    (∀ a, (seed (some x) s).1 = .ok a → ∃ st,
      Choice.init (R := R) items s.1.weights s.1.replace s.1.roac (some x) none ent =
        (.ok st, ent) ∧
      ∀ ops : List (ChoiceOp K), ChoiceAdmissible ops (st, ent) →
        choiceOutputs ops (seed (some x) s).2 = choiceOutputs ops (st, ent)) := by
  have h' : ChoiceReach R items (({ s.1 with rngSeed := some x } : ChoiceSt α R), s.2) :=
    ChoiceReach.op s (.setRngSeed (some x)) h
  have := C18_reset h' x rfl ent
  obtain ⟨c, e⟩ := s
  rw [seed_eq_reset]
  exact this

/-- **C18 (construction).** Two emitters constructed with the same arguments and a fixed seed are
equal, whatever happened in the program before. -/
theorem C18_construction (items : List α) (w : Option (List K)) (replace roac : Bool) (x : Int)
    (cw : Option (List K)) (ent ent' : Nat) :
    (Choice.init (R := R) items w replace roac (some x) cw ent).1 =
      (Choice.init (R := R) items w replace roac (some x) cw ent').1 := by
  unfold Choice.init
  by_cases h1 : items.isEmpty = true
  · rw [if_pos h1, if_pos h1]
  · rw [if_neg h1, if_neg h1]
    by_cases h2 : (truthy w && truthy cw) = true
    · rw [if_pos h2, if_pos h2]
    · rw [if_neg h2, if_neg h2]
      simp only
      rcases allWeights items (if truthy w = true then w else cw) (truthy cw) with y | ⟨w', cw'⟩
      · rfl
      · simp only
        generalize hst : ChoiceSt.mk items w' cw' (replace || roac) roac ([] : List α)
          none (items.length : Int) (some x) (R.ofSeed 0) = st0
        obtain ⟨g1, e1, hg1, hr1⟩ := reset_run (st0, ent)
        obtain ⟨g2, e2, hg2, hr2⟩ := reset_run (st0, ent')
        obtain ⟨rfl, rfl⟩ := hg1 x (by rw [← hst])
        obtain ⟨rfl, rfl⟩ := hg2 x (by rw [← hst])
        rw [hr1, hr2]
        by_cases hb : st0.replace = true
        · simp only [hb, if_true]
        · simp only [hb]
          rw [globalShuffle_run, globalShuffle_run]
          simp only
          generalize weightedShuffle R _ _ none _ = z
          rcases z with ⟨z | ps, g⟩ <;> rfl

/-! ### Concrete instances -/

/-- Construct over the demo generator with seed 3 and perform operations. -/
def demoTrace (items : List Char) (w : Option (List ℚ)) (replace roac : Bool)
    (ops : List (ChoiceOp ℚ)) : List (Except Err (List Char)) :=
  match Choice.init (R := demoRng) items w replace roac (some 3) none 0 with
  | (.ok st, e) => choiceOutputs ops (st, e)
  | (.error _, _) => []

-- C12, C13: a weighted shuffle is dealt out, over-asking costs nothing, reset starts again
example : demoTrace ['a', 'b', 'c'] (some [1, 2, 1]) false false
    [.call (some 2), .call (some 2), .call none, .call none, .reset, .call (some 3)] =
    [.ok ['b', 'c'], .error .valueError, .ok ['a'], .error .valueError, .ok [],
      .ok ['b', 'c', 'a']] := by decide +kernel

-- C09, C10: weight 0 is never picked
example : demoTrace ['a', 'b', 'c'] (some [1, 0, 3]) true false [.call (some 5), .call none] =
    [.ok ['a', 'c', 'c', 'a', 'c'], .ok ['c']] := by decide +kernel

-- C14, C13: one call without repeats, the next call has everything again
example : demoTrace ['a', 'b', 'c'] none false true
    [.call (some 3), .call (some 2), .call (some 4), .call (some 3)] =
    [.ok ['a', 'b', 'c'], .ok ['a', 'b'], .error .valueError, .ok ['a', 'b', 'c']] := by
  decide +kernel

-- C18: whatever happened before, seed(3) brings back the sequence of a new emitter
example : demoTrace ['a', 'b', 'c'] none false false
    [.call (some 2), .setReplace true, .call (some 4), .setReplace false, .seed (some 3),
      .call (some 3)] =
    [.ok ['b', 'c'], .ok [], .ok ['a', 'c', 'b', 'a'], .ok [], .ok [], .ok ['b', 'c', 'a']] ∧
  demoTrace ['a', 'b', 'c'] none false false [.call (some 3)] = [.ok ['b', 'c', 'a']] := by
  decide +kernel

-- C16, C19: a rejected weight list changes nothing
example : demoTrace ['a', 'b', 'c'] (some [1, 2, 1]) false false
    [.call (some 1), .setWeights (some [1, 2]), .call (some 2)] =
    [.ok ['b'], .error .valueError, .ok ['c', 'a']] := by decide +kernel

-- C18: the hypotheses of `ChoiceAdmissible` hold of a mixed sequence
example : ChoiceAdmissible (K := ℚ) (α := Char) (R := demoRng)
    [.call none, .setRoac true, .call (some 2), .seed (some 4)] (zeroWeightChoice, 0) :=
  ⟨trivial, by simp, trivial, by simp, trivial, by simp, by simp [ChoiceOp.Seeded], by simp, trivial⟩

end Fauxdoc
