import Verif.Proofs.Choice3
import Verif.Py.Rel
/-
Lemmas about drawing with replacement and about forgetting history.
-/
set_option linter.unusedSectionVars false
namespace Fauxdoc
variable {K : Type} [Field K] [LinearOrder K] [FloorRing K] {α : Type} [PyHash α] {R : Rng K}

namespace Choice

theorem pick_length {items : List α} {ps : List Nat} (h : ∀ i ∈ ps, i < items.length) :
    (pick items ps).length = ps.length := by
  have := congrArg List.length (filterMap_positions items ps h)
  rw [List.length_map, List.length_map] at this
  exact this

theorem pick_mem {items : List α} {ps : List Nat} : ∀ v ∈ pick items ps, v ∈ items := by
  intro v hv
  obtain ⟨i, _, hi⟩ := List.mem_filterMap.1 hv
  exact List.mem_of_getElem? hi

section ordered
variable [IsStrictOrderedRing K]

theorem floor_lt_of_draw (u : K) (n : Nat) (h0 : 0 ≤ u) (h1 : u < 1) (hn : 0 < n) :
    ⌊u * (n : K)⌋.toNat < n := by
  have hn' : (0 : K) < n := by exact_mod_cast hn
  have h2 : 0 ≤ ⌊u * (n : K)⌋ := Int.floor_nonneg.2 (mul_nonneg h0 hn'.le)
  have h3 : ⌊u * (n : K)⌋ < (n : Int) := by
    rw [Int.floor_lt]
    push_cast
    exact mul_lt_of_lt_one_left hn' h1
  omega

theorem drawWith_ok {items : List α} {c : ChoiceSt α R} (h : WF items c)
    (hw : ∀ ws, c.weights = some ws → 0 < ws.sum) (n : Nat) (g : R.G) :
    ∃ ps g', drawWith c (n : Int) g = (.ok ps, g') ∧ ps.length = n ∧ ∀ i ∈ ps, i < items.length := by
  have hpos : 0 < items.length := List.length_pos_of_ne_nil h.ne
  unfold drawWith
  by_cases h1 : c.weights.isNone = true ∧ (n : Int) = 1
  · rw [if_pos h1]
    have hn : n = 1 := by omega
    subst hn
    refine ⟨[(R.randbelow c.items.length g).1], (R.randbelow c.items.length g).2, ?_, rfl, ?_⟩
    · have : R.choice c.items.length g = (.ok (R.randbelow c.items.length g).1,
          (R.randbelow c.items.length g).2) := by
        unfold Rng.choice
        rw [if_neg (by rw [h.items_eq]; omega)]
      rw [PyM.bind_ok this]; rfl
    · intro i hi
      rw [List.mem_singleton] at hi
      subst hi
      rw [h.items_eq]
      exact R.randbelow_lt _ g hpos
  · rw [if_neg h1]
    rcases h.weights with ⟨hw0, hcw⟩ | ⟨ws, hws, hcw, hl⟩
    · rw [hcw]
      simp only
      obtain ⟨us, g', hr, hlen, hu⟩ := rands_spec R n g
      refine ⟨us.map fun u => ⌊u * (items.length : K)⌋.toNat, g', ?_, by simp [hlen], ?_⟩
      · unfold Rng.choicesUniform
        have hr' : R.rands (n : Int).toNat g = (.ok us, g') := by simpa using hr
        rw [h.items_eq, if_neg (by omega), PyM.bind_ok hr']; rfl
      · intro i hi
        obtain ⟨u, hu', rfl⟩ := List.mem_map.1 hi
        exact floor_lt_of_draw u _ (hu u hu').1 (hu u hu').2 hpos
    · rw [hcw]
      simp only
      have hne : ws ≠ [] := by intro hx; rw [hx] at hl; simp at hl; omega
      have hs := hw ws hws
      obtain ⟨us, g', hr, hlen, hu, hc⟩ := choicesCum_ok R ws hne hs (n : Int) g
      refine ⟨us.map (choicesPick (accumulate ws) ws.sum), g', ?_, ?_, ?_⟩
      · rw [h.items_eq, ← hl]; exact hc
      · simpa using hlen
      · intro i hi
        obtain ⟨u, hu', rfl⟩ := List.mem_map.1 hi
        rw [← hl]
        exact (choicesPick_spec ws hne hs u (hu u hu').1 (hu u hu').2).1

theorem withReplacement_ok {items : List α} (s : ChoiceSt α R × Nat) (h : WF items s.1)
    (hw : ∀ ws, s.1.weights = some ws → 0 < ws.sum) (n : Nat) :
    ∃ vs g, withReplacement (n : Int) s = (.ok vs, ({ s.1 with rng := g }, s.2)) ∧
      vs.length = n ∧ ∀ v ∈ vs, v ∈ items := by
  rw [withReplacement_run]
  by_cases h1 : s.1.items.length = 1
  · rw [if_pos h1]
    refine ⟨_, s.1.rng, rfl, ?_, ?_⟩
    · simp [List.length_flatten, h1]
    · intro v hv
      obtain ⟨l, hl, hvl⟩ := List.mem_flatten.1 hv
      rw [List.mem_replicate] at hl
      rw [← h.items_eq, ← hl.2]; exact hvl
  · rw [if_neg h1]
    obtain ⟨ps, g', hd, hl, hlt⟩ := drawWith_ok h hw n s.1.rng
    rw [hd]
    refine ⟨_, g', rfl, ?_, ?_⟩
    · rw [pick_length (by rw [h.items_eq]; exact hlt), hl]
    · intro v hv
      rw [← h.items_eq]; exact pick_mem v hv

end ordered

/-- `em()`/`em(1)` through `[0]`. -/
theorem single_of_many {m : ChoiceM α R (List α)} {s s' : ChoiceSt α R × Nat} {v : α}
    (h : m s = (.ok [v], s')) : (m >>= first) s = (.ok v, s') := by
  rw [PyM.bind_ok h]; rfl

theorem call_repl (n : Option Nat) (s : ChoiceSt α R × Nat) (hr : s.1.replace = true)
    (hro : s.1.roac = true → wanted n ≤ 1) :
    call (n.map Int.ofNat) s =
      if wanted n = 1 then
        (match withReplacement 1 s with
         | (.ok vs, s') => (match pyListGet vs 0 with
            | .ok v => (.ok [v], s')
            | .error x => (.error x, s'))
         | (.error x, s') => (.error x, s'))
      else withReplacement (wanted n : Int) s := by
  have hone : (do return [← emit] : ChoiceM α R (List α)) s =
      (match withReplacement 1 s with
         | (.ok vs, s') => (match pyListGet vs 0 with
            | .ok v => (.ok [v], s')
            | .error x => (.error x, s'))
         | (.error x, s') => (.error x, s')) := by
    change (emit >>= fun a => pure [a]) s = _
    rw [PyM.bind_apply, emit_eq, if_pos hr, PyM.bind_apply]
    rcases withReplacement 1 s with ⟨x | vs, s'⟩
    · rfl
    · unfold first
      simp only [PyM.lift_apply]
      rcases pyListGet vs 0 with x | v <;> rfl
  cases n with
  | none => rw [if_pos (show wanted none = 1 from rfl)]; exact hone
  | some n =>
    unfold call
    simp only [Option.map_some]
    by_cases h1 : n = 1
    · subst h1
      rw [if_pos (show Int.ofNat 1 = 1 from rfl), if_pos (show wanted (some 1) = 1 from rfl)]
      exact hone
    · rw [if_neg (by simpa using h1), if_neg (show ¬ wanted (some n) = 1 from h1), emitMany_eq,
        if_neg]
      · rfl
      · rintro (h | ⟨h, h'⟩)
        · exact h hr
        · have := hro h
          change n ≤ 1 at this
          change (1 : Int) < (n : Int) at h'
          omega

theorem call_roac (n : Nat) (s : ChoiceSt α R × Nat) (hro : s.1.roac = true) (hn : 1 < n) :
    call (some (n : Int)) s = withoutReplacement (n : Int) s := by
  unfold call
  simp only
  rw [if_neg (by omega), emitMany_eq, if_pos (Or.inr ⟨hro, by omega⟩)]

/-! ### Forgetting history -/

/-- Two emitters that no sequence of operations can tell apart: equal in everything except the
stale shuffle left over while `replace` is set. -/
structure Sim (c d : ChoiceSt α R) : Prop where
  eq : d = { c with shuffled := d.shuffled, shuffledIndex := d.shuffledIndex }
  norepl : c.replace = false → c = d

theorem Sim.refl (c : ChoiceSt α R) : Sim c c := ⟨rfl, fun _ => rfl⟩

/-- Same outcome, indistinguishable states. -/
def SimOut {β : Type} (x y : Except Err β × (ChoiceSt α R × Nat)) : Prop :=
  x.1 = y.1 ∧ Sim x.2.1 y.2.1

theorem globalShuffle_ent (c : ChoiceSt α R) (e e' : Nat) :
    SimOut (globalShuffle (c, e)) (globalShuffle (c, e')) := by
  rw [globalShuffle_run, globalShuffle_run]
  rcases weightedShuffle R c.items.length (shufWeights c) none c.rng with ⟨x | ps, g⟩
  · exact ⟨rfl, .refl _⟩
  · exact ⟨rfl, .refl _⟩

/-- A successful shuffle erases the stale shuffle. -/
theorem globalShuffle_erases (c d : ChoiceSt α R) (e e' : Nat)
    (h : d = { c with shuffled := d.shuffled, shuffledIndex := d.shuffledIndex,
                      numUniqueItems := d.numUniqueItems })
    (hok : ∃ a, (globalShuffle (c, e)).1 = .ok a) :
    SimOut (globalShuffle (c, e)) (globalShuffle (d, e')) := by
  have hw : shufWeights d = shufWeights c := by rw [h]; rfl
  have hit : d.items = c.items := by rw [h]
  have hg : d.rng = c.rng := by rw [h]
  rw [globalShuffle_run] at hok
  rw [globalShuffle_run, globalShuffle_run]
  simp only [hw, hit, hg] at hok ⊢
  generalize weightedShuffle R c.items.length (shufWeights c) none c.rng = x at hok ⊢
  rcases x with ⟨x | ps, g⟩
  · obtain ⟨a, ha⟩ := hok; cases ha
  · refine ⟨rfl, ?_⟩
    dsimp only
    rw [h]
    exact .refl _

theorem Sim.replace {c d : ChoiceSt α R} (h : Sim c d) : d.replace = c.replace := by rw [h.eq]
theorem Sim.roac {c d : ChoiceSt α R} (h : Sim c d) : d.roac = c.roac := by rw [h.eq]
theorem Sim.seed {c d : ChoiceSt α R} (h : Sim c d) : d.rngSeed = c.rngSeed := by rw [h.eq]

theorem withoutReplacement_sim (n : Int) (c d : ChoiceSt α R) (e e' : Nat) (h : Sim c d) :
    SimOut (withoutReplacement n (c, e)) (withoutReplacement n (d, e')) := by
  cases hr : c.replace with
  | false =>
    have := h.norepl hr
    subst this
    rw [withoutReplacement_norepl n (c, e) hr, withoutReplacement_norepl n (c, e') hr]
    simp only
    rcases c.shuffledIndex with _ | i
    · exact ⟨rfl, .refl _⟩
    · simp only
      by_cases hn : n > c.numUniqueItems
      · rw [if_pos hn, if_pos hn]; exact ⟨rfl, .refl _⟩
      · rw [if_neg hn, if_neg hn]
        rcases grab c.shuffled i n with x | l
        · exact ⟨rfl, .refl _⟩
        · exact ⟨rfl, .refl _⟩
  | true =>
    have hd := h.eq
    rw [withoutReplacement_repl n (c, e) hr, withoutReplacement_repl n (d, e') (h.replace.trans hr)]
    generalize d.shuffled = l at hd
    generalize d.shuffledIndex = i at hd
    subst hd
    simp only
    by_cases hn : n > c.numUniqueItems
    · rw [if_pos hn, if_pos hn]; exact ⟨rfl, rfl, fun hx => by simp [hr] at hx⟩
    · rw [if_neg hn, if_neg hn]
      have key : ∀ x : Except Err (List Nat) × R.G, SimOut
          (match x with
            | (.ok ps, g) => (.ok (pick c.items ps), ({ c with rng := g }, e))
            | (.error x, g) => (.error x, ({ c with rng := g }, e)))
          (match x with
            | (.ok ps, g) => (.ok (pick c.items ps),
                (({ c with rng := g, shuffled := l, shuffledIndex := i } : ChoiceSt α R), e'))
            | (.error x, g) => (.error x,
                (({ c with rng := g, shuffled := l, shuffledIndex := i } : ChoiceSt α R), e'))) := by
        rintro ⟨x | ps, g⟩
        · exact ⟨rfl, rfl, fun hx => absurd (hr.symm.trans hx) (by simp)⟩
        · exact ⟨rfl, rfl, fun hx => absurd (hr.symm.trans hx) (by simp)⟩
      exact key _

theorem withReplacement_sim (n : Int) (c d : ChoiceSt α R) (e e' : Nat) (h : Sim c d) :
    SimOut (withReplacement n (c, e)) (withReplacement n (d, e')) := by
  have hd := h.eq
  have hno := h.norepl
  rw [withReplacement_run, withReplacement_run]
  generalize d.shuffled = l at hd
  generalize d.shuffledIndex = i at hd
  subst hd
  simp only at hno ⊢
  have key : ∀ g : R.G, Sim { c with rng := g }
      ({ c with rng := g, shuffled := l, shuffledIndex := i } : ChoiceSt α R) := by
    intro g
    refine ⟨rfl, fun hx => ?_⟩
    have := hno hx
    have h1 : c.shuffled = l := congrArg ChoiceSt.shuffled this
    have h2 : c.shuffledIndex = i := congrArg ChoiceSt.shuffledIndex this
    rw [← h1, ← h2]
  by_cases h1 : c.items.length = 1
  · rw [if_pos h1, if_pos h1]; exact ⟨rfl, key c.rng⟩
  · rw [if_neg h1, if_neg h1]
    have hdr : drawWith ({ c with shuffled := l, shuffledIndex := i } : ChoiceSt α R) n =
        drawWith c n := rfl
    rw [hdr]
    rcases drawWith c n c.rng with ⟨x | ps, g⟩
    · exact ⟨rfl, key g⟩
    · exact ⟨rfl, key g⟩

theorem SimOut.bind {β γ : Type} {m m' : ChoiceM α R β} {k k' : β → ChoiceM α R γ}
    {s t : ChoiceSt α R × Nat} (hm : SimOut (m s) (m' t))
    (hk : ∀ b s' t', Sim s'.1 t'.1 → SimOut (k b s') (k' b t')) :
    SimOut ((m >>= k) s) ((m' >>= k') t) := by
  rw [PyM.bind_apply, PyM.bind_apply]
  rcases hs : m s with ⟨x | b, s'⟩ <;> rcases ht : m' t with ⟨y | b', t'⟩ <;> rw [hs, ht] at hm <;>
    obtain ⟨h1, h2⟩ := hm
  · cases h1; exact ⟨rfl, h2⟩
  · cases h1
  · cases h1
  · cases h1; exact hk b s' t' h2

theorem first_sim (l : List α) (s t : ChoiceSt α R × Nat) (h : Sim s.1 t.1) :
    SimOut (first l s) (first l t) := ⟨rfl, h⟩

theorem emit_sim (c d : ChoiceSt α R) (e e' : Nat) (h : Sim c d) :
    SimOut (emit (c, e)) (emit (d, e')) := by
  rw [emit_eq, emit_eq]
  simp only [h.replace]
  by_cases hb : c.replace = true
  · rw [if_pos hb, if_pos hb]
    exact SimOut.bind (withReplacement_sim 1 c d e e' h) fun l s t hst => first_sim l s t hst
  · rw [if_neg hb, if_neg hb]
    exact SimOut.bind (withoutReplacement_sim 1 c d e e' h) fun l s t hst => first_sim l s t hst

theorem call_sim (n : Option Int) (c d : ChoiceSt α R) (e e' : Nat) (h : Sim c d) :
    SimOut (call n (c, e)) (call n (d, e')) := by
  have hone : SimOut ((do return [← emit] : ChoiceM α R (List α)) (c, e))
      ((do return [← emit] : ChoiceM α R (List α)) (d, e')) :=
    SimOut.bind (emit_sim c d e e' h) fun v s t hst => ⟨rfl, hst⟩
  cases n with
  | none => exact hone
  | some n =>
    unfold call
    simp only
    by_cases h1 : n = 1
    · rw [if_pos h1]; exact hone
    · rw [if_neg h1, emitMany_eq, emitMany_eq]
      simp only [h.replace, h.roac]
      by_cases hb : ¬ c.replace = true ∨ (c.roac = true ∧ n > 1)
      · rw [if_pos hb, if_pos hb]; exact withoutReplacement_sim n c d e e' h
      · rw [if_neg hb, if_neg hb]; exact withReplacement_sim n c d e e' h

/-- Changing the configuration and RNG the same way on both sides, then shuffling if needed. -/
theorem conf_sim {c d c1 d1 : ChoiceSt α R} {e e' : Nat} (h : Sim c d)
    (h1 : d1 = { c1 with shuffled := d.shuffled, shuffledIndex := d.shuffledIndex })
    (hs : c1.shuffled = c.shuffled) (hi : c1.shuffledIndex = c.shuffledIndex)
    (hr : c1.replace = c.replace) :
    SimOut (if c.replace = true then (.ok ⟨⟩, (c1, e)) else globalShuffle (c1, e))
      (if c.replace = true then (.ok ⟨⟩, (d1, e')) else globalShuffle (d1, e')) := by
  by_cases hb : c.replace = true
  · rw [if_pos hb, if_pos hb]
    refine ⟨rfl, ?_, fun hx => ?_⟩
    · change d1 = _
      rw [h1]
    · change c1.replace = false at hx
      rw [hr, hb] at hx; cases hx
  · rw [if_neg hb, if_neg hb]
    have := h.norepl (by simpa using hb)
    subst this
    have hd1 : d1 = c1 := by rw [h1, ← hs, ← hi]
    rw [hd1]
    exact globalShuffle_ent c1 e e'

theorem step_sim (o : ChoiceOp K) (c d : ChoiceSt α R) (e e' : Nat) (h : Sim c d)
    (hseed : c.rngSeed ≠ none) (hs : o.Seeded)
    (hok : ∀ x, (o.run (c, e)).1 = .error x → ∀ b, o = .setReplace b → b = true) :
    SimOut (o.run (c, e)) (o.run (d, e')) ∧ (o.run (c, e)).2.1.rngSeed ≠ none := by
  have hunit : ∀ {m m' : ChoiceM α R PUnit} {s t : ChoiceSt α R × Nat}, SimOut (m s) (m' t) →
      SimOut (((m s).1.map fun _ => ([] : List α)), (m s).2)
        (((m' t).1.map fun _ => ([] : List α)), (m' t).2) := by
    intro m m' s t hm
    exact ⟨by simp only [hm.1], hm.2⟩
  have hshufseed : ∀ (c1 : ChoiceSt α R) (e1 : Nat), c1.rngSeed ≠ none →
      (globalShuffle (c1, e1)).2.1.rngSeed ≠ none := by
    intro c1 e1 h1
    obtain ⟨r, c', h2, h3⟩ := globalShuffle_effect (c1, e1)
    rw [h2]
    cases h3 <;> exact h1
  have hd := h.eq
  cases o with
  | call n =>
    refine ⟨call_sim _ c d e e' h, ?_⟩
    have := (call_effect (n.map Int.ofNat) (c, e)).1
    change (call (n.map Int.ofNat) (c, e)).2.1.rngSeed ≠ none
    generalize (call (n.map Int.ofNat) (c, e)).2.1 = c' at this
    cases this <;> exact hseed
  | setWeights ws =>
    rw [run_setWeights, run_setWeights]
    have e1 := setAll_run ws false (c, e)
    have e2 := setAll_run ws false (d, e')
    rw [if_neg (by simp)] at e1 e2
    have hit : d.items = c.items := by rw [hd]
    simp only [hit, h.replace] at e1 e2
    generalize allWeights c.items ws false = aw at e1 e2
    rcases aw with x | ⟨w, cw⟩
    · refine ⟨hunit (m := setWeights ws) (m' := setWeights ws) ?_, ?_⟩
      · rw [e1, e2]; exact ⟨rfl, h⟩
      · rw [e1]; exact hseed
    · refine ⟨hunit (m := setWeights ws) (m' := setWeights ws) ?_, ?_⟩
      · rw [e1, e2]
        exact conf_sim h (by rw [hd]) rfl rfl rfl
      · rw [e1]
        simp only
        by_cases hb : c.replace = true
        · rw [if_pos hb]; exact hseed
        · rw [if_neg hb]; exact hshufseed _ _ hseed
  | setCumWeights ws =>
    rw [run_setCumWeights, run_setCumWeights]
    have e1 := setAll_run ws true (c, e)
    have e2 := setAll_run ws true (d, e')
    rw [if_pos rfl] at e1 e2
    have hit : d.items = c.items := by rw [hd]
    simp only [hit, h.replace] at e1 e2
    generalize allWeights c.items ws true = aw at e1 e2
    rcases aw with x | ⟨w, cw⟩
    · refine ⟨hunit (m := setCumWeights ws) (m' := setCumWeights ws) ?_, ?_⟩
      · rw [e1, e2]; exact ⟨rfl, h⟩
      · rw [e1]; exact hseed
    · refine ⟨hunit (m := setCumWeights ws) (m' := setCumWeights ws) ?_, ?_⟩
      · rw [e1, e2]
        exact conf_sim h (by rw [hd]) rfl rfl rfl
      · rw [e1]
        simp only
        by_cases hb : c.replace = true
        · rw [if_pos hb]; exact hseed
        · rw [if_neg hb]; exact hshufseed _ _ hseed
  | reset =>
    rw [run_reset, run_reset]
    obtain ⟨x, hx⟩ := Option.ne_none_iff_exists'.1 hseed
    obtain ⟨g1, e1, hg1, hr1⟩ := reset_run (c, e)
    obtain ⟨g2, e2, hg2, hr2⟩ := reset_run (d, e')
    have := hg1 x hx
    have := hg2 x (h.seed.trans hx)
    obtain ⟨rfl, rfl⟩ := hg1 x hx
    obtain ⟨rfl, rfl⟩ := hg2 x (h.seed.trans hx)
    refine ⟨hunit (m := reset) (m' := reset) ?_, ?_⟩
    · rw [hr1, hr2]
      simp only [h.replace]
      exact conf_sim h (by rw [hd]) rfl rfl rfl
    · rw [hr1]
      by_cases hb : c.replace = true
      · simp only [hb, if_true]; exact hseed
      · simp only [hb]; exact hshufseed _ _ hseed
  | seed y =>
    rw [run_seed, run_seed]
    obtain ⟨x, rfl⟩ := Option.ne_none_iff_exists'.1 (show y ≠ none from hs)
    obtain ⟨g1, e1, hg1, hr1⟩ := seed_run (some x) (c, e)
    obtain ⟨g2, e2, hg2, hr2⟩ := seed_run (some x) (d, e')
    obtain ⟨rfl, rfl⟩ := hg1 x rfl
    obtain ⟨rfl, rfl⟩ := hg2 x rfl
    refine ⟨hunit (m := seed (some x)) (m' := seed (some x)) ?_, ?_⟩
    · rw [hr1, hr2]
      simp only [h.replace]
      exact conf_sim h (by rw [hd]) rfl rfl rfl
    · rw [hr1]
      by_cases hb : c.replace = true
      · simp only [hb, if_true]; simp
      · simp only [hb]; exact hshufseed _ _ (by simp)
  | setRngSeed y =>
    refine ⟨⟨rfl, ?_, fun hx => ?_⟩, hs⟩
    · change ({ d with rngSeed := y } : ChoiceSt α R) = _
      rw [hd]; rfl
    · change ({ c with rngSeed := y } : ChoiceSt α R) = { d with rngSeed := y }
      rw [← h.norepl hx]
  | setReplace b =>
    have hok' := fun x hx => hok x hx b rfl
    clear hok
    rw [run_setReplace] at hok'
    rw [run_setReplace, run_setReplace]
    have e1 := setReplace_run b (c, e)
    have e2 := setReplace_run b (d, e')
    simp only [h.replace] at e1 e2
    by_cases h1 : b = c.replace
    · rw [if_pos h1] at e1 e2
      refine ⟨hunit (m := setReplace b) (m' := setReplace b) ?_, ?_⟩
      · rw [e1, e2]; exact ⟨rfl, h⟩
      · rw [e1]; exact hseed
    · rw [if_neg h1] at e1 e2
      cases b with
      | true =>
        rw [if_pos rfl] at e1 e2
        refine ⟨hunit (m := setReplace true) (m' := setReplace true) ?_, ?_⟩
        · rw [e1, e2]
          refine ⟨rfl, ?_, fun hx => by cases hx⟩
          change ({ d with replace := true, numUniqueItems := d.items.length } : ChoiceSt α R) = _
          rw [hd]
        · rw [e1]; exact hseed
      | false =>
        rw [if_neg (by simp)] at e1 e2
        refine ⟨hunit (m := setReplace false) (m' := setReplace false) ?_, ?_⟩
        · rw [e1, e2]
          refine globalShuffle_erases _ _ e e' (by rw [hd]) ?_
          rw [e1] at hok'
          rcases hgs : globalShuffle (({ c with replace := false, roac := false } : ChoiceSt α R), e)
            with ⟨x | a, s'⟩
          · rw [hgs] at hok'
            have := hok' x rfl
            cases this
          · exact ⟨a, rfl⟩
        · rw [e1]; exact hshufseed _ _ hseed
  | setRoac b =>
    rw [run_setRoac, run_setRoac]
    have e1 := setRoac_run b (c, e)
    have e2 := setRoac_run b (d, e')
    simp only [h.replace] at e1 e2
    cases b with
    | false =>
      rw [if_neg (by simp)] at e1 e2
      refine ⟨hunit (m := setRoac false) (m' := setRoac false) ?_, ?_⟩
      · rw [e1, e2]
        refine ⟨rfl, ?_, fun hx => ?_⟩
        · dsimp only
          rw [hd]
        · dsimp only
          rw [← h.norepl hx]
      · rw [e1]; exact hseed
    | true =>
      rw [if_pos rfl] at e1 e2
      by_cases hb : c.replace = true
      · rw [if_pos hb] at e1 e2
        refine ⟨hunit (m := setRoac true) (m' := setRoac true) ?_, ?_⟩
        · rw [e1, e2]
          refine ⟨rfl, ?_, fun hx => ?_⟩
          · dsimp only
            rw [hd]
          · change c.replace = false at hx
            rw [hb] at hx; cases hx
        · rw [e1]; exact hseed
      · rw [if_neg hb] at e1 e2
        refine ⟨hunit (m := setRoac true) (m' := setRoac true) ?_, ?_⟩
        · rw [e1, e2]
          refine ⟨rfl, ?_, fun hx => by cases hx⟩
          change ({ d with roac := true, replace := true, numUniqueItems := d.items.length } :
            ChoiceSt α R) = _
          rw [hd]
        · rw [e1]; exact hseed

end Choice
end Fauxdoc
