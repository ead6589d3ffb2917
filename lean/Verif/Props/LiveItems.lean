import Verif.Spec.LiveItems
import Verif.Props.ChoiceEx
import Verif.Props.Choice2
/-
C93: changing the list that a `Choice` was given.
-/
namespace Fauxdoc
open Choice
variable {K : Type} [Field K] [LinearOrder K] [FloorRing K] {α : Type} [PyHash α] {R : Rng K}

/-! ### Without replacement -/

theorem withoutReplacement_withList (n : Int) (s : ChoiceSt α R × Nat) (hr : s.1.replace = false)
    (l : List α) : withoutReplacement n (withList s l) =
      ((withoutReplacement n s).1, withList (withoutReplacement n s).2 l) := by
  obtain ⟨⟨items, w, cw, rep, roac, sh, idx, num, sd, rng⟩, e⟩ := s
  rw [withoutReplacement_norepl n _ hr, withoutReplacement_norepl n (withList _ l) hr]
  unfold withList
  simp only
  rcases idx with _ | i
  · rfl
  · simp only
    by_cases hn : n > num
    · rw [if_pos hn, if_pos hn]
    · rw [if_neg hn, if_neg hn]
      rcases grab sh i n with x | v <;> rfl

theorem emit_withList (s : ChoiceSt α R × Nat) (hr : s.1.replace = false) (l : List α) :
    emit (withList s l) = ((emit s).1, withList (emit s).2 l) := by
  rw [emit_eq, emit_eq, if_neg (show ¬ (withList s l).1.replace = true by simp [withList, hr]), if_neg (by simp [hr]), PyM.bind_apply,
    PyM.bind_apply, withoutReplacement_withList 1 s hr l]
  rcases withoutReplacement 1 s with ⟨x | v, t⟩ <;> rfl

theorem call_withList (n : Option Int) (s : ChoiceSt α R × Nat) (hr : s.1.replace = false)
    (l : List α) : call n (withList s l) = ((call n s).1, withList (call n s).2 l) := by
  have hone : (do return [← emit] : ChoiceM α R (List α)) (withList s l) =
      (((do return [← emit] : ChoiceM α R (List α)) s).1,
        withList ((do return [← emit] : ChoiceM α R (List α)) s).2 l) := by
    rw [PyM.bind_apply, PyM.bind_apply, emit_withList s hr l]
    rcases emit s with ⟨x | v, t⟩ <;> rfl
  cases n with
  | none => exact hone
  | some n =>
    unfold call
    simp only
    by_cases h1 : n = 1
    · rw [if_pos h1]; exact hone
    · rw [if_neg h1, emitMany_eq, emitMany_eq, 
        if_pos (Or.inl (show ¬ (withList s l).1.replace = true by simp [withList, hr])),
        if_pos (Or.inl (by simp [hr]))]
      exact withoutReplacement_withList n s hr l

theorem call_keeps_replace (n : Option Int) (s : ChoiceSt α R × Nat) :
    (call n s).2.1.replace = s.1.replace := by
  have h := (call_effect n s).1
  generalize (call n s).2.1 = d at h
  cases h <;> rfl

/-- **C93 (without replacement).** What is still to come was settled by the last shuffle: calls
return the same values and raise the same exceptions, whatever has become of the list. -/
theorem C93_without_replacement (ns : List (Option Nat)) (s : ChoiceSt α R × Nat)
    (hr : s.1.replace = false) (l : List α) :
    choiceOutputs (onlyCalls ns) (withList s l) = choiceOutputs (onlyCalls ns) s := by
  induction ns generalizing s with
  | nil => rfl
  | cons n ns ih =>
    show _ :: _ = _ :: _
    simp only [ChoiceOp.run, call_withList _ s hr l]
    congr 1
    exact ih _ ((call_keeps_replace _ s).trans hr)

/-! ### With replacement -/

/-- Emitters with replacement that draw alike: they may differ in what is left over from earlier
shuffles, in the number of items noted, and in `rng_seed`. -/
structure Twin (c d : ChoiceSt α R) : Prop where
  items : d.items = c.items
  weights : d.weights = c.weights
  cumWeights : d.cumWeights = c.cumWeights
  rng : d.rng = c.rng
  roac : d.roac = c.roac
  replace : c.replace = true
  replace' : d.replace = true

omit [FloorRing K] [PyHash α] in
theorem Twin.step {c d : ChoiceSt α R} (h : Twin c d) (g : R.G) :
    Twin { c with rng := g } { d with rng := g } :=
  ⟨h.items, h.weights, h.cumWeights, rfl, h.roac, h.replace, h.replace'⟩

theorem withReplacement_twin (n : Int) {c d : ChoiceSt α R} (e e' : Nat) (h : Twin c d) :
    (withReplacement n (c, e)).1 = (withReplacement n (d, e')).1 ∧
      ∃ g, (withReplacement n (c, e)).2.1 = { c with rng := g } ∧
        (withReplacement n (d, e')).2.1 = { d with rng := g } := by
  obtain ⟨i1, i2, i3, i4, i5, i6, i7, i8, i9, i10⟩ := c
  obtain ⟨j1, j2, j3, j4, j5, j6, j7, j8, j9, j10⟩ := d
  obtain ⟨h1, h2, h3, h4, h5, h6, h7⟩ := h
  dsimp only at h1 h2 h3 h4 h5 h6 h7
  subst h1 h2 h3 h4 h5
  rw [withReplacement_run, withReplacement_run]
  dsimp only
  by_cases hl : j1.length = 1
  · rw [if_pos hl, if_pos hl]
    exact ⟨rfl, _, rfl, rfl⟩
  · rw [if_neg hl, if_neg hl]
    unfold drawWith
    dsimp only
    generalize (if j2.isNone = true ∧ n = 1 then _ else _ : PyM R.G (List Nat)) j10 = x
    rcases x with ⟨x | ps, g⟩
    · exact ⟨rfl, g, rfl, rfl⟩
    · exact ⟨rfl, g, rfl, rfl⟩

theorem withoutReplacement_twin (n : Int) {c d : ChoiceSt α R} (e e' : Nat) (h : Twin c d)
    (hn : n > c.numUniqueItems ↔ n > d.numUniqueItems) :
    (withoutReplacement n (c, e)).1 = (withoutReplacement n (d, e')).1 ∧
      ∃ g, (withoutReplacement n (c, e)).2.1 = { c with rng := g } ∧
        (withoutReplacement n (d, e')).2.1 = { d with rng := g } := by
  rw [withoutReplacement_repl n (c, e) h.replace, withoutReplacement_repl n (d, e') h.replace']
  obtain ⟨i1, i2, i3, i4, i5, i6, i7, i8, i9, i10⟩ := c
  obtain ⟨j1, j2, j3, j4, j5, j6, j7, j8, j9, j10⟩ := d
  obtain ⟨h1, h2, h3, h4, h5, h6, h7⟩ := h
  dsimp only at h1 h2 h3 h4 h5 h6 h7
  subst h1 h2 h3 h4 h5
  dsimp only at hn ⊢
  by_cases hl : n > i8
  · rw [if_pos hl, if_pos (hn.1 hl)]
    exact ⟨rfl, _, rfl, rfl⟩
  · rw [if_neg hl, if_neg (fun k => hl (hn.2 k))]
    rcases j2 with _ | ws
    · dsimp only
      rcases R.samplePos j1.length n j10 with ⟨x | ps, g⟩
      · exact ⟨rfl, g, rfl, rfl⟩
      · exact ⟨rfl, g, rfl, rfl⟩
    · dsimp only
      rcases weightedShuffle R j1.length ws (some n) j10 with ⟨x | ps, g⟩
      · exact ⟨rfl, g, rfl, rfl⟩
      · exact ⟨rfl, g, rfl, rfl⟩

theorem call_twin (n : Option Nat) {c d : ChoiceSt α R} (e e' : Nat) (h : Twin c d)
    (hn : c.roac = true → 1 < wanted n →
      ((wanted n : Int) > c.numUniqueItems ↔ (wanted n : Int) > d.numUniqueItems)) :
    (call (n.map Int.ofNat) (c, e)).1 = (call (n.map Int.ofNat) (d, e')).1 ∧
      ∃ g, (call (n.map Int.ofNat) (c, e)).2.1 = { c with rng := g } ∧
        (call (n.map Int.ofNat) (d, e')).2.1 = { d with rng := g } := by
  have hone : ((do return [← emit] : ChoiceM α R (List α)) (c, e)).1 =
      ((do return [← emit] : ChoiceM α R (List α)) (d, e')).1 ∧
      ∃ g, ((do return [← emit] : ChoiceM α R (List α)) (c, e)).2.1 = { c with rng := g } ∧
        ((do return [← emit] : ChoiceM α R (List α)) (d, e')).2.1 = { d with rng := g } := by
    rw [PyM.bind_apply, PyM.bind_apply, emit_eq, emit_eq, if_pos h.replace, if_pos h.replace',
      PyM.bind_apply, PyM.bind_apply]
    obtain ⟨h1, g, h2, h3⟩ := withReplacement_twin 1 e e' h
    generalize withReplacement 1 (c, e) = p at *
    generalize withReplacement 1 (d, e') = q at *
    obtain ⟨x | v, s1, s2⟩ := p <;> obtain ⟨y | u, t1, t2⟩ := q <;> cases h1 <;> cases h2 <;> cases h3
    · exact ⟨rfl, g, rfl, rfl⟩
    · unfold first PyM.lift
      dsimp only
      rcases pyListGet v 0 with y | y
      · exact ⟨rfl, g, rfl, rfl⟩
      · exact ⟨rfl, g, rfl, rfl⟩
  cases n with
  | none => exact hone
  | some n =>
    show (call (some (n : Int)) (c, e)).1 = (call (some (n : Int)) (d, e')).1 ∧ ∃ g,
      (call (some (n : Int)) (c, e)).2.1 = _ ∧ (call (some (n : Int)) (d, e')).2.1 = _
    unfold call
    dsimp only
    by_cases h1 : (n : Int) = 1
    · rw [if_pos h1]; exact hone
    · rw [if_neg h1, emitMany_eq, emitMany_eq]
      by_cases hb : c.roac = true ∧ (n : Int) > 1
      · rw [if_pos (.inr hb), if_pos (.inr ⟨h.roac.trans hb.1, hb.2⟩)]
        exact withoutReplacement_twin n e e' h
          (hn hb.1 (by have := hb.2; simp only [wanted, Option.getD_some]; omega))
      · rw [if_neg (fun k => hb (k.resolve_left (not_not.2 h.replace))),
          if_neg (fun k => hb (h.roac ▸ k.resolve_left (not_not.2 h.replace')))]
        exact withReplacement_twin n e e' h

theorem twin_outputs (ns : List (Option Nat)) (s t : ChoiceSt α R × Nat) (h : Twin s.1 t.1)
    (hn : s.1.roac = true → ∀ n ∈ ns, 1 < wanted n →
      ((wanted n : Int) > s.1.numUniqueItems ↔ (wanted n : Int) > t.1.numUniqueItems)) :
    choiceOutputs (onlyCalls ns) s = choiceOutputs (onlyCalls ns) t := by
  induction ns generalizing s t with
  | nil => rfl
  | cons n ns ih =>
    obtain ⟨h1, g, h2, h3⟩ := call_twin n s.2 t.2 h
      (fun hr => hn hr n (List.mem_cons_self ..))
    show _ :: _ = _ :: _
    simp only [ChoiceOp.run]
    refine congrArg₂ _ h1 (ih _ _ ?_ ?_)
    · rw [h2, h3]; exact h.step g
    · rw [h2, h3]; exact fun hr m hm => hn hr m (List.mem_cons_of_mem _ hm)

/-- **C93 (with replacement).** The next call draws from the list as it is now: the emitter does
what any other emitter does that has this list, these weights and this generator. -/
theorem C93_with_replacement (ns : List (Option Nat)) (s t : ChoiceSt α R × Nat) (l : List α)
    (hs : s.1.replace = true) (hs' : s.1.roac = false) (ht : t.1.replace = true)
    (ht' : t.1.roac = false) (hl : t.1.items = l) (hw : t.1.weights = s.1.weights)
    (hcw : t.1.cumWeights = s.1.cumWeights) (hg : t.1.rng = s.1.rng) :
    choiceOutputs (onlyCalls ns) (withList s l) = choiceOutputs (onlyCalls ns) t :=
  twin_outputs ns (withList s l) t ⟨hl, hw, hcw, hg, ht'.trans hs'.symm, hs, ht⟩
    (fun h => absurd (hs'.symm.trans h) (by simp))

/-- The values are items of the list as it is now, also with `replace_only_after_call`. -/
theorem C93_values {s : ChoiceSt α R × Nat} (hs : s.1.replace = true) (l : List α)
    (n : Option Int) (vs : List α) (h : (call n (withList s l)).1 = .ok vs) : ∀ v ∈ vs, v ∈ l := by
  have hr : (withList s l).1.replace = true := hs
  have hi : (withList s l).1.items = l := rfl
  generalize withList s l = t at *
  have hwith : ∀ k us, (withReplacement k t).1 = .ok us → ∀ v ∈ us, v ∈ l := by
    intro k us hu
    rw [withReplacement_run] at hu
    split at hu
    · cases hu
      intro v hv
      obtain ⟨a, ha, hva⟩ := List.mem_flatten.1 hv
      rw [(List.mem_replicate.1 ha).2] at hva
      exact hi ▸ hva
    · split at hu
      · cases hu; exact fun v hv => hi ▸ pick_mem v hv
      · cases hu
  have hwithout : ∀ k us, (withoutReplacement k t).1 = .ok us → ∀ v ∈ us, v ∈ l := by
    intro k us hu
    rw [withoutReplacement_repl k t hr] at hu
    split at hu
    · cases hu
    · split at hu
      · cases hu; exact fun v hv => hi ▸ pick_mem v hv
      · cases hu
  have hone : ∀ us, ((do return [← emit] : ChoiceM α R (List α)) t).1 = .ok us →
      ∀ v ∈ us, v ∈ l := by
    intro us hu
    rw [PyM.bind_apply, emit_eq, if_pos hr, PyM.bind_apply] at hu
    have := hwith 1
    rcases hq : withReplacement 1 t with ⟨x | ws, t'⟩ <;> rw [hq] at hu this
    · cases hu
    · unfold first PyM.lift at hu
      dsimp only at hu
      rcases hg : pyListGet ws 0 with y | y <;> rw [hg] at hu
      · cases hu
      · cases hu
        intro v hv
        rw [List.mem_singleton.1 hv]
        refine this ws rfl y ?_
        cases ws with
        | nil => cases hg
        | cons a as => cases hg; exact List.mem_cons_self ..
  cases n with
  | none => exact hone vs h
  | some n =>
    unfold call at h
    dsimp only at h
    split at h
    · exact hone vs h
    · rw [emitMany_eq] at h
      split at h
      · exact hwithout n vs h
      · exact hwith n vs h

/-! ### Starting again -/

omit [FloorRing K] [PyHash α] in
theorem wf_withList {items : List α} {s : ChoiceSt α R × Nat} (h : WF items s.1) {l : List α}
    (hl : l ≠ []) (hw : WeightsFit s.1.weights l) :
    WF l ({ (withList s l).1 with
      numUniqueItems := if s.1.replace then l.length else s.1.numUniqueItems }) where
  items_eq := rfl
  ne := hl
  weights := by
    rcases h.weights with k | ⟨ws, h1, h2, _⟩
    · exact .inl k
    · exact .inr ⟨ws, h1, h2, hw ws h1⟩
  roac := h.roac
  num := fun hr => if_pos hr

theorem calls_admissible (ns : List (Option Nat)) (s : ChoiceSt α R × Nat) :
    ChoiceAdmissible (onlyCalls ns) s := by
  induction ns generalizing s with
  | nil => trivial
  | cons n ns ih => exact ⟨trivial, (fun h => by cases h), ih _⟩

/-- **C93 (reset).** After `reset()` with a fixed seed the emitter is as one made now with the list
as it is now and the same settings: both fail alike, and calls return the same. -/
theorem C93_reset_partial {items : List α} {s : ChoiceSt α R × Nat} (h : ChoiceReach R items s)
    {l : List α} (hl : l ≠ []) (hw : WeightsFit s.1.weights l) (x : Int)
    (hx : s.1.rngSeed = some x) (ent : Nat) :
    (∀ y, (reset (withList s l)).1 = .error y →
      Choice.init (R := R) l s.1.weights s.1.replace s.1.roac (some x) none ent =
        (.error y, ent)) ∧
    (∀ a, (reset (withList s l)).1 = .ok a → ∃ st,
      Choice.init (R := R) l s.1.weights s.1.replace s.1.roac (some x) none ent = (.ok st, ent) ∧
      (s.1.replace = false → ∀ ops : List (ChoiceOp K), ChoiceAdmissible ops (st, ent) →
        choiceOutputs ops (reset (withList s l)).2 = choiceOutputs ops (st, ent)) ∧
      ∀ ns : List (Option Nat), (s.1.roac = true → ∀ n ∈ ns, 1 < wanted n →
          (wanted n ≤ items.length ↔ wanted n ≤ l.length)) →
        choiceOutputs (onlyCalls ns) (reset (withList s l)).2 =
          choiceOutputs (onlyCalls ns) (st, ent)) := by
  have hwf := reach_wf h
  have key := init_like_reset (wf_withList hwf hl hw) x s.2 ent hx
  obtain ⟨⟨i1, i2, i3, i4, i5, i6, i7, i8, i9, i10⟩, e⟩ := s
  change i9 = some x at hx
  subst hx
  cases i4 with
  | false =>
    refine ⟨key.1, fun a ha => ?_⟩
    obtain ⟨st, h1, h2, h3⟩ := key.2 a ha
    have hops : ∀ ops : List (ChoiceOp K), ChoiceAdmissible ops (st, ent) →
        choiceOutputs ops (reset (withList ((⟨i1, i2, i3, false, i5, i6, i7, i8, some x, i10⟩, e) :
          ChoiceSt α R × Nat) l)).2 = choiceOutputs ops (st, ent) :=
      fun ops hops => (Sim.outputs ops (s := (st, ent)) h2 (by rw [h3]; simp) hops).symm
    exact ⟨st, h1, fun _ => hops, fun ns _ => hops _ (calls_admissible ns _)⟩
  | true =>
    have hnum : i8 = items.length := hwf.num rfl
    obtain ⟨g, e1, hg, hrun⟩ := reset_run
      (withList ((⟨i1, i2, i3, true, i5, i6, i7, i8, some x, i10⟩, e) : ChoiceSt α R × Nat) l)
    obtain ⟨rfl, he1⟩ := hg x rfl
    cases he1
    obtain ⟨g', e', hg', hrun'⟩ := reset_run
      ((⟨l, i2, i3, true, i5, i6, i7, l.length, some x, i10⟩, e) : ChoiceSt α R × Nat)
    obtain ⟨rfl, he2⟩ := hg' x rfl
    cases he2
    replace hrun := hrun.trans (if_pos rfl)
    replace hrun' := hrun'.trans (if_pos rfl)
    refine ⟨(fun y hy => by rw [hrun] at hy; cases hy), fun a ha => ?_⟩
    obtain ⟨st, h1, h2, h3⟩ := key.2 ⟨⟩ (congrArg Prod.fst hrun')
    refine ⟨st, h1, (fun hf => by cases hf), fun ns hn => ?_⟩
    have hops := (Sim.outputs (onlyCalls ns) (s := (st, ent)) h2
      (by rw [h3]; simp) (calls_admissible ns _)).symm
    rw [hrun]
    refine Eq.trans (twin_outputs ns _ _ ?_ ?_) hops
    · change Twin _ (reset ((⟨l, i2, i3, true, i5, i6, i7, l.length, some x, i10⟩, e) :
        ChoiceSt α R × Nat)).2.1
      rw [hrun']
      exact ⟨rfl, rfl, rfl, rfl, rfl, rfl, rfl⟩
    · intro hro n hn' h1
      have := hn hro n hn' h1
      change (wanted n : Int) > i8 ↔ (wanted n : Int) > (reset ((⟨l, i2, i3, true, i5, i6, i7,
        l.length, some x, i10⟩, e) : ChoiceSt α R × Nat)).2.1.numUniqueItems
      rw [hrun', hnum]
      change (wanted n : Int) > (items.length : Int) ↔ (wanted n : Int) > (l.length : Int)
      omega

/-- **C93 (seed).** The same after `seed(x)`. -/
theorem C93_seed_partial {items : List α} {s : ChoiceSt α R × Nat} (h : ChoiceReach R items s)
    {l : List α} (hl : l ≠ []) (hw : WeightsFit s.1.weights l) (x : Int) (ent : Nat) :
    (∀ y, (seed (some x) (withList s l)).1 = .error y →
      Choice.init (R := R) l s.1.weights s.1.replace s.1.roac (some x) none ent =
        (.error y, ent)) ∧
    (∀ a, (seed (some x) (withList s l)).1 = .ok a → ∃ st,
      Choice.init (R := R) l s.1.weights s.1.replace s.1.roac (some x) none ent = (.ok st, ent) ∧
      (s.1.replace = false → ∀ ops : List (ChoiceOp K), ChoiceAdmissible ops (st, ent) →
        choiceOutputs ops (seed (some x) (withList s l)).2 = choiceOutputs ops (st, ent)) ∧
      ∀ ns : List (Option Nat), (s.1.roac = true → ∀ n ∈ ns, 1 < wanted n →
          (wanted n ≤ items.length ↔ wanted n ≤ l.length)) →
        choiceOutputs (onlyCalls ns) (seed (some x) (withList s l)).2 =
          choiceOutputs (onlyCalls ns) (st, ent)) := by
  have h' : ChoiceReach R items (({ s.1 with rngSeed := some x } : ChoiceSt α R), s.2) :=
    ChoiceReach.op s (.setRngSeed (some x)) h
  have := C93_reset_partial h' hl hw x rfl ent
  obtain ⟨c, e⟩ := s
  show (∀ y, (seed (some x) (({ c with items := l } : ChoiceSt α R), e)).1 = _ → _) ∧
    ∀ a, (seed (some x) (({ c with items := l } : ChoiceSt α R), e)).1 = _ → ∃ st, _ ∧
      (_ → ∀ ops, _ → choiceOutputs ops (seed (some x) (({ c with items := l } : ChoiceSt α R), e)).2
        = _) ∧ ∀ ns, _ → choiceOutputs (onlyCalls ns)
          (seed (some x) (({ c with items := l } : ChoiceSt α R), e)).2 = _
  rw [seed_eq_reset]
  exact this

/-! ### Weights that no longer fit -/

/-- **C93 (weights, without replacement).** `reset` and `seed` raise `ValueError`. -/
theorem C93_weights_reset {items : List α} {s : ChoiceSt α R × Nat} (h : ChoiceReach R items s)
    (hr : s.1.replace = false) {l : List α} {ws : List K} (hw : s.1.weights = some ws)
    (hl : l.length ≠ ws.length) (x : Option Int) :
    (reset (withList s l)).1 = .error .valueError ∧
      (seed x (withList s l)).1 = .error .valueError := by
  have hne : ws ≠ [] := by
    rintro rfl
    rcases (reach_wf h).weights with ⟨h0, _⟩ | ⟨vs, h0, _, h2⟩
    · rw [hw] at h0; cases h0
    · rw [hw] at h0; cases h0
      exact (reach_wf h).ne (List.length_eq_zero_iff.1 h2.symm)
  have key : ∀ (c : ChoiceSt α R) (e : Nat), c.items = l → c.weights = some ws →
      (globalShuffle (c, e)).1 = .error .valueError := by
    intro c e h1 h2
    have h3 : shufWeights c = ws := by
      unfold shufWeights
      rw [h2]
      cases ws with
      | nil => exact absurd rfl hne
      | cons a as => rfl
    rw [globalShuffle_run]
    dsimp only
    rw [h1, h3]
    unfold weightedShuffle
    rw [if_pos hl]; rfl
  have hr' : ¬ (withList s l).1.replace = true := by simp [withList, hr]
  obtain ⟨g, e, _, h1⟩ := reset_run (withList s l)
  obtain ⟨g', e', _, h2⟩ := seed_run x (withList s l)
  rw [h1, h2, if_neg hr', if_neg hr']
  exact ⟨key _ _ rfl hw, key _ _ rfl hw⟩

/-- **C93 (weights, with replacement).** Calls raise `ValueError`, unless a single item is left. -/
theorem C93_weights_call_partial {items : List α} {s : ChoiceSt α R × Nat}
    (h : ChoiceReach R items s) (hr : s.1.replace = true) {l : List α} {ws : List K}
    (hw : s.1.weights = some ws) (hl : l.length ≠ ws.length) (h1 : l.length ≠ 1)
    (n : Option Nat) (hn : s.1.roac = true → wanted n ≤ items.length) :
    (call (n.map Int.ofNat) (withList s l)).1 = .error .valueError := by
  have hcw : s.1.cumWeights = some (accumulate ws) := by
    rcases (reach_wf h).weights with ⟨h0, _⟩ | ⟨vs, h0, h2, _⟩
    · rw [hw] at h0; cases h0
    · rw [hw] at h0; cases h0; exact h2
  have hnum := (reach_wf h).num hr
  obtain ⟨⟨i1, i2, i3, i4, i5, i6, i7, i8, i9, i10⟩, e⟩ := s
  dsimp only at hr hw hcw hn hnum
  subst hr hw hcw hnum
  have hwith : ∀ k, (withReplacement k ((⟨l, some ws, some (accumulate ws), true, i5, i6,
      i7, items.length, i9, i10⟩, e) : ChoiceSt α R × Nat)).1 = .error .valueError := by
    intro k
    rw [withReplacement_run, if_neg h1]
    unfold drawWith
    dsimp only
    rw [if_neg (by simp)]
    unfold Rng.choicesCum
    rw [accumulate_length, if_pos (Ne.symm hl)]; rfl
  have hone : ((do return [← emit] : ChoiceM α R (List α)) ((⟨l, some ws,
      some (accumulate ws), true, i5, i6, i7, items.length, i9, i10⟩, e) :
        ChoiceSt α R × Nat)).1 = .error .valueError := by
    rw [PyM.bind_apply, emit_eq, if_pos rfl, PyM.bind_apply]
    have := hwith 1
    generalize withReplacement 1 ((_, _) : ChoiceSt α R × Nat) = p at this ⊢
    obtain ⟨y | y, t⟩ := p <;> cases this
    rfl
  cases n with
  | none => exact hone
  | some n =>
    show (call (some (n : Int)) ((⟨l, some ws, some (accumulate ws), true, i5, i6, i7,
      items.length, i9, i10⟩, e) : ChoiceSt α R × Nat)).1 = _
    unfold call
    dsimp only
    by_cases hn1 : (n : Int) = 1
    · rw [if_pos hn1]; exact hone
    · rw [if_neg hn1, emitMany_eq]
      split
      · rename_i hb
        have hb' := hb.resolve_left (by simp)
        have := hn hb'.1
        simp only [wanted, Option.getD_some] at this
        rw [withoutReplacement_repl _ _ rfl,
          if_neg (show ¬ (n : Int) > (items.length : Int) by omega)]
        show (match weightedShuffle R l.length ws (some (n : Int)) i10 with
          | (.ok ps, g) => _
          | (.error x, g) => _ : Except Err (List α) × (ChoiceSt α R × Nat)).1 = _
        unfold weightedShuffle
        rw [if_pos hl]; rfl
      · exact hwith n

/-- **C93 (a single item left, violated).** The weights, of which there are too many, are
ignored. -/
theorem C93_single_item_violated (s : ChoiceSt α R × Nat) (hr : s.1.replace = true)
    (hro : s.1.roac = false) (v : α) (n : Nat) :
    call (some (n : Int)) (withList s [v]) = (.ok (List.replicate n v), withList s [v]) := by
  have hwith : ∀ k : Nat, withReplacement (k : Int) (withList s [v]) =
      (.ok (List.replicate k v), withList s [v]) := by
    intro k
    rw [withReplacement_run, if_pos (show (withList s [v]).1.items.length = 1 from rfl)]
    have : (List.replicate (k : Int).toNat (withList s [v]).1.items).flatten = List.replicate k v := by
      show (List.replicate (k : Int).toNat [v]).flatten = _
      rw [Int.toNat_natCast]
      induction k with
      | zero => rfl
      | succ k ih => rw [List.replicate_succ, List.flatten_cons, ih]; rfl
    rw [this]
  unfold call
  dsimp only
  have hr' : (withList s [v]).1.replace = true := hr
  by_cases h1 : (n : Int) = 1
  · rw [if_pos h1, PyM.bind_apply, emit_eq, if_pos hr', PyM.bind_apply]
    have hn : n = 1 := by omega
    have := hwith 1
    rw [show withReplacement 1 (withList s [v]) = (.ok (List.replicate 1 v), withList s [v]) from this,
      hn]
    rfl
  · rw [if_neg h1, emitMany_eq, if_neg]
    · exact hwith n
    · rintro (k | ⟨k, _⟩)
      · exact k hr'
      · exact absurd (hro.symm.trans k) (by simp)

/-! ### `replace_only_after_call` -/

/-- **C93 (replace_only_after_call).** The emitter notes the number of items when it is made, and
neither `reset` nor `seed` counts again.  So it never returns more values than there were at first,
however long the list has become. -/
theorem C93_only_after_call_stale {items : List α} {s : ChoiceSt α R × Nat}
    (h : ChoiceReach R items s) (hro : s.1.roac = true) (l : List α) (n : Nat)
    (hn : items.length < n) (x : Option Int) :
    (call (some (n : Int)) (withList s l)).1 = .error (overAsked l) ∧
      (call (some (n : Int)) (reset (withList s l)).2).1 = .error (overAsked l) ∧
      (call (some (n : Int)) (seed x (withList s l)).2).1 = .error (overAsked l) := by
  have hwf := reach_wf h
  have hpos : 0 < items.length := List.length_pos_of_ne_nil hwf.ne
  have hr := hwf.roac hro
  have hnum := hwf.num hr
  have key : ∀ t : ChoiceSt α R × Nat, t.1.items = l → t.1.roac = true → t.1.replace = true →
      t.1.numUniqueItems = items.length → (call (some (n : Int)) t).1 = .error (overAsked l) := by
    intro t h1 h2 h3 h4
    rw [call_roac n t h2 (by omega), withoutReplacement_repl _ t h3, if_pos (by rw [h4]; omega), h1]
  have hr' : (withList s l).1.replace = true := hr
  obtain ⟨g, e, _, h1⟩ := reset_run (withList s l)
  obtain ⟨g', e', _, h2⟩ := seed_run x (withList s l)
  rw [h1, h2, if_pos hr', if_pos hr']
  exact ⟨key _ rfl hro hr hnum, key _ rfl hro hr hnum, key _ rfl hro hr hnum⟩

/-- **C93 (violated).** `em = Choice('abc', replace_only_after_call=True, rng_seed=3)`; after
`em.items.append('d')` and `em.reset()`, `em(4)` raises `ValueError`, while a new emitter with the
same list gives all four items. -/
theorem C93_only_after_call_violated :
    ChoiceReach demoRng ['a', 'b', 'c'] (roac0 none) ∧
    (call (some 4) (reset (withList (roac0 none) ['a', 'b', 'c', 'd'])).2).1 =
      .error .valueError ∧
    ∃ st vs, Choice.init (R := demoRng) ['a', 'b', 'c', 'd'] none true true (some 3) none 0 =
        (.ok st, 0) ∧
      (call (some 4) (st, 0)).1 = .ok vs ∧ vs.Perm ['a', 'b', 'c', 'd'] := by
  refine ⟨roac0_reach, by decide +kernel,
    (builtState (Choice.init ['a', 'b', 'c', 'd'] none true true (some 3) none 0)).1,
    ['a', 'b', 'c', 'd'], ?_, by decide +kernel, .refl _⟩
  exact (builtState_eq _ (by decide +kernel)).trans (congrArg (Prod.mk _) (by decide +kernel))

-- `Choice('aab', weights=[1, 2, 1], replace=False, rng_seed=3)` after one value; then the list is
-- changed
example : choiceOutputs (onlyCalls [none, some 1, none] : List (ChoiceOp ℚ))
      (withList ((ChoiceOp.call none : ChoiceOp ℚ).run dealt0).2 ['x']) =
    choiceOutputs (onlyCalls [none, some 1, none])
      ((ChoiceOp.call none : ChoiceOp ℚ).run dealt0).2 :=
  C93_without_replacement _ _ (by decide +kernel) _
example : choiceOutputs (onlyCalls [none, some 1, none] : List (ChoiceOp ℚ))
      (withList ((ChoiceOp.call none : ChoiceOp ℚ).run dealt0).2 ['x']) =
    [.ok ['b'], .ok ['a'], .error .valueError] := by decide +kernel

-- `Choice('abc', weights=[1, 0, 3], rng_seed=3)`, then `em.items[:] = 'xyz'`
example : choiceOutputs (onlyCalls [none, some 4] : List (ChoiceOp ℚ))
      (withList weighted0 ['x', 'y', 'z']) =
    choiceOutputs (onlyCalls [none, some 4])
      (builtState (Choice.init ['x', 'y', 'z'] (some [1, 0, 3]) true false (some 3) none 7)) :=
  C93_with_replacement _ _ _ _ (by decide +kernel) (by decide +kernel) (by decide +kernel)
    (by decide +kernel) (by decide +kernel) (by decide +kernel) (by decide +kernel)
    rfl
example : choiceOutputs (onlyCalls [none, some 4] : List (ChoiceOp ℚ))
      (withList weighted0 ['x', 'y', 'z']) = [.ok ['x'], .ok ['z', 'z', 'x', 'z']] := by
  decide +kernel
example : ∀ v ∈ ['z', 'z'], v ∈ ['x', 'y', 'z'] :=
  C93_values (s := ((ChoiceOp.call none : ChoiceOp ℚ).run weighted0).2) (by decide +kernel)
    ['x', 'y', 'z'] (some 2) ['z', 'z'] (by decide +kernel)

-- two values dealt, the list changed, `reset()`
example : choiceOutputs (onlyCalls [some 3] : List (ChoiceOp ℚ))
      (reset (withList dealt2 ['x', 'y', 'z'])).2 = [.ok ['y', 'z', 'x']] := by decide +kernel
example : ∃ st, Choice.init (R := demoRng) ['x', 'y', 'z'] (some [1, 2, 1]) false false (some 3)
      none 0 = (.ok st, 0) ∧ ∀ ops : List (ChoiceOp ℚ), ChoiceAdmissible ops (st, 0) →
        choiceOutputs ops (reset (withList dealt2 ['x', 'y', 'z'])).2 =
          choiceOutputs ops (st, 0) := by
  have hw : dealt2.1.weights = some [1, 2, 1] := by decide +kernel
  obtain ⟨st, h1, h2, _⟩ := (C93_reset_partial dealt2_run.reach (l := ['x', 'y', 'z'])
    (by decide) (fun ws h => by rw [hw] at h; cases h; rfl) 3 (by decide +kernel) 0).2 ⟨⟩
      (by decide +kernel)
  rw [hw, show dealt2.1.replace = false by decide +kernel,
    show dealt2.1.roac = false by decide +kernel] at h1
  exact ⟨st, h1, h2 (by decide +kernel)⟩

-- an item is added, but no weight
example : (reset (withList dealt2 ['a', 'a', 'b', 'c'])).1 = .error .valueError ∧
    (seed (some 5) (withList dealt2 ['a', 'a', 'b', 'c'])).1 = .error .valueError :=
  C93_weights_reset dealt2_run.reach (by decide +kernel)
    (show dealt2.1.weights = some [1, 2, 1] by decide +kernel) (by decide) _
example : (call (some 2) (withList weighted0 ['a', 'b', 'c', 'd'])).1 = .error .valueError :=
  C93_weights_call_partial weighted0_reach (by decide +kernel)
    (show weighted0.1.weights = some [1, 0, 3] by decide +kernel) (by decide) (by decide) (some 2)
    (fun _ => by decide)
example : call (some 2) (withList weighted0 ['b']) = (.ok ['b', 'b'], withList weighted0 ['b']) :=
  C93_single_item_violated _ (by decide +kernel) (by decide +kernel) 'b' 2

end Fauxdoc
