import Verif.Proofs.Choice2
/-
Every operation preserves the invariants; consequences for reachable states and histories.
-/
set_option linter.unusedSectionVars false
namespace Fauxdoc
variable {K : Type} [Field K] [LinearOrder K] [FloorRing K] {α : Type} [PyHash α] {R : Rng K}

namespace Choice

/-- An attribute operation of the API returns no values. -/
theorem unit_op (m : ChoiceM α R PUnit) (s : ChoiceSt α R × Nat) :
    (do m; return ([] : List α) : ChoiceM α R (List α)) s =
      ((m s).1.map fun _ => [], (m s).2) := by
  change (m >>= fun _ => pure []) s = _
  rw [PyM.bind_apply]
  rcases m s with ⟨_ | _, _⟩ <;> rfl

theorem run_setWeights (x : Option (List K)) (s : ChoiceSt α R × Nat) : (ChoiceOp.setWeights x : ChoiceOp K).run s =
    (((setWeights x s).1.map fun _ => []), (setWeights x s).2) := unit_op (setWeights x) s
theorem run_setCumWeights (x : Option (List K)) (s : ChoiceSt α R × Nat) : (ChoiceOp.setCumWeights x : ChoiceOp K).run s =
    (((setCumWeights x s).1.map fun _ => []), (setCumWeights x s).2) := unit_op (setCumWeights x) s
theorem run_setReplace (x : Bool) (s : ChoiceSt α R × Nat) : (ChoiceOp.setReplace x : ChoiceOp K).run s =
    (((setReplace x s).1.map fun _ => []), (setReplace x s).2) := unit_op (setReplace x) s
theorem run_setRoac (x : Bool) (s : ChoiceSt α R × Nat) : (ChoiceOp.setRoac x : ChoiceOp K).run s =
    (((setRoac x s).1.map fun _ => []), (setRoac x s).2) := unit_op (setRoac x) s
theorem run_seed (x : Option Int) (s : ChoiceSt α R × Nat) : (ChoiceOp.seed x : ChoiceOp K).run s =
    (((seed x s).1.map fun _ => []), (seed x s).2) := unit_op (seed x) s
theorem run_reset (s : ChoiceSt α R × Nat) : (ChoiceOp.reset : ChoiceOp K).run s =
    (((reset s).1.map fun _ => []), (reset s).2) := unit_op reset s

/-- Effects of the attribute operations that (may) reshuffle. -/
inductive ConfEffect (items : List α) (c : ChoiceSt α R) :
    Except Err PUnit → ChoiceSt α R → Prop
  /-- nothing happened (rejected input or no-op) -/
  | same (r : Except Err PUnit) (h : r ≠ .ok ⟨⟩) : ConfEffect items c r c
  /-- with replacement: only configuration and RNG -/
  | conf (c' : ChoiceSt α R) (h : WF items c') (hr : c.replace = true) (hr' : c'.replace = true) :
      ConfEffect items c (.ok ⟨⟩) c'
  /-- without replacement: configuration and RNG, then a shuffle -/
  | shuf (c1 c' : ChoiceSt α R) (r : Except Err PUnit) (h : WF items c1)
      (hr : c.replace = false) (hr1 : c1.replace = false)
      (hkeep : ∀ E, Good items c E → Good items c1 E) (he : ShuffleEffect c1 r c') :
      ConfEffect items c r c'

theorem ConfEffect.wf {items : List α} {c c' : ChoiceSt α R} {r : Except Err PUnit}
    (h : WF items c) (he : ConfEffect items c r c') : WF items c' := by
  cases he with
  | same r _ => exact h
  | conf c' h' _ _ => exact h'
  | shuf c1 c' r h1 _ hr1 _ he => exact h1.of_shuffle hr1 he

/-- The record after a reshuffling operation. -/
def afterConf (r : Except Err PUnit) (E : List α) : List α :=
  match r with
  | .ok _ => []
  | .error _ => E

theorem ConfEffect.good {items : List α} {c c' : ChoiceSt α R} {r : Except Err PUnit} {E : List α}
    (h : Good items c E) (he : ConfEffect items c r c') :
    Good items c' (afterConf r E) := by
  cases he with
  | same r hr =>
    rcases r with x | ⟨⟩
    · exact h
    · exact absurd rfl hr
  | conf c' h' hr hr' => exact ⟨fun hx => by simp [hr'] at hx, fun _ => rfl⟩
  | shuf c1 c' r h1 hr hr1 hkeep he =>
    rcases r with x | ⟨⟩
    · exact (hkeep E h).of_fail he
    · exact Good.of_shuffle h1.items_eq hr1 he

theorem reset_effect {items : List α} (s : ChoiceSt α R × Nat) (h : WF items s.1) :
    ConfEffect items s.1 (reset s).1 (reset s).2.1 := by
  obtain ⟨g, e, _, hrun⟩ := reset_run s
  rw [hrun]
  by_cases hb : s.1.replace = true
  · rw [if_pos hb]; exact .conf _ (h.rng g) hb hb
  · rw [if_neg hb]
    obtain ⟨r, c', h1, h2⟩ := globalShuffle_effect ({ s.1 with rng := g }, e)
    rw [h1]
    simp only [Bool.not_eq_true] at hb
    exact .shuf _ c' r (h.rng g) hb hb (fun E hE => hE.rng g) h2

theorem seed_effect {items : List α} (x : Option Int) (s : ChoiceSt α R × Nat)
    (h : WF items s.1) : ConfEffect items s.1 (seed x s).1 (seed x s).2.1 := by
  obtain ⟨g, e, _, hrun⟩ := seed_run x s
  rw [hrun]
  have hw : WF items { s.1 with rngSeed := x, rng := g } :=
    ⟨h.items_eq, h.ne, h.weights, h.roac, h.num⟩
  by_cases hb : s.1.replace = true
  · rw [if_pos hb]; exact .conf _ hw hb hb
  · rw [if_neg hb]
    obtain ⟨r, c', h1, h2⟩ := globalShuffle_effect ({ s.1 with rngSeed := x, rng := g }, e)
    rw [h1]
    simp only [Bool.not_eq_true] at hb
    exact .shuf _ c' r hw hb hb (fun E hE => ⟨hE.norepl, hE.repl⟩) h2

theorem setAll_effect {items : List α} (ws : Option (List K)) (cum : Bool)
    (s : ChoiceSt α R × Nat) (h : WF items s.1) :
    ConfEffect items s.1 ((if cum then setCumWeights ws else setWeights ws) s).1
      ((if cum then setCumWeights ws else setWeights ws) s).2.1 := by
  rw [setAll_run]
  rcases ha : allWeights s.1.items ws cum with x | ⟨w, cw⟩
  · exact .same _ (by simp)
  · simp only
    have hw : WF items { s.1 with weights := w, cumWeights := cw } :=
      ⟨h.items_eq, h.ne, h.items_eq ▸ allWeights_ok ha, h.roac, h.num⟩
    by_cases hb : s.1.replace = true
    · rw [if_pos hb]; exact .conf _ hw hb hb
    · rw [if_neg hb]
      obtain ⟨r, c', h1, h2⟩ :=
        globalShuffle_effect ({ s.1 with weights := w, cumWeights := cw }, s.2)
      rw [h1]
      simp only [Bool.not_eq_true] at hb
      exact .shuf _ c' r hw hb hb (fun E hE => ⟨hE.norepl, hE.repl⟩) h2

/-- Every operation preserves well-formedness, even when it raises. -/
theorem WF.step {items : List α} (o : ChoiceOp K) (s : ChoiceSt α R × Nat) (h : WF items s.1) :
    WF items (o.run s).2.1 := by
  cases o with
  | call n => exact h.of_call (call_effect _ s).1
  | setWeights ws =>
    rw [run_setWeights]
    exact ConfEffect.wf h (setAll_effect ws false s h)
  | setCumWeights ws =>
    rw [run_setCumWeights]
    exact ConfEffect.wf h (setAll_effect ws true s h)
  | reset =>
    rw [run_reset]
    exact (reset_effect s h).wf h
  | seed x =>
    rw [run_seed]
    exact (seed_effect x s h).wf h
  | setRngSeed x => exact ⟨h.items_eq, h.ne, h.weights, h.roac, h.num⟩
  | setReplace b =>
    rw [run_setReplace, setReplace_run]
    by_cases h1 : b = s.1.replace
    · rw [if_pos h1]; exact h
    · rw [if_neg h1]
      cases b with
      | true =>
        rw [if_pos rfl]
        exact ⟨h.items_eq, h.ne, h.weights, fun _ => rfl, fun _ => by simp [h.items_eq]⟩
      | false =>
        rw [if_neg (by simp)]
        obtain ⟨r, c', h1, h2⟩ :=
          globalShuffle_effect ({ s.1 with replace := false, roac := false }, s.2)
        rw [h1]
        have hw : WF items { s.1 with replace := false, roac := false } :=
          ⟨h.items_eq, h.ne, h.weights, fun hx => by simp at hx, fun hx => by simp at hx⟩
        exact hw.of_shuffle rfl h2
  | setRoac b =>
    rw [run_setRoac, setRoac_run]
    cases b with
    | false =>
      rw [if_neg (by simp)]
      exact ⟨h.items_eq, h.ne, h.weights, fun hx => by simp at hx, h.num⟩
    | true =>
      rw [if_pos rfl]
      by_cases hb : s.1.replace = true
      · rw [if_pos hb]; exact ⟨h.items_eq, h.ne, h.weights, fun _ => hb, h.num⟩
      · rw [if_neg hb]
        exact ⟨h.items_eq, h.ne, h.weights, fun _ => rfl, fun _ => by simp [h.items_eq]⟩

theorem CallEffect.good_repl {items : List α} {c c' : ChoiceSt α R} {E : List α}
    (he : CallEffect c c') (hg : Good items c E) (hr : c.replace = true) : Good items c' E := by
  cases he with
  | norepl i m hx => simp [hr] at hx
  | repl g _ => exact hg.rng g

/-- Every operation other than a failing `replace = False` preserves the emission record. -/
theorem Good.step {items : List α} (o : ChoiceOp K) (s : ChoiceSt α R × Nat) (E : List α)
    (h : WF items s.1) (hg : Good items s.1 E)
    (hok : ∀ x, (o.run s).1 = .error x → ∀ b, o = .setReplace b → b = true) :
    Good items (o.run s).2.1 (emittedAfter s.1.replace o (o.run s).1 E) := by
  have hmap : ∀ (r : Except Err PUnit) (o : ChoiceOp K),
      (∀ vs : List α, emittedAfter s.1.replace o (.ok vs) E = []) →
      emittedAfter s.1.replace o (r.map fun _ => ([] : List α)) E =
        afterConf r E := by
    intro r o ho
    rcases r with x | x
    · rfl
    · exact ho []
  cases o with
  | call n =>
    cases hr : s.1.replace with
    | true =>
      have he := (call_effect (n.map Int.ofNat) s).1
      have hE := hg.repl hr
      subst hE
      have hgoal : emittedAfter true (.call n : ChoiceOp K) ((ChoiceOp.call n : ChoiceOp K).run s).1 [] =
          ([] : List α) := by
        unfold emittedAfter
        rcases ((ChoiceOp.call n : ChoiceOp K).run s).1 with x | vs <;> rfl
      rw [hgoal]
      change Good items (call (n.map Int.ofNat) s).2.1 []
      exact he.good_repl hg hr
    | false =>
      have hc := call_norepl n s hg hr
      change Good items (call (n.map Int.ofNat) s).2.1
        (emittedAfter false (.call n : ChoiceOp K) (call (n.map Int.ofNat) s).1 E)
      rw [hc]
      by_cases hk : E.length + wanted n ≤ items.length
      · rw [if_pos hk]; exact hg.after_call _ hr hk
      · rw [if_neg hk]; exact hg
  | setWeights ws =>
    rw [run_setWeights, hmap _ _ fun _ => rfl]
    exact ConfEffect.good hg (setAll_effect ws false s h)
  | setCumWeights ws =>
    rw [run_setCumWeights, hmap _ _ fun _ => rfl]
    exact ConfEffect.good hg (setAll_effect ws true s h)
  | reset =>
    rw [run_reset, hmap _ _ fun _ => rfl]
    exact (reset_effect s h).good hg
  | seed x =>
    rw [run_seed, hmap _ _ fun _ => rfl]
    exact (seed_effect x s h).good hg
  | setRngSeed x => exact ⟨hg.norepl, hg.repl⟩
  | setReplace b =>
    have hok' := fun x hx => hok x hx b rfl
    clear hok
    simp only [run_setReplace, setReplace_run] at hok' ⊢
    by_cases h1 : b = s.1.replace
    · rw [if_pos h1]
      change Good items s.1 (if b = s.1.replace then E else [])
      rw [if_pos h1]; exact hg
    · rw [if_neg h1] at hok' ⊢
      cases b with
      | true =>
        rw [if_pos rfl]
        change Good items _ (if true = s.1.replace then E else [])
        rw [if_neg h1]
        exact ⟨fun hx => by simp at hx, fun _ => rfl⟩
      | false =>
        rw [if_neg (by simp)] at hok' ⊢
        obtain ⟨r, c', h2, h3⟩ :=
          globalShuffle_effect ({ s.1 with replace := false, roac := false }, s.2)
        rw [h2] at hok' ⊢
        rcases r with x | ⟨⟩
        · exact absurd (hok' x rfl) (by simp)
        · change Good items c' (if false = s.1.replace then E else [])
          rw [if_neg h1]
          exact Good.of_shuffle (c := { s.1 with replace := false, roac := false }) h.items_eq rfl h3
  | setRoac b =>
    rw [run_setRoac, setRoac_run]
    cases b with
    | false =>
      rw [if_neg (by simp)]
      change Good items _ (if false && !s.1.replace then [] else E)
      rw [if_neg (by simp)]
      exact ⟨hg.norepl, hg.repl⟩
    | true =>
      rw [if_pos rfl]
      by_cases hb : s.1.replace = true
      · rw [if_pos hb]
        change Good items _ (if true && !s.1.replace then [] else E)
        rw [if_neg (by simp [hb])]
        exact ⟨hg.norepl, hg.repl⟩
      · rw [if_neg hb]
        change Good items _ (if true && !s.1.replace then [] else E)
        rw [if_pos (by simp [hb])]
        exact ⟨fun hx => by simp at hx, fun _ => rfl⟩

/-- What a successful construction gives. -/
theorem init_ok {items : List α} {w : Option (List K)} {replace roac : Bool} {sd : Option Int}
    {cw : Option (List K)} {ent ent' : Nat} {st : ChoiceSt α R}
    (h : init items w replace roac sd cw ent = (.ok st, ent')) :
    WF items st ∧ Good items st [] ∧ st.rngSeed = sd ∧ st.replace = (replace || roac) ∧
      st.roac = roac := by
  unfold init at h
  by_cases he : items.isEmpty = true
  · rw [if_pos he] at h; cases h
  · rw [if_neg he] at h
    by_cases hb : (truthy w && truthy cw) = true
    · rw [if_pos hb] at h; cases h
    · rw [if_neg hb] at h
      simp only at h
      rcases ha : allWeights items (if truthy w = true then w else cw) (truthy cw) with x | ⟨w', cw'⟩
      · rw [ha] at h; cases h
      · rw [ha] at h
        simp only at h
        have hne : items ≠ [] := by simpa using he
        generalize hst : (ChoiceSt.mk items w' cw' (replace || roac) roac [] none
          (items.length : Int) sd (R.ofSeed 0) : ChoiceSt α R) = st0 at h
        have hwf : WF items st0 := by
          subst hst
          exact ⟨rfl, hne, allWeights_ok ha, fun hx => by simp_all, fun _ => rfl⟩
        have heff := reset_effect (st0, ent) hwf
        obtain ⟨g, e, _, hrun⟩ := reset_run (st0, ent)
        rcases hres : reset (st0, ent) with ⟨x | ⟨⟩, ⟨c', e'⟩⟩
        · rw [hres] at h; cases h
        · rw [hres] at h heff
          cases h
          refine ⟨heff.wf hwf, ?_, ?_⟩
          · cases heff with
            | same r hr => exact absurd rfl hr
            | conf c' h' hr hr' => exact ⟨fun hx => absurd (hr'.symm.trans hx) (by simp), fun _ => rfl⟩
            | shuf c1 c' r h1 hr hr1 hkeep he => exact Good.of_shuffle h1.items_eq hr1 he
          · rw [hres] at hrun
            subst hst
            simp only at hrun
            by_cases hb : (replace || roac) = true
            · rw [if_pos hb] at hrun
              cases hrun
              exact ⟨rfl, rfl, rfl⟩
            · rw [if_neg hb] at hrun
              obtain ⟨r, c2, h1, h2⟩ := globalShuffle_effect
                ((ChoiceSt.mk items w' cw' (replace || roac) roac [] none
                  (items.length : Int) sd g : ChoiceSt α R), e)
              rw [h1] at hrun
              cases hrun
              cases h2
              exact ⟨rfl, rfl, rfl⟩

theorem reach_wf {items : List α} {s : ChoiceSt α R × Nat} (h : ChoiceReach R items s) :
    WF items s.1 := by
  induction h with
  | init w r ro sd cw e e' st h => exact (init_ok h).1
  | op s o _ ih => exact ih.step o s

theorem run_good {items : List α} {s : ChoiceSt α R × Nat} {E : List α}
    (h : ChoiceRun R items s E) : Good items s.1 E := by
  induction h with
  | init w r ro sd cw e e' st h => exact (init_ok h).2.1
  | op s E o hrun hok ih => exact ih.step o s E (reach_wf hrun.reach) hok

end Choice
end Fauxdoc
