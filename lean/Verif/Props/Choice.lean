import Verif.Proofs.Choice4
import Verif.Props.MathTools
import Verif.Py.RngDemo
/-
C09, C12-C17, C19: the `Choice` emitter over all histories.
-/
set_option linter.unusedSectionVars false
namespace Fauxdoc
open Choice
variable {K : Type} [Field K] [LinearOrder K] [FloorRing K] {α : Type} [PyHash α] {R : Rng K}

/-! ### With replacement -/

/-- **C09.** In every reachable state with replacement, `em()`/`em(n)` returns exactly the requested
number of values, all of them items, and changes nothing but the generator state. -/
theorem C09_with_replacement [IsStrictOrderedRing K] {items : List α} {s : ChoiceSt α R × Nat}
    (h : ChoiceReach R items s) (hr : s.1.replace = true) (n : Option Nat)
    (hro : s.1.roac = true → wanted n ≤ 1)
    (hw : ∀ ws, s.1.weights = some ws → 0 < ws.sum) :
    ∃ vs g, call (n.map Int.ofNat) s = (.ok vs, ({ s.1 with rng := g }, s.2)) ∧
      vs.length = wanted n ∧ ∀ v ∈ vs, v ∈ items := by
  have hwf := reach_wf h
  rw [call_repl n s hr hro]
  by_cases h1 : wanted n = 1
  · rw [if_pos h1]
    obtain ⟨vs, g, hrun, hl, hm⟩ := withReplacement_ok s hwf hw 1
    have hrun' : withReplacement 1 s = (.ok vs, ({ s.1 with rng := g }, s.2)) := hrun
    rw [hrun']
    obtain ⟨v, rfl⟩ := List.length_eq_one_iff.1 hl
    exact ⟨[v], g, rfl, by rw [h1]; rfl, hm⟩
  · rw [if_neg h1]
    exact withReplacement_ok s hwf hw (wanted n)

/-! ### Without replacement -/

/-- **C12.** Without replacement, everything emitted since the last reshuffle is a prefix of one
permutation of the items. -/
theorem C12_prefix_of_permutation {items : List α} {s : ChoiceSt α R × Nat} {E : List α}
    (h : ChoiceRun R items s E) (hr : s.1.replace = false) :
    ∃ p, p.Perm items ∧ E <+: p := by
  obtain ⟨hp, _, hE, _⟩ := (run_good h).norepl hr
  exact ⟨_, hp, by rw [hE]; exact List.take_prefix _ _⟩

/-- **C12 (multiplicity).** No value is emitted more often than it occurs among the items. -/
theorem C12_count [DecidableEq α] {items : List α} {s : ChoiceSt α R × Nat} {E : List α}
    (h : ChoiceRun R items s E) (hr : s.1.replace = false) (v : α) :
    E.count v ≤ items.count v := by
  obtain ⟨p, hp, hE⟩ := C12_prefix_of_permutation h hr
  rw [← hp.count_eq]
  exact hE.sublist.count_le v

/-- **C12 (exhaustion).** After `len(items)` emissions every item has been emitted exactly once. -/
theorem C12_exhausted {items : List α} {s : ChoiceSt α R × Nat} {E : List α}
    (h : ChoiceRun R items s E) (hr : s.1.replace = false) (hl : items.length ≤ E.length) :
    E.Perm items := by
  obtain ⟨p, hp, hE⟩ := C12_prefix_of_permutation h hr
  have : E = p := hE.eq_of_length_le (by rw [hp.length_eq]; exact hl)
  rw [this]; exact hp

/-- **C12 (availability).** As long as enough items remain, `em(n)` returns `n` more of them. -/
theorem C12_available {items : List α} {s : ChoiceSt α R × Nat} {E : List α}
    (h : ChoiceRun R items s E) (hr : s.1.replace = false) (n : Option Nat)
    (hn : E.length + wanted n ≤ items.length) :
    ∃ vs s', (ChoiceOp.call n).run s = (.ok vs, s') ∧ vs.length = wanted n ∧
      ChoiceRun R items s' (E ++ vs) := by
  have hg := run_good h
  have hc := call_norepl n s hg hr
  rw [if_pos hn] at hc
  have hrun : (ChoiceOp.call n : ChoiceOp K).run s = _ := hc
  refine ⟨_, _, hrun, ?_, ?_⟩
  · rw [List.length_take, List.length_drop, (hg.norepl hr).1.length_eq]; omega
  · have := ChoiceRun.op s E (.call n) h (fun x _ b hb => by cases hb)
    rw [hrun] at this
    simpa [emittedAfter, hr] using this

/-- What is still to come is what the shuffled list holds beyond the values already emitted. -/
theorem rest_perm {items : List α} {s : ChoiceSt α R × Nat} {E : List α}
    (h : ChoiceRun R items s E) (hr : s.1.replace = false) {rest : List α}
    (hrest : (E ++ rest).Perm items) : (s.1.shuffled.drop E.length).Perm rest := by
  obtain ⟨hp, hle, hE, hi, hn⟩ := (run_good h).norepl hr
  have h1 : (E ++ s.1.shuffled.drop E.length).Perm (E ++ rest) := by
    have h2 : E ++ s.1.shuffled.drop E.length = s.1.shuffled := by
      conv_lhs => rw [hE]
      rw [List.length_take, min_eq_left (by rw [hp.length_eq]; exact hle)]
      exact List.take_append_drop _ _
    rw [h2]
    exact hp.trans hrest.symm
  exact (List.perm_append_left_iff E).1 h1

theorem allHashable_iff {l : List α} :
    allHashable l = true ↔ ∀ v ∈ l, PyHash.hashable v = true := List.all_eq_true

theorem allHashable_perm {l l' : List α} (h : l.Perm l') : allHashable l = allHashable l' := by
  rw [Bool.eq_iff_iff, allHashable_iff, allHashable_iff]
  exact ⟨fun a v hv => a v (h.mem_iff.2 hv), fun a v hv => a v (h.mem_iff.1 hv)⟩

/-- **C13 (exact outcome).** Asking a no-replacement emitter for more than remains (`rest`) raises and
changes nothing at all.  The exception is the `ValueError` if everything that remains is hashable;
otherwise it is a `TypeError`, raised while the message is put together. -/
theorem C13_over_ask_exact {items : List α} {s : ChoiceSt α R × Nat} {E : List α}
    (h : ChoiceRun R items s E) (hr : s.1.replace = false) (n : Option Nat)
    (hn : items.length < E.length + wanted n) (rest : List α) (hrest : (E ++ rest).Perm items) :
    ∃ x, call (n.map Int.ofNat) s = (.error x, s) ∧
      ((∀ v ∈ rest, PyHash.hashable v = true) ∧ x = .valueError ∨
        (∃ v ∈ rest, PyHash.hashable v = false) ∧ x = .typeError) := by
  rw [call_norepl n s (run_good h) hr, if_neg (by omega)]
  refine ⟨_, rfl, ?_⟩
  rw [overAsked, allHashable_perm (rest_perm h hr hrest)]
  by_cases hh : allHashable rest = true
  · exact .inl ⟨allHashable_iff.1 hh, if_pos hh⟩
  · refine .inr ⟨?_, if_neg hh⟩
    rw [allHashable_iff] at hh
    push Not at hh
    simpa using hh

/-- **C13, partial.** Asking a no-replacement emitter for more than remains raises `ValueError` and
changes nothing at all, if the items are hashable.  Missing from the full claim: items that are not,
see `C13_violated`. -/
theorem C13_over_ask_partial {items : List α} {s : ChoiceSt α R × Nat} {E : List α}
    (h : ChoiceRun R items s E) (hr : s.1.replace = false) (n : Option Nat)
    (hn : items.length < E.length + wanted n) (hh : ∀ v ∈ items, PyHash.hashable v = true) :
    call (n.map Int.ofNat) s = (.error .valueError, s) := by
  rw [call_norepl n s (run_good h) hr, if_neg (by omega), overAsked, if_pos]
  rw [allHashable_iff]
  exact fun v hv => hh v (((run_good h).norepl hr).1.mem_iff.1 (List.mem_of_mem_drop hv))

/-- **C13 (replace_only_after_call, exact outcome).** The same for one call of more than `len(items)`
values, in every reachable state. -/
theorem C13_over_ask_roac_exact {items : List α} {s : ChoiceSt α R × Nat} (h : ChoiceReach R items s)
    (hro : s.1.roac = true) (n : Nat) (hn : items.length < n) :
    ∃ x, call (some (n : Int)) s = (.error x, s) ∧
      ((∀ v ∈ items, PyHash.hashable v = true) ∧ x = .valueError ∨
        (∃ v ∈ items, PyHash.hashable v = false) ∧ x = .typeError) := by
  refine ⟨overAsked items, ?_, ?_⟩
  · have hwf := reach_wf h
    have hpos : 0 < items.length := List.length_pos_of_ne_nil hwf.ne
    rw [call_roac n s hro (by omega), withoutReplacement_repl _ s (hwf.roac hro),
      if_pos (by rw [hwf.num (hwf.roac hro)]; omega), hwf.items_eq]
  · rw [overAsked]
    by_cases hh : allHashable items = true
    · exact .inl ⟨allHashable_iff.1 hh, if_pos hh⟩
    · refine .inr ⟨?_, if_neg hh⟩
      rw [allHashable_iff] at hh
      push Not at hh
      simpa using hh

/-- **C13 (replace_only_after_call), partial.** `ValueError` and nothing changed, if the items are
hashable. -/
theorem C13_over_ask_roac_partial {items : List α} {s : ChoiceSt α R × Nat}
    (h : ChoiceReach R items s) (hro : s.1.roac = true) (n : Nat) (hn : items.length < n)
    (hh : ∀ v ∈ items, PyHash.hashable v = true) :
    call (some (n : Int)) s = (.error .valueError, s) := by
  obtain ⟨x, h1, ⟨_, rfl⟩ | ⟨⟨v, hv, hf⟩, _⟩⟩ := C13_over_ask_roac_exact h hro n hn
  · exact h1
  · rw [hh v hv] at hf; cases hf

/-! ### replace_only_after_call -/

/-- C14 for every well-formed state. -/
theorem distinct_of_wf [IsStrictOrderedRing K] {items : List α} {s s' : ChoiceSt α R × Nat}
    (hwf : WF items s.1) (hro : s.1.roac = true) (n : Option Nat)
    (hn : wanted n ≤ items.length) {vs : List α}
    (hrun : call (n.map Int.ofNat) s = (.ok vs, s')) :
    DistinctPick items vs ∧ vs.length = wanted n ∧ ∃ g, s' = ({ s.1 with rng := g }, s.2) := by
  have hr := hwf.roac hro
  by_cases h2 : wanted n ≤ 1
  · -- zero or one value: drawn with replacement
    have hlen : vs.length = wanted n ∧ (∀ v ∈ vs, v ∈ items) ∧
        ∃ g, s' = ({ s.1 with rng := g }, s.2) := by
      rw [call_repl n s hr (fun _ => h2)] at hrun
      by_cases h1 : wanted n = 1
      · rw [if_pos h1, withReplacement_run] at hrun
        by_cases hi : s.1.items.length = 1
        · obtain ⟨v, hv⟩ := List.length_eq_one_iff.1 hi
          rw [if_pos hi] at hrun
          simp [hv] at hrun
          change (Except.ok [v], s) = _ at hrun
          cases hrun
          refine ⟨h1.symm, ?_, s.1.rng, rfl⟩
          rw [← hwf.items_eq, hv]; simp
        · rw [if_neg hi] at hrun
          generalize drawWith s.1 1 s.1.rng = d at hrun
          rcases d with ⟨x | ps, g⟩
          · cases hrun
          · simp only at hrun
            rcases hp : pick s.1.items ps with _ | ⟨v, l⟩
            · rw [hp] at hrun; cases hrun
            · have hv : v ∈ pick s.1.items ps := by rw [hp]; simp
              rw [hp] at hrun
              change (Except.ok [v], _) = _ at hrun
              cases hrun
              refine ⟨h1.symm, ?_, g, rfl⟩
              intro x hx
              rw [List.mem_singleton] at hx
              subst hx
              rw [← hwf.items_eq]; exact pick_mem _ hv
      · have h0 : wanted n = 0 := by omega
        rw [if_neg h1, h0, withReplacement_run] at hrun
        by_cases hi : s.1.items.length = 1
        · rw [if_pos hi] at hrun
          cases hrun
          exact ⟨by simp [h0], by simp, s.1.rng, rfl⟩
        · rw [if_neg hi] at hrun
          rcases hd : drawWith s.1 ((0 : Nat) : Int) s.1.rng with ⟨x | ps, g⟩
          · rw [hd] at hrun; cases hrun
          · have hps : ps = [] := by
              unfold drawWith at hd
              rw [if_neg (by omega)] at hd
              generalize s.1.cumWeights = cw at hd
              rcases cw with _ | cum
              · change R.choicesUniform _ _ _ = _ at hd
                unfold Rng.choicesUniform at hd
                rw [if_neg (by simp)] at hd
                obtain ⟨us, g1, e1, e2⟩ := PyM.bind_eq_ok hd
                cases e1
                cases e2; rfl
              · exact List.length_eq_zero_iff.1 (choicesCum_length hd)
            rw [hd, hps] at hrun
            cases hrun
            exact ⟨by simp [h0, pick], by simp [pick], g, rfl⟩
    refine ⟨?_, hlen.1, hlen.2.2⟩
    rcases vs with _ | ⟨v, _ | ⟨w, l⟩⟩
    · exact ⟨[], by simp, rfl⟩
    · obtain ⟨i, hi⟩ := List.mem_iff_getElem?.1 (hlen.2.1 v (by simp))
      exact ⟨[i], by simp, by simp [hi]⟩
    · have := hlen.1; simp at this; omega
  · obtain ⟨m, rfl⟩ : ∃ m, n = some m := by
      cases n with
      | none => exact absurd (show wanted none ≤ 1 from le_rfl) h2
      | some m => exact ⟨m, rfl⟩
    change ¬ m ≤ 1 at h2
    change m ≤ items.length at hn
    change call (some (m : Int)) s = _ at hrun
    rw [call_roac m s hro (by omega), withoutReplacement_repl _ s hr,
      if_neg (by rw [hwf.num hr]; omega)] at hrun
    split at hrun
    · rename_i ps g hps
      cases hrun
      rw [hwf.items_eq] at hps ⊢
      rcases hw : s.1.weights with _ | ws
      · rw [hw] at hps
        have hs : R.samplePos items.length (m : Int) s.1.rng =
            (.ok (R.sample items.length m s.1.rng).1, (R.sample items.length m s.1.rng).2) := by
          unfold Rng.samplePos
          rw [if_pos ⟨by omega, by omega⟩]; rfl
        cases hs.symm.trans hps
        have := distinctPick_of_positions items _ (R.sample_nodup items.length m s.1.rng hn)
          (R.sample_lt items.length m s.1.rng hn)
        rw [R.sample_length _ _ _ hn] at this
        exact ⟨this.1, this.2, _, rfl⟩
      · rw [hw] at hps
        obtain ⟨a, b, c⟩ := weightedShuffle_ok hps
        have := distinctPick_of_positions items ps a b
        exact ⟨this.1, by rw [show (pick items ps).length = _ from this.2, c]; exact min_eq_left hn,
          g, rfl⟩
    · cases hrun

/-- **C14.** With `replace_only_after_call`, the values of one call come from pairwise distinct
positions of the items, there are as many as requested, and nothing but the generator state
changes, so the next call has all items available again. -/
theorem C14_distinct [IsStrictOrderedRing K] {items : List α} {s s' : ChoiceSt α R × Nat}
    (h : ChoiceReach R items s) (hro : s.1.roac = true) (n : Option Nat)
    (hn : wanted n ≤ items.length) {vs : List α}
    (hrun : call (n.map Int.ofNat) s = (.ok vs, s')) :
    DistinctPick items vs ∧ vs.length = wanted n ∧ ∃ g, s' = ({ s.1 with rng := g }, s.2) :=
  distinct_of_wf (reach_wf h) hro n hn hrun

/-- **C14 (distinct values).** If the items are pairwise different, so are the values of one
call. -/
theorem C14_nodup [IsStrictOrderedRing K] {items : List α} {s s' : ChoiceSt α R × Nat}
    (h : ChoiceReach R items s) (hro : s.1.roac = true) (n : Option Nat)
    (hn : wanted n ≤ items.length) {vs : List α} (hnd : items.Nodup)
    (hrun : call (n.map Int.ofNat) s = (.ok vs, s')) : vs.Nodup :=
  (C14_distinct h hro n hn hrun).1.nodup hnd

/-- **C14 (success, unweighted).** Without weights such a call always succeeds. -/
theorem C14_unweighted_succeeds [IsStrictOrderedRing K] {items : List α} {s : ChoiceSt α R × Nat}
    (h : ChoiceReach R items s) (hro : s.1.roac = true) (n : Option Nat)
    (hn : wanted n ≤ items.length) (hw : s.1.weights = none) :
    ∃ vs s', call (n.map Int.ofNat) s = (.ok vs, s') := by
  have hwf := reach_wf h
  have hr := hwf.roac hro
  by_cases h2 : wanted n ≤ 1
  · obtain ⟨vs, g, hc, _⟩ := C09_with_replacement h hr n (fun _ => h2)
      (fun ws hws => by rw [hw] at hws; cases hws)
    exact ⟨vs, _, hc⟩
  · obtain ⟨m, rfl⟩ : ∃ m, n = some m := by
      cases n with
      | none => exact absurd (show wanted none ≤ 1 from le_rfl) h2
      | some m => exact ⟨m, rfl⟩
    change ¬ m ≤ 1 at h2
    change m ≤ items.length at hn
    change ∃ vs s', call (some (m : Int)) s = _
    rw [call_roac m s hro (by omega), withoutReplacement_repl _ s hr,
      if_neg (by rw [hwf.num hr]; omega)]
    simp only [hw]
    unfold Rng.samplePos
    rw [hwf.items_eq, if_pos ⟨by omega, by omega⟩]
    exact ⟨_, _, rfl⟩

/-- **C14 (success, weighted), partial.** With positive weights the call succeeds when at most 42%
of the items are requested, and otherwise when none of the uniform draws is exactly `0.0` (that
draw makes `math.log` raise, see `C20_zero_draw_violated`). -/
theorem C14_weighted_succeeds_partial [IsStrictOrderedRing K] {items : List α}
    {s : ChoiceSt α R × Nat} (h : ChoiceReach R items s) (hro : s.1.roac = true) (n : Option Nat)
    (hn : wanted n ≤ items.length) {ws : List K} (hw : s.1.weights = some ws)
    (hpos : ∀ w ∈ ws, 0 < w)
    (hd : items.length * 42 < wanted n * 100 →
      ∀ us g, R.rands items.length s.1.rng = (.ok us, g) → ∀ u ∈ us, u ≠ 0) :
    ∃ vs s', call (n.map Int.ofNat) s = (.ok vs, s') := by
  have hwf := reach_wf h
  have hr := hwf.roac hro
  have hl : ws.length = items.length := by
    rcases hwf.weights with ⟨h0, _⟩ | ⟨ws', h1, _, h2⟩
    · rw [hw] at h0; cases h0
    · rw [hw] at h1; cases h1; exact h2
  have hne : ws ≠ [] := by
    intro hx; rw [hx] at hl; exact hwf.ne (List.length_eq_zero_iff.1 hl.symm)
  have hsum : 0 < ws.sum := List.sum_pos ws hpos hne
  by_cases h2 : wanted n ≤ 1
  · obtain ⟨vs, g, hc, _⟩ := C09_with_replacement h hr n (fun _ => h2)
      (fun ws' hws => by rw [hw] at hws; cases hws; exact hsum)
    exact ⟨vs, _, hc⟩
  · obtain ⟨m, rfl⟩ : ∃ m, n = some m := by
      cases n with
      | none => exact absurd (show wanted none ≤ 1 from le_rfl) h2
      | some m => exact ⟨m, rfl⟩
    change ¬ m ≤ 1 at h2
    change m ≤ items.length at hn
    change items.length * 42 < m * 100 → _ at hd
    change ∃ vs s', call (some (m : Int)) s = _
    rw [call_roac m s hro (by omega), withoutReplacement_repl _ s hr,
      if_neg (by rw [hwf.num hr]; omega)]
    simp only [hw]
    have hws : ∃ r g', weightedShuffleItems R items ws (some m) s.1.rng = (.ok r, g') := by
      by_cases hk : items.length * 42 < m * 100
      · obtain ⟨us, g', e1, _, _⟩ := rands_spec R items.length s.1.rng
        obtain ⟨r, hr'⟩ := C20_large_returns_partial items ws hl.symm
          (fun w hw' => (hpos w hw').ne') m hk s.1.rng g' us (by rw [hl]; exact e1)
          (hd hk us g' e1)
        exact ⟨r, g', hr'⟩
      · rcases C20_small_total (R := R) items ws hl.symm (fun w hw' => (hpos w hw').le) m (by omega) s.1.rng
          with ⟨_, r, g', hr'⟩ | ⟨hlt, _⟩
        · exact ⟨r, g', hr'⟩
        · exfalso
          rw [List.filter_eq_self.2 (by simpa using hpos)] at hlt
          omega
    obtain ⟨r, g', hr'⟩ := hws
    obtain ⟨ps, g1, hp, _⟩ := PyM.bind_eq_ok hr'
    rw [hwf.items_eq, hp]
    exact ⟨_, _, rfl⟩

/-- **C15.** In every reachable state `replace_only_after_call` implies `replace`. -/
theorem C15_roac_replace {items : List α} {s : ChoiceSt α R × Nat} (h : ChoiceReach R items s) :
    s.1.roac = true → s.1.replace = true := (reach_wf h).roac

/-- **C15 (setters).** Assigning `replace = False` leaves `replace_only_after_call` unset, and
assigning `replace_only_after_call = True` sets `replace`. -/
theorem C15_setters {items : List α} {s : ChoiceSt α R × Nat} (h : ChoiceReach R items s) :
    ((ChoiceOp.setReplace false : ChoiceOp K).run s).2.1.roac = false ∧
    ((ChoiceOp.setReplace false : ChoiceOp K).run s).2.1.replace = false ∧
    ((ChoiceOp.setRoac true : ChoiceOp K).run s).2.1.replace = true ∧
    ((ChoiceOp.setRoac true : ChoiceOp K).run s).2.1.roac = true := by
  have hrep : ((ChoiceOp.setReplace false : ChoiceOp K).run s).2.1.replace = false := by
    rw [run_setReplace, setReplace_run]
    by_cases hb : false = s.1.replace
    · rw [if_pos hb]; exact hb.symm
    · rw [if_neg hb, if_neg (by simp)]
      obtain ⟨r, c', h1, h2⟩ :=
        globalShuffle_effect (({ s.1 with replace := false, roac := false } : ChoiceSt α R), s.2)
      rw [h1]
      cases h2 <;> rfl
  have hro : ((ChoiceOp.setRoac true : ChoiceOp K).run s).2.1.roac = true := by
    rw [run_setRoac, setRoac_run, if_pos rfl]
    by_cases hb : s.1.replace = true
    · rw [if_pos hb]
    · rw [if_neg hb]
  refine ⟨?_, hrep, C15_roac_replace (ChoiceReach.op s (.setRoac true) h) hro, hro⟩
  by_contra hn
  have := C15_roac_replace (ChoiceReach.op s (.setReplace false) h) (by simpa using hn)
  rw [hrep] at this
  cases this

/-- **C16.** In every reachable state the two weight attributes are both `None`, or one entry per
item with `cum_weights` the running sums of `weights`. -/
theorem C16_weights_consistent {items : List α} {s : ChoiceSt α R × Nat}
    (h : ChoiceReach R items s) :
    (s.1.weights = none ∧ s.1.cumWeights = none) ∨
    ∃ ws cs, s.1.weights = some ws ∧ s.1.cumWeights = some cs ∧ ws.length = items.length ∧
      cs.length = items.length ∧ ∀ i < items.length, cs.getD i 0 = (ws.take (i + 1)).sum := by
  rcases (reach_wf h).weights with h0 | ⟨ws, h1, h2, h3⟩
  · exact Or.inl h0
  · refine Or.inr ⟨ws, accumulate ws, h1, h2, h3, by rw [accumulate_length, h3], ?_⟩
    intro i hi
    exact accumulate_getD ws i (by omega)

/-- **C16 (assignment).** A weight list of the right length is stored as given (when it is
cumulative: as cumulative); one of the wrong length is rejected with `ValueError` and changes
nothing. -/
theorem C16_assignment {items : List α} {s : ChoiceSt α R × Nat} (h : ChoiceReach R items s)
    (ws : List K) :
    (ws.length = items.length →
      ((ChoiceOp.setWeights (some ws)).run s).2.1.weights = some ws ∧
      ((ChoiceOp.setCumWeights (some ws)).run s).2.1.cumWeights = some ws) ∧
    (ws.length ≠ items.length →
      (ChoiceOp.setWeights (some ws)).run s = (.error .valueError, s) ∧
      (ChoiceOp.setCumWeights (some ws)).run s = (.error .valueError, s)) := by
  have hwf := reach_wf h
  have e1 := setAll_run (some ws) false s
  have e2 := setAll_run (some ws) true s
  rw [if_neg (by simp)] at e1
  rw [if_pos rfl] at e2
  have hgs : ∀ (c : ChoiceSt α R) (e : Nat), (globalShuffle (c, e)).2.1.weights = c.weights ∧
      (globalShuffle (c, e)).2.1.cumWeights = c.cumWeights := by
    intro c e
    obtain ⟨r, c', h1, h2⟩ := globalShuffle_effect (c, e)
    rw [h1]
    cases h2 <;> exact ⟨rfl, rfl⟩
  rw [run_setWeights, run_setCumWeights]
  constructor
  · intro hl
    have a1 : allWeights s.1.items (some ws) false = .ok (some ws, some (accumulate ws)) := by
      unfold allWeights
      simp only [hwf.items_eq]
      rw [if_neg (by simp [hl])]; rfl
    have a2 : allWeights s.1.items (some ws) true = .ok (some (deCumulateFrom 0 ws), some ws) := by
      unfold allWeights
      simp only [hwf.items_eq]
      rw [if_neg (by simp [hl])]; rfl
    rw [a1] at e1
    rw [a2] at e2
    simp only at e1 e2
    by_cases hb : s.1.replace = true
    · rw [if_pos hb] at e1 e2
      rw [e1, e2]; exact ⟨rfl, rfl⟩
    · rw [if_neg hb] at e1 e2
      rw [e1, e2]
      exact ⟨(hgs _ _).1, (hgs _ _).2⟩
  · intro hl
    have a1 : ∀ b, allWeights s.1.items (some ws) b = .error .valueError := by
      intro b
      unfold allWeights
      simp only [hwf.items_eq]
      rw [if_pos (fun hx => hl hx.symm)]
    rw [a1] at e1 e2
    rw [e1, e2]
    exact ⟨rfl, rfl⟩

/-! ### Uniqueness counters -/

/-- **C17 (without replacement), partial.** Whatever is still to come (`rest`), `num_unique_items` is
its length; if it is hashable, `num_unique_values` is the number of different values in it, and
`emits_unique_values` tells whether it is free of repeats.  Missing from the full claim: values that
are not hashable, see `C17_violated`. -/
theorem C17_without_replacement_partial [DecidableEq α] {items : List α} {s : ChoiceSt α R × Nat}
    {E : List α} (h : ChoiceRun R items s E) (hr : s.1.replace = false) (rest : List α)
    (hrest : (E ++ rest).Perm items) (hh : ∀ v ∈ rest, PyHash.hashable v = true) :
    Choice.numUniqueItems s = (.ok (rest.length : Int), s) ∧
    numUniqueValues s = (.ok rest.toFinset.card, s) ∧
    emitsUniqueValues s = (.ok (decide rest.Nodup), s) := by
  obtain ⟨hp, hle, hE, hi, hn⟩ := (run_good h).norepl hr
  have hlen : E.length + rest.length = items.length := by
    rw [← hrest.length_eq, List.length_append]
  have hperm := rest_perm h hr hrest
  have h1 : Choice.numUniqueItems s = (.ok (rest.length : Int), s) := by
    unfold Choice.numUniqueItems
    simp only [self_bind]
    change (Except.ok s.1.numUniqueItems, s) = _
    rw [hn]; congr 2; omega
  have h2 : numUniqueValues s = (.ok rest.toFinset.card, s) := by
    unfold numUniqueValues
    simp only [self_bind]
    rw [if_pos (by simp [hr]), shuffledIndex_bind, hi]
    simp only
    rw [pyListSlice1_toEnd _ _ (by rw [hp.length_eq]; exact hle), pyLenSet, allHashable_perm hperm,
      if_pos (allHashable_iff.2 hh), ← List.card_toFinset, List.toFinset_eq_of_perm _ _ hperm]
    rfl
  refine ⟨h1, h2, ?_⟩
  unfold emitsUniqueValues
  simp only [self_bind]
  rw [if_pos (by simp [hr]), PyM.bind_ok h1, PyM.bind_ok h2]
  change (Except.ok _, s) = _
  congr 2
  rw [decide_eq_decide, ← Multiset.coe_nodup, ← Multiset.toFinset_card_eq_card_iff_nodup]
  simp only [Multiset.coe_card]
  change ((rest.length : Int) = ((rest.toFinset.card : Nat) : Int)) ↔ rest.toFinset.card = rest.length
  omega

/-- **C17 (unhashable values).** If something that is still to come is not hashable, both
`num_unique_values` and `emits_unique_values` raise `TypeError`. -/
theorem C17_unhashable [DecidableEq α] {items : List α} {s : ChoiceSt α R × Nat}
    {E : List α} (h : ChoiceRun R items s E) (hr : s.1.replace = false) (rest : List α)
    (hrest : (E ++ rest).Perm items) (hh : ∃ v ∈ rest, PyHash.hashable v = false) :
    numUniqueValues s = (.error .typeError, s) ∧ emitsUniqueValues s = (.error .typeError, s) := by
  obtain ⟨hp, hle, hE, hi, hn⟩ := (run_good h).norepl hr
  have hn : ¬ allHashable rest = true := by
    obtain ⟨v, hv, hf⟩ := hh
    intro ha
    rw [allHashable_iff.1 ha v hv] at hf; cases hf
  have h2 : numUniqueValues s = (.error .typeError, s) := by
    unfold numUniqueValues
    simp only [self_bind]
    rw [if_pos (by simp [hr]), shuffledIndex_bind, hi]
    simp only
    rw [pyListSlice1_toEnd _ _ (by rw [hp.length_eq]; exact hle), pyLenSet,
      allHashable_perm (rest_perm h hr hrest), if_neg hn]
    rfl
  refine ⟨h2, ?_⟩
  unfold emitsUniqueValues
  simp only [self_bind]
  rw [if_pos (by simp [hr]), PyM.bind_ok (rfl : Choice.numUniqueItems s = _), PyM.bind_err h2]

/-- **C17 (with replacement).** With replacement the counters describe the item list, in every
reachable state; `num_unique_values` needs hashable items. -/
theorem C17_with_replacement_partial [DecidableEq α] {items : List α} {s : ChoiceSt α R × Nat}
    (h : ChoiceReach R items s) (hr : s.1.replace = true) :
    Choice.numUniqueItems s = (.ok (items.length : Int), s) ∧
    numUniqueValues s = (if ∀ v ∈ items, PyHash.hashable v = true then .ok items.toFinset.card
      else .error .typeError, s) ∧
    emitsUniqueValues s = (.ok false, s) := by
  have hwf := reach_wf h
  refine ⟨?_, ?_, ?_⟩
  · unfold Choice.numUniqueItems
    simp only [self_bind]
    change (Except.ok s.1.numUniqueItems, s) = _
    rw [hwf.num hr]
  · unfold numUniqueValues
    simp only [self_bind]
    rw [if_neg (by simp [hr]), hwf.items_eq, List.card_toFinset, pyLenSet]
    by_cases hh : allHashable items = true
    · rw [if_pos hh, if_pos (allHashable_iff.1 hh)]; rfl
    · rw [if_neg hh, if_neg (fun hc => hh (allHashable_iff.2 hc))]; rfl
  · unfold emitsUniqueValues
    simp only [self_bind]
    rw [if_neg (by simp [hr])]; rfl

/-! ### Failed operations -/

/-- The emitter can still do its job: with replacement it emits as long as its weights have a
positive total, without replacement it emits the items not yet emitted. -/
def ChoiceUsable (items : List α) (s : ChoiceSt α R × Nat) (E : List α) : Prop :=
  (s.1.replace = true → (∀ ws, s.1.weights = some ws → 0 < ws.sum) →
    ∃ v s', call none s = (.ok [v], s') ∧ v ∈ items) ∧
  (s.1.replace = false → ∀ n, E.length + n ≤ items.length →
    ∃ vs s', call (some (n : Int)) s = (.ok vs, s') ∧ vs.length = n ∧
      ∃ p, p.Perm items ∧ E ++ vs <+: p)

/-- **C19, partial.** An operation other than `replace = False` that raises leaves the emitter
usable, with nothing consumed.  Missing from the full claim: a failing assignment
`replace = False`, see `C19_failed_replace_violated`. -/
theorem C19_usable_partial [IsStrictOrderedRing K] {items : List α} {s : ChoiceSt α R × Nat}
    {E : List α} (h : ChoiceRun R items s E) (o : ChoiceOp K) (x : Err)
    (hx : (o.run s).1 = .error x) (ho : o ≠ .setReplace false) :
    ChoiceUsable items (o.run s).2 E := by
  have hrun : ChoiceRun R items (o.run s).2 E := by
    have := ChoiceRun.op s E o h (fun _ _ b hb => by
      cases b with
      | true => rfl
      | false => exact absurd hb ho)
    rw [hx] at this
    exact this
  refine ⟨fun hr hw => ?_, fun hr n hn => ?_⟩
  · obtain ⟨vs, g, hc, hl, hm⟩ := C09_with_replacement hrun.reach hr none (fun _ => le_rfl) hw
    obtain ⟨v, rfl⟩ := List.length_eq_one_iff.1 (show vs.length = 1 from hl)
    exact ⟨v, _, hc, hm v (by simp)⟩
  · obtain ⟨vs, s', hc, hl, hrun'⟩ := C12_available hrun hr (some n) hn
    refine ⟨vs, s', hc, hl, ?_⟩
    refine C12_prefix_of_permutation hrun' ?_
    have he := (call_effect (some (n : Int)) (o.run s).2).1
    change call (some (n : Int)) (o.run s).2 = _ at hc
    rw [hc] at he
    change CallEffect _ s'.1 at he
    generalize s'.1 = c' at he
    cases he with
    | norepl i m hx => exact hx
    | repl g hx => exact absurd (hr.symm.trans hx) (by simp)

/-- The state of `Choice(['a', 'b'], weights=[1, 0], rng_seed=5)`. -/
def zeroWeightChoice : ChoiceSt Char demoRng where
  items := ['a', 'b']
  weights := some [1, 0]
  cumWeights := some (accumulate [1, 0])
  replace := true
  roac := false
  shuffled := []
  shuffledIndex := none
  numUniqueItems := 2
  rngSeed := some 5
  rng := (5 : Nat)

/-- **C19 violated.** `Choice(['a', 'b'], weights=[1, 0])` followed by `replace = False` raises
`ZeroDivisionError`, after which every call, of any size, raises `AttributeError`. -/
theorem C19_failed_replace_violated : ∃ s : ChoiceSt Char demoRng × Nat,
    ChoiceReach demoRng ['a', 'b'] s ∧
    ((ChoiceOp.setReplace false : ChoiceOp ℚ).run s).1 = .error .zeroDivision ∧
    ∀ n : Option Nat, (call (n.map Int.ofNat) ((ChoiceOp.setReplace false : ChoiceOp ℚ).run s).2).1 =
      .error .attributeError := by
  have herr : ((ChoiceOp.setReplace false : ChoiceOp ℚ).run (zeroWeightChoice, 0)).1 =
      .error .zeroDivision := by decide +kernel
  refine ⟨(zeroWeightChoice, 0), .init (some [1, 0]) true false (some 5) none 0 0 _ rfl, herr,
    fun n => ?_⟩
  rw [run_setReplace, setReplace_run, if_neg (by simp [zeroWeightChoice]), if_neg (by simp)] at herr ⊢
  obtain ⟨r, c', h1, h2⟩ := globalShuffle_effect
    (({ zeroWeightChoice with replace := false, roac := false } : ChoiceSt Char demoRng), 0)
  rw [show globalShuffle (({ (zeroWeightChoice, 0).1 with replace := false, roac := false } :
    ChoiceSt Char demoRng), (zeroWeightChoice, 0).2) = _ from h1] at herr ⊢
  have hc' : c'.replace = false ∧ c'.shuffledIndex = none := by
    cases h2 with
    | done g l hl => cases herr
    | failed x g => exact ⟨rfl, rfl⟩
  have hbad : ∀ (s : ChoiceSt Char demoRng × Nat) (k : Int), s.1.replace = false →
      s.1.shuffledIndex = none → withoutReplacement k s = (.error .attributeError, s) := by
    intro s k ha hb
    rw [withoutReplacement_norepl k s ha, hb]
  have hall : ∀ (s : ChoiceSt Char demoRng × Nat), s.1.replace = false →
      s.1.shuffledIndex = none → (call (n.map Int.ofNat) s).1 = .error .attributeError := by
    intro s ha hb
    have hone : (do return [← emit] : ChoiceM Char demoRng (List Char)) s =
        (.error .attributeError, s) := by
      change (emit >>= fun a => pure [a]) s = _
      apply PyM.bind_err
      rw [emit_eq, if_neg (by simp [ha])]
      exact PyM.bind_err (hbad s 1 ha hb)
    cases n with
    | none => exact congrArg Prod.fst hone
    | some n =>
      unfold call
      simp only [Option.map_some]
      by_cases h1 : Int.ofNat n = 1
      · rw [if_pos h1]; exact congrArg Prod.fst hone
      · rw [if_neg h1, emitMany_eq, if_pos (by simp [ha]), hbad s _ ha hb]
  exact hall _ hc'.1 hc'.2

end Fauxdoc
