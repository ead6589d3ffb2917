import Verif.Spec.CallDraw
import Verif.Proofs.Markov2
/-
C121: the calls of a `Choice` are independent of each other.
-/
set_option linter.unusedSectionVars false
namespace Fauxdoc
open MeasureTheory Choice
variable {R : Rng ℝ} {α : Type} [PyHash α]

theorem Stops.congr {E E' : Set R.G} {next next' : R.G → R.G} {S : ℕ → Set (ℕ → ℝ)} (h : Stops E next S)
    (hE : ∀ g, g ∈ E' ↔ g ∈ E) (hn : ∀ g ∈ E, next' g = next g) : Stops E' next' S :=
  ⟨h.settled, fun g => (hE g).trans (h.mem g),
    fun g m hg => (hn g ((h.mem g).2 ⟨m, hg⟩)).trans (h.next g m hg), h.once⟩

section
variable {items : List α} {c : ChoiceSt α R} {ws : List ℝ}

theorem weights_length (h : WF items c) (hw : c.weights = some ws) : ws.length = items.length := by
  rcases h.weights with ⟨h0, _⟩ | ⟨ws', h1, _, h3⟩
  · rw [hw] at h0; cases h0
  · rw [hw] at h1; cases h1; exact h3

theorem own_positions {ps : List Nat} (hp : ∀ p ∈ ps, p < items.length) :
    (pick items ps).map some = ps.map (items[·]?) := pick_map items ps hp

/-- What a call returns and how many draws it takes. -/
theorem call_stops (hlog : NaturalLog R) (h : WF items c) (hr : c.replace = true) (hl : items.length ≠ 1)
    (hnd : items.Nodup) (hw : c.weights = some ws) (hpos : ∀ w ∈ ws, 0 < w) (e : Nat) {n : Option Nat}
    {ps : List Nat} (hc : CanReturn c.roac items.length n ps) :
    (∃ S, Stops {g : R.G | (call (n.map Int.ofNat) ({ c with rng := g }, e)).1 = .ok (pick items ps)}
      (fun g => (call (n.map Int.ofNat) ({ c with rng := g }, e)).2.1.rng) S) ∧
    ∀ g : R.G, (call (n.map Int.ofNat) (({ c with rng := g }, e) : ChoiceSt α R × Nat)).2 =
      ({ c with rng := (call (n.map Int.ofNat) ({ c with rng := g }, e)).2.1.rng }, e) := by
  obtain ⟨hlen, hlt, hdis⟩ := hc
  have hwl := weights_length h hw
  have hne : ws ≠ [] := by
    rintro rfl
    exact h.ne (List.length_eq_zero_iff.1 hwl.symm)
  have hsum : 0 < ws.sum := by
    cases ws with
    | nil => exact absurd rfl hne
    | cons w ws =>
      have h1 := hpos w (by simp)
      have h2 : 0 ≤ ws.sum := List.sum_nonneg fun x hx => (hpos x (by simp [hx])).le
      simp only [List.sum_cons]
      linarith
  by_cases hro : c.roac = true ∧ 1 < wanted n
  · obtain ⟨k, rfl⟩ : ∃ k, n = some k := by
      cases n with
      | none => simp [wanted] at hro
      | some k => exact ⟨k, rfl⟩
    have hlen : ps.length = k := hlen
    subst hlen
    have hk : ps.length ≤ items.length := by
      have := (List.Nodup.subperm (hdis hro.1) (fun p hp => List.mem_range.2 (hlt p hp))).length_le
      simpa using this
    have hrun : ∀ g : R.G, call (some (ps.length : Int)) (({ c with rng := g }, e) : ChoiceSt α R × Nat) =
        match weightedShuffle R ws.length ws (some (ps.length : Int)) g with
        | (.ok qs, g') => (.ok (pick items qs), ({ c with rng := g' }, e))
        | (.error x, g') => (.error x, ({ c with rng := g' }, e)) := by
      intro g
      rw [call_roac ps.length (({ c with rng := g }, e) : ChoiceSt α R × Nat) hro.1 hro.2,
        withoutReplacement_repl _ _ hr, if_neg (by
          change ¬ (ps.length : Int) > c.numUniqueItems
          rw [h.num hr]
          omega)]
      simp only [hw, h.items_eq, hwl]
      rcases weightedShuffle R items.length ws (some (ps.length : Int)) g with ⟨x | qs, g'⟩ <;> rfl
    change (∃ S, Stops {g : R.G | (call (some (ps.length : Int)) ({ c with rng := g }, e)).1 = _}
      (fun g => (call (some (ps.length : Int)) ({ c with rng := g }, e)).2.1.rng) S) ∧
      ∀ g : R.G, (call (some (ps.length : Int)) (({ c with rng := g }, e) : ChoiceSt α R × Nat)).2 =
        ({ c with rng := (call (some (ps.length : Int)) ({ c with rng := g }, e)).2.1.rng }, e)
    constructor
    · obtain ⟨S, hS⟩ := shuffle_stops (R := R) hlog hpos ps (by omega)
      refine ⟨S, hS.congr (fun g => ?_) fun g _ => ?_⟩
      · simp only [Set.mem_ofPred_eq, hrun]
        rcases hq : weightedShuffle R ws.length ws (some (ps.length : Int)) g with ⟨x | qs, g'⟩
        · simp
        · simp only [Except.ok.injEq]
          exact pick_inj hnd hlt (own_positions hlt) (by rw [← hwl]; exact (weightedShuffle_ok hq).2.1)
      · simp only [hrun]
        rcases weightedShuffle R ws.length ws (some (ps.length : Int)) g with ⟨x | qs, g'⟩ <;> rfl
    · intro g
      simp only [hrun]
      rcases weightedShuffle R ws.length ws (some (ps.length : Int)) g with ⟨x | qs, g'⟩ <;> rfl
  · have hro' : c.roac = true → wanted n ≤ 1 := fun hx => by
      by_contra h1
      exact hro ⟨hx, by omega⟩
    have hrun : ∀ g : R.G, ∃ qs, R.choicesCum ws.length (accumulate ws) ps.length g = (.ok qs, R.after ps.length g) ∧
        (∀ q ∈ qs, q < items.length) ∧
        call (n.map Int.ofNat) (({ c with rng := g }, e) : ChoiceSt α R × Nat) =
          (.ok (pick items qs), ({ c with rng := R.after ps.length g }, e)) := by
      intro g
      obtain ⟨us, g1, hd, hcall, hul, hu⟩ := call_weighted (s := (({ c with rng := g }, e) : ChoiceSt α R × Nat))
        (h.rng g) hr n hro' hl hw hsum
      obtain ⟨us', g2, hd', _, hu', hcum⟩ := choicesCum_ok R ws hne hsum (ps.length : Int) g
      have hd : R.rands (wanted n) g = (.ok us, g1) := hd
      rw [Int.toNat_natCast, hlen, hd] at hd'
      cases hd'
      rw [rands_after, ← hlen] at hd
      cases hd
      refine ⟨_, hcum, ?_, hcall⟩
      intro q hq
      obtain ⟨u, hu'', rfl⟩ := List.mem_map.1 hq
      rw [← hwl]
      exact (choicesPick_spec ws hne hsum u (hu u hu'').1 (hu u hu'').2).1
    constructor
    · obtain ⟨S, hS⟩ := choices_stops (R := R) hne (fun w hw => (hpos w hw).le) hsum ps
      refine ⟨S, hS.congr (fun g => ?_) fun g _ => ?_⟩
      · obtain ⟨qs, h1, h2, h3⟩ := hrun g
        simp only [Set.mem_ofPred_eq, h1, h3, Except.ok.injEq]
        exact pick_inj hnd hlt (own_positions hlt) h2
      · obtain ⟨qs, h1, h2, h3⟩ := hrun g
        simp only [h1, h3]
    · intro g
      obtain ⟨qs, h1, h2, h3⟩ := hrun g
      rw [h3]

end

theorem callAll_cons (s : ChoiceSt α R × Nat) (n : Option Nat) (ns : List (Option Nat)) (vs : List α)
    (vss : List (List α)) : (callAll (n :: ns) s).1 = .ok (vs :: vss) ↔
      (call (n.map Int.ofNat) s).1 = .ok vs ∧ (callAll ns (call (n.map Int.ofNat) s).2).1 = .ok vss := by
  change ((call (n.map Int.ofNat) >>= fun vs => callAll ns >>= fun rest => pure (vs :: rest)) s).1 = _ ↔ _
  rw [PyM.bind_apply]
  rcases call (n.map Int.ofNat) s with ⟨x | v, s'⟩
  · simp
  · simp only
    rw [PyM.bind_apply]
    rcases callAll ns s' with ⟨x | vs', s''⟩
    · simp
    · simp [PyM.pure_apply]

/-- The results of all calls. -/
theorem calls_stops (hlog : NaturalLog R) {items : List α} {c : ChoiceSt α R} {ws : List ℝ} (h : WF items c)
    (hr : c.replace = true) (hl : items.length ≠ 1) (hnd : items.Nodup) (hw : c.weights = some ws)
    (hpos : ∀ w ∈ ws, 0 < w) (e : Nat) (cs : List (Option Nat × List Nat))
    (hc : ∀ x ∈ cs, CanReturn c.roac items.length x.1 x.2) :
    ∃ next S, Stops {g : R.G | (callAll (cs.map (·.1)) ({ c with rng := g }, e)).1 =
      .ok (cs.map fun x => pick items x.2)} next S := by
  induction cs with
  | nil =>
    refine ⟨id, _, Stops.fixed (n := 0) (S := Set.univ) ⟨MeasurableSet.univ, fun _ _ _ h => h⟩ (fun g => ?_)
      fun g _ => rfl⟩
    simp only [Set.mem_ofPred_eq, Set.mem_univ, iff_true]
    rfl
  | cons x cs ih =>
    obtain ⟨next, T, hT⟩ := ih fun y hy => hc y (by simp [hy])
    obtain ⟨⟨S, hS⟩, hst⟩ := call_stops hlog h hr hl hnd hw hpos e (hc x (by simp))
    refine ⟨_, _, (hS.comp hT).congr (fun g => ?_) fun g _ => rfl⟩
    simp only [List.map_cons, Set.mem_ofPred_eq, callAll_cons]
    rw [hst g]

section
variable [MeasurableSpace R.G]

/-- **C121 (product).** The probability of any results of any number of calls is the product of the
probabilities of the single results, each as if it were the first call. -/
theorem C121_product (μ : Measure R.G) (hU : FairDraws R μ) (hlog : NaturalLog R) {items : List α}
    {s : ChoiceSt α R × Nat} (h : ChoiceReach R items s) (hr : s.1.replace = true) (hl : items.length ≠ 1)
    (hnd : items.Nodup) {ws : List ℝ} (hw : s.1.weights = some ws) (hpos : ∀ w ∈ ws, 0 < w)
    (cs : List (Option Nat × List Nat)) (hc : ∀ x ∈ cs, CanReturn s.1.roac items.length x.1 x.2) :
    μ {g | (callAll (cs.map (·.1)) ({ s.1 with rng := g }, s.2)).1 = .ok (cs.map fun x => pick items x.2)} =
      (cs.map fun x => μ {g | (call (x.1.map Int.ofNat) ({ s.1 with rng := g }, s.2)).1 =
        .ok (pick items x.2)}).prod := by
  have hwf := reach_wf h
  induction cs with
  | nil =>
    have := fair_prob hU
    have e : {g : R.G | (callAll (α := α) [] ({ s.1 with rng := g }, s.2)).1 = .ok []} = Set.univ :=
      Set.eq_univ_of_forall fun g => rfl
    simpa using congrArg μ e
  | cons x cs ih =>
    have hcs : ∀ y ∈ cs, CanReturn s.1.roac items.length y.1 y.2 := fun y hy => hc y (by simp [hy])
    obtain ⟨next, T, hT⟩ := calls_stops hlog hwf hr hl hnd hw hpos s.2 cs hcs
    obtain ⟨⟨S, hS⟩, hst⟩ := call_stops hlog hwf hr hl hnd hw hpos s.2 (hc x (by simp))
    rw [List.map_cons, List.map_cons, List.map_cons, List.prod_cons, ← ih hcs, ← Stops.indep hU hS hT]
    congr 1
    ext g
    simp only [Set.mem_ofPred_eq, callAll_cons]
    rw [hst g]

/-- **C121 (one call).** The probability of the result of one call. -/
theorem C121_one (μ : Measure R.G) (hU : FairDraws R μ) (hlog : NaturalLog R) {items : List α}
    {s : ChoiceSt α R × Nat} (h : ChoiceReach R items s) (hr : s.1.replace = true) (hl : items.length ≠ 1)
    (hnd : items.Nodup) {ws : List ℝ} (hw : s.1.weights = some ws) (hpos : ∀ w ∈ ws, 0 < w)
    {n : Option Nat} {ps : List Nat} (hc : CanReturn s.1.roac items.length n ps) :
    μ {g | (call (n.map Int.ofNat) ({ s.1 with rng := g }, s.2)).1 = .ok (pick items ps)} =
      oneCall s.1.roac ws ps := by
  obtain ⟨hlen, hlt, hdis⟩ := hc
  have hwf := reach_wf h
  have hwl := weights_length hwf hw
  by_cases hro : s.1.roac = true ∧ 1 < wanted n
  · obtain ⟨k, rfl⟩ : ∃ k, n = some k := by
      cases n with
      | none => simp [wanted] at hro
      | some k => exact ⟨k, rfl⟩
    have hlen : ps.length = k := hlen
    subst hlen
    rw [oneCall, if_pos hro.1]
    exact C70_roac μ hU hlog h hro.1 hnd hw hpos (hdis hro.1) hro.2 hlt (own_positions hlt)
  · have hro' : s.1.roac = true → wanted n ≤ 1 := fun hx => by
      by_contra h1
      exact hro ⟨hx, by omega⟩
    have hne : ws ≠ [] := by
      rintro rfl
      exact hwf.ne (List.length_eq_zero_iff.1 hwl.symm)
    have hsum : 0 < ws.sum := by
      cases ws with
      | nil => exact absurd rfl hne
      | cons w ws =>
        have h1 := hpos w (by simp)
        have h2 : 0 ≤ ws.sum := List.sum_nonneg fun x hx => (hpos x (by simp [hx])).le
        simp only [List.sum_cons]
        linarith
    have hcall : ∀ st : ChoiceSt α R × Nat, call (n.map Int.ofNat) st = call (some ((ps.length : Nat) : Int)) st := by
      intro st
      cases n with
      | none =>
        rw [hlen]
        rfl
      | some k =>
        rw [hlen]
        rfl
    have hp := C10_probability μ h hr ps.length (hU _) (fun hx => hlen ▸ hro' hx) hl hnd hw
      (fun w hw => (hpos w hw).le) hsum (fun j => ⟨ps[j], hlt _ (List.getElem_mem _)⟩)
    have hpick : pick items ps = List.ofFn fun j : Fin ps.length => items[ps[j]]'(hlt _ (List.getElem_mem _)) := by
      refine List.map_injective_iff.2 (Option.some_injective α) ?_
      rw [own_positions hlt, List.map_ofFn]
      refine List.ext_getElem (by simp) fun j h1 h2 => ?_
      simp only [List.length_map] at h1
      simp [hlt _ (List.getElem_mem h1)]
    simp only [hcall, hpick]
    refine hp.trans ?_
    have hprod : ∏ j : Fin ps.length, ENNReal.ofReal (ws.getD ps[j] 0 / ws.sum) =
        (ps.map fun p => ENNReal.ofReal (ws.getD p 0 / ws.sum)).prod := by
      rw [← List.prod_ofFn]
      congr 1
      refine List.ext_getElem (by simp) fun j h1 h2 => ?_
      simp
    refine hprod.trans ?_
    unfold oneCall
    by_cases hx : s.1.roac = true
    · rw [if_pos hx]
      have h1 := hro' hx
      rw [← hlen] at h1
      rcases ps with _ | ⟨p, _ | ⟨q, ps⟩⟩
      · simp [succProb]
      · simp [succProb]
      · simp at h1
    · rw [if_neg hx]

/-- **C121 (probability).** In every state with replacement that a `Choice` with positive weights can get
into, with or without `replace_only_after_call`: the probability of any results of any number of calls,
for one or several values each. -/
theorem C121_probability (μ : Measure R.G) (hU : FairDraws R μ) (hlog : NaturalLog R) {items : List α}
    {s : ChoiceSt α R × Nat} (h : ChoiceReach R items s) (hr : s.1.replace = true) (hl : items.length ≠ 1)
    (hnd : items.Nodup) {ws : List ℝ} (hw : s.1.weights = some ws) (hpos : ∀ w ∈ ws, 0 < w)
    (cs : List (Option Nat × List Nat)) (hc : ∀ x ∈ cs, CanReturn s.1.roac items.length x.1 x.2) :
    μ {g | (callAll (cs.map (·.1)) ({ s.1 with rng := g }, s.2)).1 = .ok (cs.map fun x => pick items x.2)} =
      (cs.map fun x => oneCall s.1.roac ws x.2).prod := by
  rw [C121_product μ hU hlog h hr hl hnd hw hpos cs hc]
  congr 1
  exact List.map_congr_left fun x hx => C121_one μ hU hlog h hr hl hnd hw hpos (hc x hx)

end

/-! ### Example -/

/-- Weights 1, 2 and 3 and `replace_only_after_call`: two calls for two values and one for one value. -/
example : ∃ s : ChoiceSt Char replayRng × Nat, ChoiceReach replayRng ['a', 'b', 'c'] s ∧
    replayMeasure {g | (callAll [some 2, none, some 2] ({ s.1 with rng := g }, s.2)).1 =
      .ok [['c', 'a'], ['c'], ['a', 'c']]} = ENNReal.ofReal (1 / 6) * (ENNReal.ofReal (1 / 2) *
        ENNReal.ofReal (1 / 10)) := by
  obtain ⟨st, h1, h2, h3, h4⟩ : ∃ st : ChoiceSt Char replayRng,
      Choice.init ['a', 'b', 'c'] (some [1, 2, 3]) true true (some 1) none 0 = (.ok st, 0) ∧
      st.weights = some [1, 2, 3] ∧ st.replace = true ∧ st.roac = true := ⟨_, rfl, rfl, rfl, rfl⟩
  refine ⟨(st, 0), .init _ _ _ _ _ _ _ _ h1, ?_⟩
  have := C121_probability replayMeasure replayRng_fair replayRng_log (.init _ _ _ _ _ _ _ _ h1) h3
    (by decide) (by decide) h2 (by simp) [(some 2, [2, 0]), (none, [2]), (some 2, [0, 2])]
    (by simp [CanReturn, wanted])
  refine this.trans ?_
  norm_num [oneCall, h4, succProb]

end Fauxdoc
