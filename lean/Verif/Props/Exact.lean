import Verif.Props.Choice
import Verif.Props.FromFields
/-
Exact conditions for some properties that the code violates: C14 and C20 (draws of 0.0, weights of
zero), C19 (failed `replace = False`), C43 (copies of empty lists).
-/
namespace Fauxdoc

section
variable {α K : Type} [PyHash α] [Field K] [LinearOrder K] [FloorRing K] {R : Rng K}

/-! ### C20 -/

/-- The first position at which `math.log(u) / w` raises, and what. -/
def FirstBad (us ws : List K) (i : Nat) (e : Err) : Prop :=
  ∃ u w, us[i]? = some u ∧ ws[i]? = some w ∧
    ((u = 0 ∧ e = .valueError) ∨ (u ≠ 0 ∧ w = 0 ∧ e = .zeroDivision)) ∧
    ∀ j, j < i → ∀ x, (us[j]? = some x → x ≠ 0) ∧ (ws[j]? = some x → x ≠ 0)

omit [FloorRing K] in
theorem highKScores_firstBad : ∀ (ws us : List K) (g g' : R.G),
    R.rands ws.length g = (.ok us, g') → ((0 : K) ∈ us ∨ (0 : K) ∈ ws) →
    ∃ e g1 i, highKScores R ws g = (.error e, g1) ∧ FirstBad us ws i e := by
  intro ws
  induction ws with
  | nil =>
    intro us g g' h h0
    cases h
    rcases h0 with h0 | h0 <;> simp at h0
  | cons w ws ih =>
    intro us g g' h h0
    change (R.rand >>= fun u => R.rands ws.length >>= fun us => pure (u :: us)) g = _ at h
    obtain ⟨u, g1, h1, h2⟩ := PyM.bind_eq_ok h
    obtain ⟨us', g2, h3, h4⟩ := PyM.bind_eq_ok h2
    cases h4
    rw [highKScores, PyM.bind_ok h1]
    by_cases hu : u = 0
    · rw [if_pos hu]
      exact ⟨_, _, 0, rfl, u, w, rfl, rfl, .inl ⟨hu, rfl⟩, fun j hj => absurd hj (by omega)⟩
    · rw [if_neg hu]
      by_cases hw : w = 0
      · rw [if_pos hw]
        exact ⟨_, _, 0, rfl, u, w, rfl, rfl, .inr ⟨hu, hw, rfl⟩, fun j hj => absurd hj (by omega)⟩
      · rw [if_neg hw]
        obtain ⟨e, ge, i, he, x, y, hx, hy, hxy, hj⟩ := ih us' g1 g' h3 (by
          rcases h0 with h0 | h0
          · rcases List.mem_cons.1 h0 with h0 | h0
            · exact absurd h0.symm hu
            · exact .inl h0
          · rcases List.mem_cons.1 h0 with h0 | h0
            · exact absurd h0.symm hw
            · exact .inr h0)
        refine ⟨e, ge, i + 1, PyM.bind_err he, x, y, hx, hy, hxy, ?_⟩
        intro j hjlt z
        cases j with
        | zero =>
          refine ⟨fun hz => ?_, fun hz => ?_⟩
          · cases hz; exact hu
          · cases hz; exact hw
        | succ j => exact hj j (by omega) z

omit [FloorRing K] [PyHash α] in
/-- **C20 (large samples, exact).** Above 42% (and for full shuffles) the call returns if and only if no
weight is zero and none of the `len(items)` draws is exactly `0.0`.  Otherwise it raises
`ValueError` or `ZeroDivisionError`, for the first draw or weight of zero. -/
theorem C20_large_iff (items : List α) (ws : List K) (hlen : items.length = ws.length) (k : Nat)
    (hk : items.length * 42 < k * 100) (g g1 : R.G) (us : List K)
    (hdraws : R.rands ws.length g = (.ok us, g1)) :
    ((∃ r g', weightedShuffleItems R items ws (some k) g = (.ok r, g')) ↔
      (∀ u ∈ us, u ≠ 0) ∧ ∀ w ∈ ws, w ≠ 0) ∧
    (∀ e, (weightedShuffleItems R items ws (some k) g).1 = .error e → ∃ i, FirstBad us ws i e) := by
  by_cases h : (∀ u ∈ us, u ≠ 0) ∧ ∀ w ∈ ws, w ≠ 0
  · obtain ⟨r, hr⟩ := C20_large_returns_partial items ws hlen h.2 k hk g g1 us hdraws h.1
    refine ⟨⟨fun _ => h, fun _ => ⟨r, g1, hr⟩⟩, ?_⟩
    intro e he
    rw [hr] at he
    cases he
  · have h0 : (0 : K) ∈ us ∨ (0 : K) ∈ ws := by
      by_contra hn
      push Not at hn
      exact h ⟨fun u hu hz => hn.1 (hz ▸ hu), fun w hw hz => hn.2 (hz ▸ hw)⟩
    obtain ⟨e, ge, i, he, hb⟩ := highKScores_firstBad ws us g g1 hdraws h0
    have hw : weightedShuffle R items.length ws (some (k : Int)) = highK R ws k := by
      unfold weightedShuffle
      rw [if_neg (by simp [hlen])]
      simp only [Option.getD_some]
      rw [if_neg (by push Not; exact_mod_cast hk)]; rfl
    have hr : weightedShuffleItems R items ws (some k) g = (.error e, ge) := by
      unfold weightedShuffleItems
      rw [hw]
      exact PyM.bind_err (PyM.bind_err he)
    rw [hr]
    refine ⟨⟨?_, fun hx => absurd hx h⟩, ?_⟩
    · rintro ⟨r, g', hx⟩
      cases hx
    intro e' he'
    cases he'
    exact ⟨i, hb⟩

example : FirstBad [(1 : ℚ) / 2, 0] [1, 1] 1 .valueError :=
  ⟨0, 1, rfl, rfl, .inl ⟨rfl, rfl⟩, fun j hj x => by
    have : j = 0 := by omega
    subst this
    refine ⟨fun h => ?_, fun h => ?_⟩ <;> cases h <;> norm_num⟩

/-! ### C14 -/

open Choice

/-- **C14 (success, weighted, exact).** With `replace_only_after_call` and positive weights, a request
for at most `len(items)` values fails if and only if it asks for two or more values, for more than
42% of the items, and one of the `len(items)` draws is exactly `0.0`. -/
theorem C14_weighted_iff [IsStrictOrderedRing K] {items : List α}
    {s : ChoiceSt α R × Nat} (h : ChoiceReach R items s) (hro : s.1.roac = true) (n : Option Nat)
    (hn : wanted n ≤ items.length) {ws : List K} (hw : s.1.weights = some ws)
    (hpos : ∀ w ∈ ws, 0 < w) {us : List K} {g : R.G}
    (hus : R.rands items.length s.1.rng = (.ok us, g)) :
    (∃ e, (call (n.map Int.ofNat) s).1 = .error e) ↔
      2 ≤ wanted n ∧ items.length * 42 < wanted n * 100 ∧ (0 : K) ∈ us := by
  have hwf := reach_wf h
  have hr := hwf.roac hro
  have hl : ws.length = items.length := by
    rcases hwf.weights with ⟨h0, _⟩ | ⟨ws', h1, _, h2⟩
    · rw [hw] at h0; cases h0
    · rw [hw] at h1; cases h1; exact h2
  have hne : ws ≠ [] := by
    intro hx; rw [hx] at hl; exact hwf.ne (List.length_eq_zero_iff.1 hl.symm)
  constructor
  · rintro ⟨e, he⟩
    by_contra hc
    have hok : ∃ vs s', call (n.map Int.ofNat) s = (.ok vs, s') := by
      by_cases h2 : wanted n ≤ 1
      · obtain ⟨vs, g, hc', _⟩ := C09_with_replacement h hr n (fun _ => h2)
          (fun ws' hws => by rw [hw] at hws; cases hws; exact List.sum_pos ws hpos hne)
        exact ⟨vs, _, hc'⟩
      · apply C14_weighted_succeeds_partial h hro n hn hw hpos
        intro hk us' g' hus' u hu hz
        rw [hus] at hus'
        cases hus'
        exact hc ⟨by omega, hk, hz ▸ hu⟩
    obtain ⟨vs, s', hv⟩ := hok
    rw [hv] at he
    cases he
  · rintro ⟨h2, hk, h0⟩
    obtain ⟨m, rfl⟩ : ∃ m, n = some m := by
      cases n with
      | none => exact absurd (show 2 ≤ 1 from h2) (by decide)
      | some m => exact ⟨m, rfl⟩
    change 2 ≤ m at h2
    change m ≤ items.length at hn
    change items.length * 42 < m * 100 at hk
    change ∃ e, (call (some (m : Int)) s).1 = _
    rw [call_roac m s hro (by omega), withoutReplacement_repl _ s hr,
      if_neg (by rw [hwf.num hr]; omega)]
    simp only [hw]
    obtain ⟨e, ge, i, he, -⟩ := highKScores_firstBad (R := R) ws us s.1.rng g (by rw [hl]; exact hus) (.inl h0)
    have hws : weightedShuffle R items.length ws (some (m : Int)) s.1.rng = (.error e, ge) := by
      unfold weightedShuffle
      rw [if_neg (by simp [hl])]
      simp only [Option.getD_some]
      rw [if_neg (by push Not; exact_mod_cast hk)]
      exact PyM.bind_err he
    rw [hwf.items_eq, hws]
    exact ⟨e, rfl⟩

/-! ### C19 -/

omit [PyHash α] in
theorem pyListSlice1_any (l : List α) (i n : Nat) :
    pyListSlice1 l (i : Int) ((i : Int) + (n : Int)) = (l.drop i).take n := by
  by_cases h : i + n ≤ l.length
  · exact pyListSlice1_nat l i n h
  · unfold pyListSlice1 sliceBound
    simp only
    rw [if_neg (show ¬ (i : Int) < 0 by omega), if_neg (show ¬ (i : Int) + n < 0 by omega),
      if_pos (show (i : Int) + n > l.length by omega)]
    by_cases h1 : (i : Int) > l.length
    · rw [if_pos h1, List.drop_of_length_le (by omega), List.drop_of_length_le (by omega)]
      simp
    · rw [if_neg h1, List.take_of_length_le (by simp), List.take_of_length_le (by simp; omega)]
      simp

omit [PyHash α] in
theorem pyListGet_any (l : List α) (i : Nat) :
    pyListGet l (i : Int) = match l[i]? with
      | some a => .ok a
      | none => .error .indexError := by
  unfold pyListGet
  simp only
  rw [if_neg (by omega), if_neg (by omega)]
  rfl

omit [FloorRing K] in
theorem fullShuffle_iff (n : Nat) (hn : 0 < n) (ws : List K) (hl : ws.length = n) (g g1 : R.G)
    (us : List K) (hus : R.rands n g = (.ok us, g1)) :
    (∃ e, (weightedShuffle R n ws none g).1 = .error e) ↔ ((0 : K) ∈ us ∨ (0 : K) ∈ ws) := by
  have hi := C20_large_iff (R := R) (List.range n) ws (by simp [hl]) n (by simp; omega) g g1 us
    (by rw [hl]; exact hus)
  have he : weightedShuffle R n ws none = weightedShuffle R n ws (some (n : Int)) := rfl
  have hx : weightedShuffleItems R (List.range n) ws (some (n : Int)) g =
      (weightedShuffle R n ws none >>= fun ps => pure (pick (List.range n) ps)) g := by
    rw [he]; unfold weightedShuffleItems; simp; rfl
  rw [hx] at hi
  rcases hr : weightedShuffle R n ws none g with ⟨e | ps, g'⟩
  · rw [PyM.bind_err hr] at hi
    refine ⟨fun _ => ?_, fun _ => ⟨e, rfl⟩⟩
    by_contra hc
    push Not at hc
    obtain ⟨r, g'', hr'⟩ := hi.1.2 ⟨fun u hu hz => hc.1 (hz ▸ hu), fun w hw hz => hc.2 (hz ▸ hw)⟩
    cases hr'
  · rw [PyM.bind_ok hr] at hi
    obtain ⟨h1, h2⟩ := hi.1.1 ⟨_, _, rfl⟩
    refine ⟨fun ⟨e, he⟩ => (by cases he), fun h => ?_⟩
    rcases h with h | h
    · exact absurd rfl (h1 0 h)
    · exact absurd rfl (h2 0 h)

/-- **C19 (when).** Assigning `replace = False` to an emitter with replacement raises if and only if
one of the `len(items)` draws is exactly `0.0` or one of the weights is zero. -/
theorem C19_fails_iff [IsStrictOrderedRing K] {items : List α} {s : ChoiceSt α R × Nat}
    (h : ChoiceReach R items s) (hr : s.1.replace = true) {us : List K} {g : R.G}
    (hus : R.rands items.length s.1.rng = (.ok us, g)) :
    (∃ x, ((ChoiceOp.setReplace false : ChoiceOp K).run s).1 = .error x) ↔
      ((0 : K) ∈ us ∨ ∃ ws, s.1.weights = some ws ∧ (0 : K) ∈ ws) := by
  have hwf := reach_wf h
  have hpos : 0 < items.length := List.length_pos_iff.2 hwf.ne
  have hsw : (shufWeights s.1).length = items.length ∧
      ((0 : K) ∈ shufWeights s.1 ↔ ∃ ws, s.1.weights = some ws ∧ (0 : K) ∈ ws) := by
    unfold shufWeights
    rcases hwf.weights with ⟨h0, _⟩ | ⟨ws', h1, _, h2⟩
    · rw [h0]
      simp [hwf.items_eq]
    · have hne : ws' ≠ [] := by
        intro hx; rw [hx] at h2; simp at h2; omega
      rw [h1]
      simp [h2, hne]
  have hf := fullShuffle_iff (R := R) items.length hpos (shufWeights s.1) hsw.1 s.1.rng g us hus
  rw [hsw.2] at hf
  rw [← hf, run_setReplace, setReplace_run, if_neg (by simp [hr]), if_neg (by simp),
    globalShuffle_run]
  have e : weightedShuffle R ({ s.1 with replace := false, roac := false } : ChoiceSt α R).items.length
      (shufWeights ({ s.1 with replace := false, roac := false } : ChoiceSt α R)) none s.1.rng =
      weightedShuffle R items.length (shufWeights s.1) none s.1.rng := by
    rw [← hwf.items_eq]; rfl
  rw [e]
  rcases weightedShuffle R items.length (shufWeights s.1) none s.1.rng with ⟨e | ps, g'⟩ <;>
    simp [Except.map]

/-- **C19 (failed `replace = False`, exact).** If assigning `replace = False` raises, the emitter is
without replacement all the same, with items and weights as before, and goes on with the shuffled
list of an earlier time: if there never was one, every call raises `AttributeError`; if there was one,
of which `i` items were used, `em(n)` gives the next `n` of these (fewer at the end of the list,
`IndexError` for a single one). -/
theorem C19_failed_replace {items : List α} {s : ChoiceSt α R × Nat} (h : ChoiceReach R items s)
    (hr : s.1.replace = true) {x : Err} {s' : ChoiceSt α R × Nat}
    (hx : (ChoiceOp.setReplace false : ChoiceOp K).run s = (.error x, s')) :
    s'.1.replace = false ∧ s'.1.roac = false ∧ s'.1.items = items ∧ s'.1.weights = s.1.weights ∧
    s'.1.shuffled = s.1.shuffled ∧ s'.1.shuffledIndex = s.1.shuffledIndex ∧
    (s.1.shuffledIndex = none →
      ∀ n : Option Nat, call (n.map Int.ofNat) s' = (.error .attributeError, s')) ∧
    (∀ i : Nat, s.1.shuffledIndex = some (i : Int) →
      (∀ n : Nat, n ≠ 1 → n ≤ items.length →
        (call (some (n : Int)) s').1 = .ok ((s.1.shuffled.drop i).take n)) ∧
      (call none s').1 = match s.1.shuffled[i]? with
        | some a => .ok [a]
        | none => .error .indexError) := by
  have hwf := reach_wf h
  rw [run_setReplace, setReplace_run, if_neg (by simp [hr]), if_neg (by simp)] at hx
  have hs' : ∃ g, s' = (({ s.1 with replace := false, roac := false, rng := g }, s.2) :
      ChoiceSt α R × Nat) := by
    rw [globalShuffle_run] at hx
    rcases hw : weightedShuffle R _ _ none _ with ⟨e | ps, g⟩
    · rw [hw] at hx
      cases hx
      exact ⟨g, rfl⟩
    · rw [hw] at hx
      cases hx
  have hnum : s'.1.numUniqueItems = (items.length : Int) := by
    obtain ⟨g, rfl⟩ := hs'
    exact hwf.num hr
  have hrep : s'.1.replace = false := by obtain ⟨g, rfl⟩ := hs'; rfl
  have hsh : s'.1.shuffled = s.1.shuffled := by obtain ⟨g, rfl⟩ := hs'; rfl
  have hidx : s'.1.shuffledIndex = s.1.shuffledIndex := by obtain ⟨g, rfl⟩ := hs'; rfl
  have hone : ∀ t : ChoiceSt α R × Nat, t.1.replace = false →
      call none t = ((withoutReplacement 1 >>= fun l => first l) >>= fun a => pure [a]) t := by
    intro t ht
    change (emit >>= fun a => pure [a]) t = _
    rw [PyM.bind_apply, PyM.bind_apply, emit_eq, if_neg (by simp [ht])]
  have hpos : 1 ≤ items.length := List.length_pos_iff.2 hwf.ne
  refine ⟨hrep, by obtain ⟨g, rfl⟩ := hs'; rfl, by obtain ⟨g, rfl⟩ := hs'; exact hwf.items_eq,
    by obtain ⟨g, rfl⟩ := hs'; rfl, hsh, hidx, ?_, ?_⟩
  · intro hnone n
    have hbad : ∀ k : Int, withoutReplacement k s' = (.error .attributeError, s') := by
      intro k
      rw [withoutReplacement_norepl k s' hrep, hidx, hnone]
    have h1 : call none s' = (.error .attributeError, s') := by
      rw [hone s' hrep]
      exact PyM.bind_err (PyM.bind_err (hbad 1))
    cases n with
    | none => exact h1
    | some n =>
      simp only [Option.map_some]
      by_cases hn1 : Int.ofNat n = 1
      · rw [hn1]
        exact h1
      · unfold call
        dsimp only
        rw [if_neg hn1, emitMany_eq, if_pos (by simp [hrep]), hbad]
  · intro i hi
    constructor
    · intro n hn1 hn
      have hc : call (some (n : Int)) s' = withoutReplacement (n : Int) s' := by
        unfold call
        dsimp only
        rw [if_neg (by omega), emitMany_eq, if_pos (by simp [hrep])]
      rw [hc, withoutReplacement_norepl _ s' hrep, hidx, hi]
      simp only
      rw [if_neg (by rw [hnum]; omega), hsh, grab, if_neg (by omega), pyListSlice1_any]
    · rw [hone s' hrep]
      have hw1 := withoutReplacement_norepl 1 s' hrep
      rw [hidx, hi] at hw1
      simp only at hw1
      rw [if_neg (by rw [hnum]; omega), hsh, grab, if_pos rfl, pyListGet_any] at hw1
      cases hg : s.1.shuffled[i]? with
      | none =>
        rw [hg] at hw1
        rw [PyM.bind_err (PyM.bind_err hw1)]
      | some a =>
        rw [hg] at hw1
        rw [PyM.bind_apply, PyM.bind_ok hw1]
        rfl

/-- `Choice(['a', 'b'], weights=[1, 0])`: the assignment raises, whatever the draws. -/
example {us : List ℚ} {g : demoRng.G} (hus : demoRng.rands 2 (5 : Nat) = (.ok us, g)) :
    ∃ x, ((ChoiceOp.setReplace false : ChoiceOp ℚ).run (zeroWeightChoice, 0)).1 = .error x :=
  (C19_fails_iff (items := ['a', 'b']) (.init (some [1, 0]) true false (some 5) none 0 0 _ rfl) rfl
    hus).2 (.inr ⟨[1, 0], rfl, by simp⟩)

end

/-! ### C43 -/

/-- **C43 (exact).** A copy of one field whose value has the shape that `multi_valued` promises is the
exact value of the field if and only if the field is not multi-valued or the value is not the empty
list.  The copy of the empty list is `None`. -/
theorem C43_duplicate_iff {σ : Type} (str : Val → List Char) (f : SourceField σ) (s : σ)
    (hshape : f.multiValued s = true → f.previous s = .none ∨ ∃ l, f.previous s = .list l) :
    (CopyFields.call str (SourceGroup.ofField f) none none s = (.ok (f.previous s), s) ↔
      f.multiValued s = false ∨ f.previous s ≠ .list []) ∧
    (f.multiValued s = true → f.previous s = .list [] →
      CopyFields.call str (SourceGroup.ofField f) none none s = (.ok .none, s)) := by
  have hempty : f.multiValued s = true → f.previous s = .list [] →
      CopyFields.call str (SourceGroup.ofField f) none none s = (.ok .none, s) := by
    intro hm hp
    rw [C42_many str _ s (fun f' hf => by
      have := hf.1
      cases this
      rw [hf.2.2] at hm; cases hm)]
    have e : groupValues (SourceGroup.ofField f) s = contribution (f.previous s) := by
      simp [groupValues, SourceGroup.ofField]
    rw [e, hp]
    rfl
  refine ⟨⟨?_, ?_⟩, hempty⟩
  · intro h
    by_contra hc
    push Not at hc
    have := hempty (by simpa using hc.1) hc.2
    rw [h, hc.2] at this
    cases this
  · intro h
    apply C43_duplicate_partial
    intro hm
    rcases hshape hm with h1 | ⟨l, h1⟩
    · exact .inl h1
    · cases l with
      | nil =>
        rcases h with h | h
        · rw [hm] at h; cases h
        · exact absurd h1 h
      | cons v l => exact .inr ⟨v, l, h1⟩

/-- A multi-valued field with the value `[1]` is copied, one with `[]` is not. -/
example (str : Val → List Char) (f : SourceField Unit) (hm : f.multiValued () = true) :
    (f.previous () = .list [.int 1] →
      CopyFields.call str (SourceGroup.ofField f) none none () = (.ok (.list [.int 1]), ())) ∧
    (f.previous () = .list [] →
      CopyFields.call str (SourceGroup.ofField f) none none () = (.ok .none, ())) := by
  refine ⟨fun h => ?_, fun h => ?_⟩
  · have := (C43_duplicate_iff str f () (fun _ => .inr ⟨_, h⟩)).1.2 (.inr (by rw [h]; simp))
    rwa [h] at this
  · exact (C43_duplicate_iff str f () (fun _ => .inr ⟨_, h⟩)).2 hm h

end Fauxdoc
