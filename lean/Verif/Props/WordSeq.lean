import Verif.Props.TextSeq
/-
C132: the probability of a sequence of words.
-/
set_option linter.unusedSectionVars false
namespace Fauxdoc
open World

section
variable {K : Type} [Field K] [LinearOrder K] [FloorRing K] [IsStrictOrderedRing K] {R : Rng K}

/-- Which sequences of words are returned: the draws of the two generators decide. -/
theorem gave_words_iff (str : Val → List Char) {w : World R} {r l a : Ref} {lens : List Nat} {wl : List K}
    {cs : List Char} {wa : List K} (h : WordOf w r l a lens wl cs wa) (ts : List (List Char)) (fuel : Nat) :
    GaveStrings (World.bareCalls str (fuel + 2) r ts.length w) ts ↔
      pickedBy (R := R) lens wl (ts.map List.length).length (w.obj l).choice.rng = ts.map List.length ∧
      pickedBy (R := R) cs wa ts.flatten.length (w.obj a).choice.rng = ts.flatten := by
  obtain ⟨ts', h1, h2, h3⟩ := C127_words str fuel ts.length h
  rw [List.length_map]
  constructor
  · intro hg
    have e := hg.unique h1
    rw [← e] at h2 h3
    exact ⟨h2.symm, h3.symm⟩
  · rintro ⟨e1, e2⟩
    have hlen := h2.trans e1
    have e : ts' = ts := by
      refine List.eq_iff_flatten_eq.2 ⟨?_, hlen⟩
      rw [h3, ← e2, List.length_flatten, List.length_flatten, hlen]
    rwa [e] at h1

/-- **C132, violated.** After `seed(s)` there is one sequence of draws for both: in any number of words the
length of the `m`-th word and the `m`-th of all letters are decided by the same draw.  If the parts of the
unit interval that belong to the two do not meet, words with them are never returned, whatever the seed and
the generator.  With the same weights the `m`-th letter even tells the length of the `m`-th word. -/
theorem C132_seeded_violated (str : Val → List Char) {w : World R} {r l a : Ref} {lens : List Nat}
    {wl : List K} {cs : List Char} {wa : List K} (h : WordOf w r l a lens wl cs wa) (hl : lens.Nodup)
    (hc : cs.Nodup) (s : Int) (fuel : Nat) (hok : (World.seed fuel r (some s) w).1 = .ok ())
    {ts : List (List Char)} (fuel' : Nat)
    (hg : GaveStrings (World.bareCalls str (fuel' + 2) r ts.length (World.seed fuel r (some s) w).2) ts)
    {m i j : Nat} {t : List Char} {c : Char} (hm : ts[m]? = some t) (hi : lens[i]? = some t.length)
    (hx : ts.flatten[m]? = some c) (hj : cs[j]? = some c) : ¬ SharesApart wl i wa j ∧ (wl = wa → i = j) := by
  have below : ∀ x, x ∈ Node.childRefs (w.obj r).node → Below w r x := fun x hx =>
    .step (c := x) hx (.self x)
  have hch : Node.childRefs (w.obj r).node = [l, a] := by rw [h.node]; rfl
  rw [hch] at below
  obtain ⟨e1, e2⟩ := (gave_words_iff str (h.congr (World.seed_shape fuel r (some s) w)) ts fuel').1 hg
  rw [seeded_picks h.length (below l (by simp)) hok] at e1
  rw [seeded_picks h.letters (below a (by simp)) hok] at e2
  have hmem : ∀ (m : Nat) (g : R.G), 0 ≤ R.nthDraw m g ∧ R.nthDraw m g < 1 := by
    intro m
    induction m with
    | zero => exact fun g => ⟨R.random_nonneg g, R.random_lt_one g⟩
    | succ m ih => exact fun g => ih _
  have hm' : (ts.map List.length)[m]? = some t.length := by rw [List.getElem?_map, hm]; rfl
  obtain ⟨m0, _⟩ := List.getElem?_eq_some_iff.1 hm'
  obtain ⟨m1, _⟩ := List.getElem?_eq_some_iff.1 hx
  have f1 := ((pickedBy_getElem (R := R) (h.length.same.trans (List.length_map _)) h.length.total
    (ts.map List.length).length (R.ofSeed s)).2 m m0).2
  have f2 := ((pickedBy_getElem (R := R) (h.letters.same.trans (List.length_map _)) h.letters.total
    ts.flatten.length (R.ofSeed s)).2 m m1).2
  rw [e1, hm'] at f1
  rw [e2, hx] at f2
  have g1 := nodup_index hl hi f1.symm
  have g2 := nodup_index hc hj f2.symm
  refine ⟨?_, fun hw => ?_⟩
  · rw [g1, g2]
    exact same_draw h.length.total h.letters.total (hmem m _).1 (hmem m _).2
  · rw [g1, g2, hw]
end

section
open MeasureTheory
variable {R : Rng ℝ}

/-- **C132, as far as it holds.** If the generators of the two emitters start in independent states with
uniform draws, then any number of words, one after the other, are given ones with the product of the
probabilities of their lengths and of all their letters.  (Missing: emitters seeded alike, as `seed` and
`reset` of a `Word` with a seed do.) -/
theorem C132_probability_partial [MeasurableSpace R.G] (μ ν : Measure R.G) [SFinite μ] [SFinite ν]
    (str : Val → List Char) {w : World R} {r l a : Ref} {lens : List Nat} {wl : List ℝ} {cs : List Char}
    {wa : List ℝ} (h : WordOf w r l a lens wl cs wa) (hwl : ∀ x ∈ wl, 0 ≤ x) (hwa : ∀ x ∈ wa, 0 ≤ x)
    (ts : List (List Char)) (hU : UniformDraws R μ (ts.map List.length).length)
    (hV : UniformDraws R ν ts.flatten.length) (fuel : Nat) :
    (μ.prod ν) {g | GaveStrings (World.bareCalls str (fuel + 2) r ts.length
        ((w.withGen l g.1).withGen a g.2)) ts} =
      ((ts.map List.length).map fun n => ENNReal.ofReal (shareOf lens wl n)).prod *
        (ts.flatten.map fun c => ENNReal.ofReal (shareOf cs wa c)).prod := by
  rw [← picked_probability μ (h.length.same.trans (List.length_map _)) hwl h.length.total _ hU,
    ← picked_probability ν (h.letters.same.trans (List.length_map _)) hwa h.letters.total _ hV,
    ← Measure.prod_prod]
  congr 1
  ext ⟨x, y⟩
  obtain ⟨kn, hkn⟩ := h.length.node
  obtain ⟨kw, hkw⟩ := h.letters.node
  have al : World.Alike w ((w.withGen l x).withGen a y) :=
    World.withGen_alike (World.withGen_alike (fun _ => rfl) hkn x)
      (by rw [World.withGen_obj, if_neg (Ne.symm h.apart)]; exact hkw) y
  have key := gave_words_iff str (h.congr al) ts fuel
  have hx : (((w.withGen l x).withGen a y).obj l).choice.rng = x := by
    rw [World.withGen_obj, if_neg h.apart, World.withGen_obj, if_pos rfl]
  have hy : (((w.withGen l x).withGen a y).obj a).choice.rng = y := by
    rw [World.withGen_obj, if_pos rfl]
  rw [hx, hy] at key
  exact key
end

/-! ### Examples -/

/-- After `ba`, whatever the seed, the next word does not have two letters: the second letter is `a`. -/
example (s : Int) (c d : Char) (hok : (World.seed 5 2 (some s) (abWorld demoRng)).1 = .ok ()) :
    ¬ GaveStrings (World.bareCalls demoStr 5 2 2 (World.seed 5 2 (some s) (abWorld demoRng)).2)
      [['b', 'a'], [c, d]] := fun hg =>
  absurd ((C132_seeded_violated demoStr (ab_word demoRng) (by decide) (by decide) s 5 hok (ts := [['b', 'a'], [c, d]])
    3 hg (m := 1) (i := 1) (j := 0) rfl rfl rfl rfl).2 rfl) (by decide)

/-- With independent generators the words `ba` and `bb` have the probability 1/64. -/
example : (replayMeasure.prod replayMeasure) {g | GaveStrings
      (World.bareCalls demoStr 5 2 2 (((abWorld replayRng).withGen 0 g.1).withGen 1 g.2))
      [['b', 'a'], ['b', 'b']]} = ENNReal.ofReal (1 / 64) := by
  have := C132_probability_partial replayMeasure replayMeasure demoStr (ab_word replayRng) (by norm_num)
    (by norm_num) [['b', 'a'], ['b', 'b']] (replayRng_uniform _) (replayRng_uniform _) 3
  have e1 : shareOf [1, 2] [1, 1] 2 = 1 / 2 := by norm_num [shareOf, List.filter_cons]
  have e2 : shareOf ['a', 'b'] [1, 1] 'a' = 1 / 2 := by
    have hb : ¬ 'b' = 'a' := by decide
    norm_num [shareOf, List.filter_cons, hb]
  have e3 : shareOf ['a', 'b'] [1, 1] 'b' = 1 / 2 := by
    have hb : ¬ 'a' = 'b' := by decide
    norm_num [shareOf, List.filter_cons, hb]
  refine this.trans ?_
  simp only [List.map_cons, List.map_nil, List.flatten_cons, List.flatten_nil, List.cons_append, List.nil_append,
    List.length_cons, List.length_nil, List.prod_cons, List.prod_nil, Nat.zero_add, Nat.reduceAdd, e1, e2, e3,
    mul_one]
  simp only [← ENNReal.ofReal_mul (show (0 : ℝ) ≤ 1 / 2 by norm_num)]
  rw [← ENNReal.ofReal_mul (by norm_num)]
  norm_num

end Fauxdoc
