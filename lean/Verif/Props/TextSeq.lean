import Verif.Props.TextRun
import Verif.Props.TextRead
/-
C131: the probability of a sequence of texts.
-/
set_option linter.unusedSectionVars false
namespace Fauxdoc
open World

section
variable {K : Type} [Field K] [LinearOrder K] [FloorRing K] [IsStrictOrderedRing K] {R : Rng K}

theorem TextRun.same {wss sss : List (List (List Char))} {ts ts' : List (List Char)} (h : TextRun wss sss ts)
    (h' : TextRun wss sss ts') : ts' = ts := by
  induction h generalizing ts' with
  | nil => cases h'; rfl
  | cons ht _ ih =>
    cases h' with
    | cons ht' hr' => rw [ht'.same ht, ih hr']

theorem TextRun.lengths {wss sss : List (List (List Char))} {ts : List (List Char)} (h : TextRun wss sss ts) :
    sss.map List.length = wss.map (fun l => l.length - 1) ∧ wss.length = ts.length := by
  induction h with
  | nil => exact ⟨rfl, rfl⟩
  | cons ht _ ih =>
    rw [List.map_cons, List.map_cons, ih.1, ht.lengths, List.length_cons, List.length_cons, ih.2]
    exact ⟨rfl, rfl⟩

/-- Which sequences of texts are returned: the draws of the three generators decide. -/
theorem gave_texts_iff (str : Val → List Char) {w : World R} {r n wd sp : Ref} {lens : List Nat} {wn : List K}
    {words : List (List Char)} {ww : List K} {seps : List (List Char)} {ws : List K}
    (h : RandomText w r n wd sp lens wn words ww seps ws) (hleg : Legible words seps)
    {wss sss : List (List (List Char))} {ts : List (List Char)} (hr : TextRun wss sss ts)
    (hm : MadeOf words seps wss sss) (fuel : Nat) :
    GaveStrings (World.bareCalls str (fuel + 2) r ts.length w) ts ↔
      pickedBy (R := R) lens wn (wss.map List.length).length (w.obj n).choice.rng = wss.map List.length ∧
      pickedBy (R := R) words ww wss.flatten.length (w.obj wd).choice.rng = wss.flatten ∧
      pickedBy (R := R) seps ws sss.flatten.length (w.obj sp).choice.rng = sss.flatten := by
  obtain ⟨ts', wss', sss', h1, h2, h3, h4, h5, h6⟩ := C127_texts str fuel ts.length h
  obtain ⟨l1, l2⟩ := hr.lengths
  rw [List.length_map, l2]
  constructor
  · intro hg
    obtain rfl := h1.unique hg
    obtain ⟨rfl, rfl⟩ := hr.unique hleg h2 hm (madeOf_picked h5 h6)
    exact ⟨h3.symm, h5.symm, h6.symm⟩
  · rintro ⟨e1, e2, e3⟩
    have hlen := h3.trans e1
    have hw : wss' = wss := by
      refine List.eq_iff_flatten_eq.2 ⟨?_, hlen⟩
      rw [h5, ← e2, List.length_flatten, List.length_flatten, hlen]
    subst hw
    have hs : sss' = sss := by
      refine List.eq_iff_flatten_eq.2 ⟨?_, h4.trans l1.symm⟩
      rw [h6, ← e3, List.length_flatten, List.length_flatten, h4.trans l1.symm]
    subst hs
    rw [← hr.same h2]
    convert h1 using 2
    rw [← l2, h2.lengths.2]

/-- **C131, violated.** After `seed(s)` there is one sequence of draws for all: in any number of texts the
`m`-th of all their words and the `m`-th of all their separators are decided by the same draw, and so are
the number of words of the `m`-th text and the `m`-th of all words.  If the parts of the unit interval that
belong to the two do not meet, texts with them are never returned, whatever the seed and the generator. -/
theorem C131_seeded_violated (str : Val → List Char) {w : World R} {r n wd sp : Ref}
    {lens : List Nat} {wn : List K} {words : List (List Char)} {ww : List K} {seps : List (List Char)}
    {ws : List K} (h : RandomText w r n wd sp lens wn words ww seps ws) (hleg : Legible words seps)
    (hl : lens.Nodup) (hw : words.Nodup) (hs : seps.Nodup) (s : Int) (fuel : Nat)
    (hok : (World.seed fuel r (some s) w).1 = .ok ()) {wss sss : List (List (List Char))}
    {ts : List (List Char)} (hr : TextRun wss sss ts) (hm : MadeOf words seps wss sss) (fuel' : Nat)
    (hg : GaveStrings (World.bareCalls str (fuel' + 2) r ts.length (World.seed fuel r (some s) w).2) ts) :
    (∀ (m i j : Nat) (x y : List Char), wss.flatten[m]? = some x → words[i]? = some x → sss.flatten[m]? = some y →
      seps[j]? = some y → ¬ SharesApart ww i ws j) ∧
    ∀ (m i j : Nat) (l : List (List Char)) (x : List Char), wss[m]? = some l → lens[i]? = some l.length → wss.flatten[m]? = some x →
      words[j]? = some x → ¬ SharesApart wn i ww j := by
  have below : ∀ x, x ∈ Node.childRefs (w.obj r).node → Below w r x := fun x hx =>
    .step (c := x) hx (.self x)
  have hch : Node.childRefs (w.obj r).node = [n, wd, sp] := by rw [h.node]; rfl
  rw [hch] at below
  obtain ⟨e1, e2, e3⟩ := (gave_texts_iff str (h.congr (World.seed_shape fuel r (some s) w)) hleg hr hm fuel').1 hg
  rw [seeded_picks h.counts (below n (by simp)) hok] at e1
  rw [seeded_picks h.words (below wd (by simp)) hok] at e2
  rw [seeded_picks h.seps (below sp (by simp)) hok] at e3
  have hmem : ∀ (m : Nat) (g : R.G), 0 ≤ R.nthDraw m g ∧ R.nthDraw m g < 1 := by
    intro m
    induction m with
    | zero => exact fun g => ⟨R.random_nonneg g, R.random_lt_one g⟩
    | succ m ih => exact fun g => ih _
  have at' : ∀ {α : Type} {items : List α} {v : List K} {l : List α} (_ : v.length = items.length)
      (_ : 0 < v.sum) (_ : items.Nodup) (_ : pickedBy (R := R) items v l.length (R.ofSeed s) = l) {m i : Nat}
      {x : α} (_ : l[m]? = some x) (_ : items[i]? = some x),
      i = choicesPick (accumulate v) v.sum (R.nthDraw m (R.ofSeed s)) := by
    intro α items v l hv hpos hnd he m i x hx hi
    obtain ⟨m0, _⟩ := List.getElem?_eq_some_iff.1 hx
    have e := ((pickedBy_getElem (R := R) hv hpos l.length (R.ofSeed s)).2 m m0).2
    rw [he, hx] at e
    exact nodup_index hnd hi e.symm
  have ln : wn.length = lens.length := h.counts.same.trans (List.length_map _)
  have lw : ww.length = words.length := h.words.same.trans (List.length_map _)
  have ls : ws.length = seps.length := h.seps.same.trans (List.length_map _)
  refine ⟨fun m i j x y hx hi hy hj => ?_, fun m i j l x hl' hi hx hj => ?_⟩
  · rw [at' lw h.words.total hw e2 hx hi, at' ls h.seps.total hs e3 hy hj]
    exact same_draw h.words.total h.seps.total (hmem m _).1 (hmem m _).2
  · rw [at' ln h.counts.total hl e1 (m := m) (x := l.length) (by rw [List.getElem?_map, hl']; rfl) hi,
      at' lw h.words.total hw e2 hx hj]
    exact same_draw h.counts.total h.words.total (hmem m _).1 (hmem m _).2
end

section
open MeasureTheory
variable {R : Rng ℝ}

/-- The probability that the draws pick a given list. -/
theorem picked_probability {α : Type} [DecidableEq α] [MeasurableSpace R.G] (μ : Measure R.G)
    {items : List α} {ws : List ℝ} (hl : ws.length = items.length) (hnn : ∀ x ∈ ws, 0 ≤ x) (hpos : 0 < ws.sum)
    (l : List α) (hU : UniformDraws R μ l.length) :
    μ {g | pickedBy (R := R) items ws l.length g = l} =
      (l.map fun x => ENNReal.ofReal (shareOf items ws x)).prod := by
  let _ : PyHash α := ⟨fun _ => true⟩
  have hne : ws ≠ [] := by
    rintro rfl
    simp at hpos
  have hset : {g | pickedBy (R := R) items ws l.length g = l} =
      (fun g => fun j : Fin l.length => R.nthDraw j g) ⁻¹'
        (Set.univ.pi fun j : Fin l.length => hits items ws l[j]) := by
    ext g
    simp only [Set.mem_ofPred_eq, Set.mem_preimage, Set.mem_univ_pi]
    obtain ⟨h1, h2⟩ := pickedBy_getElem (R := R) hl hpos l.length g
    have hj : ∀ j : Fin l.length, (R.nthDraw j g ∈ hits items ws l[j] ↔
        (pickedBy (R := R) items ws l.length g)[(j : Nat)]? = l[(j : Nat)]?) := by
      intro j
      rw [mem_hits hne hl.symm hnn hpos _ (nthDraw_mem R j g).1 (nthDraw_mem R j g).2, (h2 j j.2).2,
        List.getElem?_eq_getElem j.2]
      rfl
    constructor
    · intro he j
      rw [hj, he]
    · intro he
      refine List.ext_getElem? fun m => ?_
      by_cases hm : m < l.length
      · exact (hj ⟨m, hm⟩).1 (he ⟨m, hm⟩)
      · rw [List.getElem?_eq_none (by omega), List.getElem?_eq_none (by omega)]
  rw [hset, ← Measure.map_apply hU.1 (MeasurableSet.univ_pi fun _ => hits_measurable _), hU.2,
    Measure.pi_pi, ← Fin.prod_univ_fun_getElem]
  refine Finset.prod_congr rfl fun j _ => ?_
  rw [← hits_volume hl.symm hnn hpos, ofReal_measureReal]
  rfl

/-- **C131, as far as it holds.** If the generators of the three emitters start in independent states with
uniform draws, then any number of texts, one after the other, are given ones with the product of the
probabilities of their numbers of words, of all their words and of all their separators.  (Missing: emitters
seeded alike, as `seed` and `reset` of a `Text` with a seed do.) -/
theorem C131_probability_partial [MeasurableSpace R.G] (μ ν ρ : Measure R.G) [SFinite μ] [SFinite ν]
    [SFinite ρ] (str : Val → List Char) {w : World R} {r n wd sp : Ref} {lens : List Nat} {wn : List ℝ}
    {words : List (List Char)} {ww : List ℝ} {seps : List (List Char)} {ws : List ℝ}
    (h : RandomText w r n wd sp lens wn words ww seps ws) (hleg : Legible words seps)
    (hwn : ∀ x ∈ wn, 0 ≤ x) (hww : ∀ x ∈ ww, 0 ≤ x) (hws : ∀ x ∈ ws, 0 ≤ x)
    {wss sss : List (List (List Char))} {ts : List (List Char)} (hr : TextRun wss sss ts)
    (hm : MadeOf words seps wss sss) (hU : UniformDraws R μ (wss.map List.length).length)
    (hV : UniformDraws R ν wss.flatten.length) (hW : UniformDraws R ρ sss.flatten.length) (fuel : Nat) :
    (μ.prod (ν.prod ρ)) {g | GaveStrings (World.bareCalls str (fuel + 2) r ts.length
        (((w.withGen n g.1).withGen wd g.2.1).withGen sp g.2.2)) ts} =
      ((wss.map List.length).map fun c => ENNReal.ofReal (shareOf lens wn c)).prod *
        ((wss.flatten.map fun x => ENNReal.ofReal (shareOf words ww x)).prod *
          (sss.flatten.map fun x => ENNReal.ofReal (shareOf seps ws x)).prod) := by
  rw [← picked_probability μ (h.counts.same.trans (List.length_map _)) hwn h.counts.total _ hU,
    ← picked_probability ν (h.words.same.trans (List.length_map _)) hww h.words.total _ hV,
    ← picked_probability ρ (h.seps.same.trans (List.length_map _)) hws h.seps.total _ hW,
    ← Measure.prod_prod, ← Measure.prod_prod]
  congr 1
  ext ⟨x, y, z⟩
  obtain ⟨kn, hkn⟩ := h.counts.node
  obtain ⟨kw, hkw⟩ := h.words.node
  obtain ⟨ks, hks⟩ := h.seps.node
  obtain ⟨a1, a2, a3⟩ := h.apart
  have al : World.Alike w (((w.withGen n x).withGen wd y).withGen sp z) :=
    World.withGen_alike (World.withGen_alike (World.withGen_alike (fun _ => rfl) hkn x)
      (by rw [World.withGen_obj, if_neg (Ne.symm a1)]; exact hkw) y)
      (by rw [World.withGen_obj, if_neg (Ne.symm a3), World.withGen_obj, if_neg (Ne.symm a2)]; exact hks) z
  have key := gave_texts_iff str (h.congr al) hleg hr hm fuel
  have hx : ((((w.withGen n x).withGen wd y).withGen sp z).obj n).choice.rng = x := by
    rw [World.withGen_obj, if_neg a2, World.withGen_obj, if_neg a1, World.withGen_obj, if_pos rfl]
  have hy : ((((w.withGen n x).withGen wd y).withGen sp z).obj wd).choice.rng = y := by
    rw [World.withGen_obj, if_neg a3, World.withGen_obj, if_pos rfl]
  have hz : ((((w.withGen n x).withGen wd y).withGen sp z).obj sp).choice.rng = z := by
    rw [World.withGen_obj, if_pos rfl]
  rw [hx, hy, hz] at key
  exact key

end

/-- **C131 (legible).** Words of letters and separators of other characters make legible texts. -/
theorem C131_legible {letter : Char → Prop} {words seps : List (List Char)}
    (h : Readable letter words.toFinset seps.toFinset) : Legible words seps := by
  intro ws ss ws' ss' t h1 h2 h3 h4 ht ht'
  exact C125_readable h ht (fun x hx => List.mem_toFinset.2 (h1 x hx)) (fun x hx => List.mem_toFinset.2 (h2 x hx))
    ht' (fun x hx => List.mem_toFinset.2 (h3 x hx)) (fun x hx => List.mem_toFinset.2 (h4 x hx))

/-! ### Examples -/

example : Legible [['n', 'o'], ['y', 'e', 's']] [[',', ' '], [';']] :=
  C131_legible (letter := fun c => c.isAlpha = true) ⟨by decide, by decide⟩

/-- The texts `no,yes` and `yes;no`. -/
theorem two_texts : TextRun [[['n', 'o'], ['y', 'e', 's']], [['y', 'e', 's'], ['n', 'o']]] [[[',']], [[';']]]
    [['n', 'o', ',', 'y', 'e', 's'], ['y', 'e', 's', ';', 'n', 'o']] :=
  .cons (.more ['n', 'o'] [','] (.one ['y', 'e', 's'])) (.cons (.more ['y', 'e', 's'] [';'] (.one ['n', 'o'])) .nil)

/-- Whatever the seed: they are never the first two texts, because the second has two words and the second
word of all is `yes`. -/
example (s : Int) (hok : (World.seed 5 3 (some s) (yesWorld demoRng)).1 = .ok ()) :
    ¬ GaveStrings (World.bareCalls demoStr 5 3 2 (World.seed 5 3 (some s) (yesWorld demoRng)).2)
      [['n', 'o', ',', 'y', 'e', 's'], ['y', 'e', 's', ';', 'n', 'o']] := fun hg =>
  (C131_seeded_violated demoStr (yes_text demoRng) yes_legible (by decide) (by decide) (by decide) s 5 hok
    two_texts ⟨by decide, by decide⟩ 3 hg).2 1 0 1 _ _ rfl rfl rfl rfl (.inl (by norm_num))

/-- With independent generators they are with the probability 1/256. -/
example : (replayMeasure.prod (replayMeasure.prod replayMeasure)) {g | GaveStrings
      (World.bareCalls demoStr 5 3 2 ((((yesWorld replayRng).withGen 0 g.1).withGen 1 g.2.1).withGen 2 g.2.2))
      [['n', 'o', ',', 'y', 'e', 's'], ['y', 'e', 's', ';', 'n', 'o']]} = ENNReal.ofReal (1 / 256) := by
  have := C131_probability_partial replayMeasure replayMeasure replayMeasure demoStr (yes_text replayRng)
    yes_legible (by norm_num) (by norm_num) (by norm_num) two_texts ⟨by decide, by decide⟩
    (replayRng_uniform _) (replayRng_uniform _) (replayRng_uniform _) 3
  have e1 : shareOf [2, 3] [1, 1] 2 = 1 / 2 := by norm_num [shareOf, List.filter_cons]
  have e2 : shareOf [['n', 'o'], ['y', 'e', 's']] [1, 1] ['n', 'o'] = 1 / 2 := by
    have hb : ¬ (['y', 'e', 's'] : List Char) = ['n', 'o'] := by decide
    norm_num [shareOf, List.filter_cons, hb]
  have e3 : shareOf [['n', 'o'], ['y', 'e', 's']] [1, 1] ['y', 'e', 's'] = 1 / 2 := by
    have hb : ¬ (['n', 'o'] : List Char) = ['y', 'e', 's'] := by decide
    norm_num [shareOf, List.filter_cons, hb]
  have e4 : shareOf [[','], [';']] [1, 1] [','] = 1 / 2 := by
    have hb : ¬ ([';'] : List Char) = [','] := by decide
    norm_num [shareOf, List.filter_cons, hb]
  have e5 : shareOf [[','], [';']] [1, 1] [';'] = 1 / 2 := by
    have hb : ¬ ([','] : List Char) = [';'] := by decide
    norm_num [shareOf, List.filter_cons, hb]
  refine this.trans ?_
  simp only [List.map_cons, List.map_nil, List.flatten_cons, List.flatten_nil, List.cons_append, List.nil_append,
    List.length_cons, List.length_nil, List.prod_cons, List.prod_nil, Nat.zero_add, Nat.reduceAdd, e1, e2, e3,
    e4, e5, mul_one]
  simp only [← ENNReal.ofReal_mul (show (0 : ℝ) ≤ 1 / 2 by norm_num)]
  rw [← ENNReal.ofReal_mul (by norm_num), ← ENNReal.ofReal_mul (by norm_num)]
  norm_num

end Fauxdoc
