import Verif.Spec.WordDraw
import Verif.Props.Gate
import Verif.Props.Text
/-
C89: words have the probabilities of their length and letters.
-/
set_option linter.unusedSectionVars false
namespace Fauxdoc
open PyM
variable {K : Type} [Field K] [LinearOrder K] [FloorRing K] {R : Rng K}

theorem pick_mapped {α β : Type} (f : α → β) (items : List α) (ps : List Nat) :
    Choice.pick (items.map f) ps = (Choice.pick items ps).map f := by
  unfold Choice.pick
  rw [List.map_filterMap]
  congr 1
  funext i
  rw [List.getElem?_map]

namespace World
section
open Choice
variable [IsStrictOrderedRing K]

/-- Several values of a choice with weights. -/
theorem picks_many {items : List Val} {ws : List K} {w : World R} {r : Ref}
    (h : Picks items ws (w.obj r)) (hro : (w.obj r).choice.roac = false) (str : Val → List Char)
    (fuel n : Nat) :
    ∃ us g, R.rands n (w.obj r).choice.rng = (.ok us, g) ∧
      World.call str (fuel + 1) r (some (.int n)) w =
        (.ok (.list (pick items (us.map (choicesPick (accumulate ws) ws.sum)))), w.withGen r g) := by
  obtain ⟨k, hk⟩ := h.node
  have hne : ws ≠ [] := by
    rintro rfl
    exact absurd h.total (by simp)
  obtain ⟨us, g, hd, hul, hu, hc⟩ := choicesCum_ok R ws hne h.total (n : Int) (w.obj r).choice.rng
  have hrun : withReplacement (n : Int) ((w.obj r).choice, w.entropy) =
      (.ok (pick items (us.map (choicesPick (accumulate ws) ws.sum))),
        ({ (w.obj r).choice with rng := g }, w.entropy)) := by
    have hdw : drawWith (w.obj r).choice (n : Int) (w.obj r).choice.rng =
        (.ok (us.map (choicesPick (accumulate ws) ws.sum)), g) := by
      unfold drawWith
      rw [if_neg (by simp [h.weights]), h.cumWeights]
      simp only
      rw [h.among, ← h.same]
      exact hc
    rw [withReplacement_run, if_neg (by rw [h.among]; exact h.several), hdw]
    simp only [h.among]
  refine ⟨us, g, by simpa using hd, ?_⟩
  unfold call
  rw [PyM.run_get_bind, hk]
  change onChoice r (child (some (.int n))) w = _
  have hch : child (some (.int (n : Int))) ((w.obj r).choice, w.entropy) =
      (.ok (.list (pick items (us.map (choicesPick (accumulate ws) ws.sum)))),
        ({ (w.obj r).choice with rng := g }, w.entropy)) := by
    change (if (n : Int) = 1 then (do return Val.list [← emit]) else
      (do return Val.list (← emitMany n)) : ChoiceM Val R Val) _ = _
    by_cases h1 : (n : Int) = 1
    · rw [if_pos h1]
      rw [h1] at hrun
      have hps : (pick items (us.map (choicesPick (accumulate ws) ws.sum))).length = 1 := by
        rw [pick_length, List.length_map, hul, h1]
        · rfl
        intro i hi
        obtain ⟨u, hu', rfl⟩ := List.mem_map.1 hi
        rw [← h.same]
        exact (choicesPick_spec ws hne h.total u (hu u hu').1 (hu u hu').2).1
      obtain ⟨v, hv⟩ := List.length_eq_one_iff.1 hps
      rw [hv] at hrun ⊢
      have hem : emit ((w.obj r).choice, w.entropy) =
          (.ok v, ({ (w.obj r).choice with rng := g }, w.entropy)) := by
        unfold emit
        rw [PyM.bind_ok (m := self) (a := (w.obj r).choice) (s' := ((w.obj r).choice, w.entropy)) rfl,
          if_neg (by simp [h.replace]), PyM.bind_ok hrun]
        rfl
      rw [PyM.bind_ok hem]
      rfl
    · rw [if_neg h1]
      have hem : emitMany (n : Int) ((w.obj r).choice, w.entropy) = _ :=
        (emitMany_eq (n : Int) _).trans (if_neg (by simp [h.replace, hro]))
      rw [PyM.bind_ok (hem.trans hrun)]
      rfl
  unfold onChoice
  rw [hch]
  rfl
end

variable [IsStrictOrderedRing K]

/-- The draws of the two emitters decide what the word is. -/
theorem word_call {w : World R} {r l a : Ref} {lens : List Nat} {wl : List K} {cs : List Char}
    {wa : List K} (h : WordOf w r l a lens wl cs wa) (str : Val → List Char) (fuel : Nat) :
    ∃ n w', lens[choicesPick (accumulate wl) wl.sum (R.random (w.obj l).choice.rng).1]? = some n ∧
      World.call str (fuel + 2) r none w =
        (.ok (.str (Choice.pick cs ((List.ofFn fun j : Fin n => R.nthDraw j (w.obj a).choice.rng).map
          (choicesPick (accumulate wa) wa.sum)))), w') := by
  obtain ⟨v, h1, h2⟩ := picks_call h.length str fuel none (.inl rfl)
  rw [List.getElem?_map] at h1
  obtain ⟨n, hn, rfl⟩ := Option.map_eq_some_iff.1 h1
  have ha : ((w.withGen l (R.random (w.obj l).choice.rng).2).obj a) = w.obj a := by
    rw [withGen_obj, if_neg (Ne.symm h.apart)]
  obtain ⟨us, g, h3, h4⟩ := picks_many (w := w.withGen l (R.random (w.obj l).choice.rng).2)
    (ha ▸ h.letters) (by rw [ha]; exact h.roac) str fuel n
  rw [ha] at h3
  obtain ⟨g', h5⟩ := rands_nthDraw (R := R) n (w.obj a).choice.rng
  rw [h5] at h3
  obtain ⟨e1, _⟩ := Prod.mk.inj h3
  have hus := (Except.ok.inj e1).symm
  subst hus
  refine ⟨n, (w.withGen l (R.random (w.obj l).choice.rng).2).withGen a g, hn, ?_⟩
  unfold call
  rw [PyM.run_get_bind, h.node]
  change Word.emit (World.call str (fuel + 1) l) (World.call str (fuel + 1) a) w = _
  unfold Word.emit
  rw [PyM.bind_ok h2, PyM.bind_ok h4, pick_mapped]
  have hj : ∀ t : List Char, joinEmpty (t.map fun c => Val.str [c]) = .ok t := by
    intro t
    have := joinEmpty_strs (t.map fun c => [c])
    rw [List.map_map] at this
    refine this.trans (congrArg Except.ok ?_)
    clear this
    induction t with
    | nil => rfl
    | cons c t ih => rw [List.map_cons, List.flatten_cons, ih]; rfl
  generalize Choice.pick cs _ = t
  change (PyM.lift (joinEmpty (t.map fun c => Val.str [c])) >>= fun x => pure (Val.str x) :
    PyM (World R) Val) _ = _
  rw [hj]
  rfl

theorem pick_ofFn {α : Type} (cs : List α) {n : Nat} (is : Fin n → Nat) (h : ∀ j, is j < cs.length) :
    Choice.pick cs (List.ofFn is) = List.ofFn fun j => cs[is j]'(h j) := by
  have h1 := filterMap_positions cs (List.ofFn is) (by
    intro i hi
    obtain ⟨j, rfl⟩ := List.mem_ofFn.1 hi
    exact h j)
  apply List.map_injective_iff.2 (Option.some_injective α)
  refine Eq.trans h1 ?_
  rw [List.map_ofFn, List.map_ofFn]
  congr 1
  funext j
  exact List.getElem?_eq_getElem _
end World

variable [IsStrictOrderedRing K]

theorem WordOf.congr {w v : World R} {r l a : Ref} {lens : List Nat} {wl : List K} {cs : List Char}
    {wa : List K} (h : WordOf w r l a lens wl cs wa) (ha : World.Alike w v) :
    WordOf v r l a lens wl cs wa := by
  obtain ⟨k, hk⟩ := h.letters.node
  exact ⟨(World.node_of_shape (ha r)).trans h.node, h.apart, h.length.congr (ha l), h.letters.congr (ha a),
    (World.alike_of_shape (ha a).symm hk).roac.symm.trans h.roac⟩

theorem seeded_picks {w : World R} {items : List Val} {ws : List K} {r x : Ref}
    (h : Picks items ws (w.obj x)) (hx : Below w r x) {s : Int} {fuel : Nat}
    (hok : (World.seed fuel r (some s) w).1 = .ok ()) :
    ((World.seed fuel r (some s) w).2.obj x).choice.rng = R.ofSeed s := by
  have ha := World.seed_shape fuel r (some s) w x
  have hs := C53_seed fuel r (some s) w hok x hx
  obtain ⟨k, hk⟩ := h.node
  unfold Attrs.Seeded at hs
  rw [(World.node_of_shape ha).trans hk] at hs
  have hf := (hs.2 s rfl).2
  rwa [if_pos (h.congr ha).replace] at hf

/-- **C89, violated.** A word's length and its first letter are decided by the same draw after
`seed(s)`: the first word never has the `i`-th length and the `j`-th letter first, if the part of the
unit interval that belongs to the length does not meet the part that belongs to the letter —
whatever the seed and the generator. -/
theorem C89_seeded_violated (str : Val → List Char) {w : World R} {r l a : Ref} {lens : List Nat}
    {wl : List K} {cs : List Char} {wa : List K} (h : WordOf w r l a lens wl cs wa) (hl : lens.Nodup)
    (hc : cs.Nodup) (s : Int) (fuel : Nat) (hok : (World.seed fuel r (some s) w).1 = .ok ())
    (i j : Nat) (n : Nat) (c : Char) (hi : lens[i]? = some n) (hj : cs[j]? = some c)
    (hd : (wl.take (i + 1)).sum / wl.sum ≤ (wa.take j).sum / wa.sum ∨
      (wa.take (j + 1)).sum / wa.sum ≤ (wl.take i).sum / wl.sum)
    (t : List Char) (ht : (c :: t).length = n) (fuel' : Nat) :
    (World.call str fuel' r none (World.seed fuel r (some s) w).2).1 ≠ .ok (.str (c :: t)) := by
  have hs := World.seed_shape fuel r (some s) w
  have hw := h.congr hs
  have bl : Below w r l := .step (c := l) (by unfold Attrs.children; rw [h.node]; simp [Node.childRefs])
    (.self l)
  have ba : Below w r a := .step (c := a) (by unfold Attrs.children; rw [h.node]; simp [Node.childRefs])
    (.self a)
  rcases fuel' with _ | _ | fuel'
  · exact fun h => by cases h
  · unfold World.call
    rw [PyM.run_get_bind, hw.node]
    exact fun h => by cases h
  obtain ⟨n', w', hn', hcall⟩ := World.word_call hw str fuel'
  rw [seeded_picks h.length bl hok] at hn'
  rw [seeded_picks h.letters ba hok] at hcall
  rw [hcall]
  intro he
  have hne : wl ≠ [] := by
    rintro rfl
    exact absurd h.length.total (by simp)
  have hnea : wa ≠ [] := by
    rintro rfl
    exact absurd h.letters.total (by simp)
  have hla : wa.length = cs.length := by rw [h.letters.same, List.length_map]
  obtain ⟨_, l1, l2⟩ := choicesPick_spec wl hne h.length.total _ (R.random_nonneg (R.ofSeed s))
    (R.random_lt_one (R.ofSeed s))
  obtain ⟨a0, a1, a2⟩ := choicesPick_spec wa hnea h.letters.total _ (R.random_nonneg (R.ofSeed s))
    (R.random_lt_one (R.ofSeed s))
  rw [hla] at a0
  have hpick := Val.str.inj (Except.ok.inj he)
  have hn : n' = n := by
    have hlen := congrArg List.length hpick
    rw [Choice.pick_length, List.length_map, List.length_ofFn] at hlen
    · rw [hlen, ht]
    · intro k hk
      obtain ⟨u, hu, rfl⟩ := List.mem_map.1 hk
      obtain ⟨m, rfl⟩ := List.mem_ofFn.1 hu
      rw [← hla]
      have hm : 0 ≤ R.nthDraw m (R.ofSeed s) ∧ R.nthDraw m (R.ofSeed s) < 1 := by
        generalize R.ofSeed s = g
        generalize (m : Nat) = m
        induction m generalizing g with
        | zero => exact ⟨R.random_nonneg g, R.random_lt_one g⟩
        | succ m ih => exact ih _
      exact (choicesPick_spec wa hnea h.letters.total _ hm.1 hm.2).1
  subst hn
  subst ht
  obtain ⟨i0, i1⟩ := List.getElem?_eq_some_iff.1 hi
  obtain ⟨i2, i3⟩ := List.getElem?_eq_some_iff.1 hn'
  have hij : i = choicesPick (accumulate wl) wl.sum (R.random (R.ofSeed s)).1 :=
    hl.getElem_inj_iff.1 (i1.trans i3.symm)
  have hjj : j = choicesPick (accumulate wa) wa.sum (R.random (R.ofSeed s)).1 := by
    rw [List.length_cons, List.ofFn_succ, List.map_cons] at hpick
    have h0 : cs[choicesPick (accumulate wa) wa.sum (R.random (R.ofSeed s)).1]? = some c := by
      have e : R.nthDraw ((0 : Fin (t.length + 1)) : Nat) (R.ofSeed s) = (R.random (R.ofSeed s)).1 := rfl
      rw [e] at hpick
      unfold Choice.pick at hpick
      rw [List.filterMap_cons, List.getElem?_eq_getElem a0] at hpick
      rw [List.getElem?_eq_getElem a0]
      exact congrArg some (List.cons.inj hpick).1
    obtain ⟨j0, j1⟩ := List.getElem?_eq_some_iff.1 hj
    obtain ⟨j2, j3⟩ := List.getElem?_eq_some_iff.1 h0
    exact hc.getElem_inj_iff.1 (j1.trans j3.symm)
  rw [← hij, ← div_le_iff₀ h.length.total] at l1
  rw [← hij, ← lt_div_iff₀ h.length.total] at l2
  rw [← hjj, ← div_le_iff₀ h.letters.total] at a1
  rw [← hjj, ← lt_div_iff₀ h.letters.total] at a2
  rcases hd with hd | hd
  · exact absurd (lt_of_lt_of_le l2 hd) (not_lt.2 a1)
  · exact absurd (lt_of_lt_of_le a2 hd) (not_lt.2 l1)

end Fauxdoc

namespace Fauxdoc
open MeasureTheory
variable {R : Rng ℝ}

/-- The probability that the first draws of a choice with weights pick given positions. -/
theorem picks_pattern [MeasurableSpace R.G] (μ : Measure R.G) {n : Nat} (hU : UniformDraws R μ n)
    {ws : List ℝ} (hne : ws ≠ []) (hnn : ∀ x ∈ ws, 0 ≤ x) (hpos : 0 < ws.sum) (is : Fin n → Nat)
    (his : ∀ j, is j < ws.length) :
    μ {x | ∀ j : Fin n, choicesPick (accumulate ws) ws.sum (R.nthDraw j x) = is j} =
      ∏ j, ENNReal.ofReal (ws.getD (is j) 0 / ws.sum) := by
  have hset : {x | ∀ j : Fin n, choicesPick (accumulate ws) ws.sum (R.nthDraw j x) = is j} =
      (fun x => fun j : Fin n => R.nthDraw j x) ⁻¹' (Set.univ.pi fun j =>
        Set.Ico ((ws.take (is j)).sum / ws.sum) ((ws.take (is j + 1)).sum / ws.sum)) := by
    ext x
    simp only [Set.mem_ofPred_eq, Set.mem_preimage, Set.mem_univ_pi]
    refine forall_congr' fun j => ?_
    rw [choicesPick_iff ws hne hnn hpos _ (nthDraw_mem R j x).1 (nthDraw_mem R j x).2]
    rfl
  rw [hset, ← Measure.map_apply hU.1 (MeasurableSet.univ_pi fun _ => measurableSet_Ico), hU.2,
    Measure.pi_pi]
  exact Finset.prod_congr rfl fun j _ => ico_prob ws hnn hpos _ (his j)

/-- **C89, as far as it holds.** If the generators of the two emitters start in independent states
with uniform draws, the next word is a given one with the probability of its length times the
probabilities of its letters.  (Missing: emitters seeded alike, as `seed` and `reset` of a `Word` with
a seed do.) -/
theorem C89_probability_partial [MeasurableSpace R.G] (μ ν : Measure R.G) [SFinite μ] [SFinite ν]
    (str : Val → List Char) {w : World R} {r l a : Ref} {lens : List Nat} {wl : List ℝ}
    {cs : List Char} {wa : List ℝ} (h : WordOf w r l a lens wl cs wa) (hl : lens.Nodup)
    (hc : cs.Nodup) (hwl : ∀ x ∈ wl, 0 ≤ x) (hwa : ∀ x ∈ wa, 0 ≤ x) (i : Nat) (n : Nat)
    (hi : lens[i]? = some n) (hU : UniformDraws R μ 1) (hV : UniformDraws R ν n)
    (is : Fin n → Fin cs.length) (fuel : Nat) :
    (μ.prod ν) {xy | (World.call str (fuel + 2) r none ((w.withGen l xy.1).withGen a xy.2)).1 =
        .ok (.str (List.ofFn fun j => cs[is j]))} =
      ENNReal.ofReal (wl.getD i 0 / wl.sum) * ∏ j, ENNReal.ofReal (wa.getD (is j) 0 / wa.sum) := by
  obtain ⟨kl, hkl⟩ := h.length.node
  obtain ⟨ka, hka⟩ := h.letters.node
  have hne : wl ≠ [] := by
    rintro rfl
    exact absurd h.length.total (by simp)
  have hnea : wa ≠ [] := by
    rintro rfl
    exact absurd h.letters.total (by simp)
  have hll : wl.length = lens.length := by rw [h.length.same, List.length_map]
  have hla : wa.length = cs.length := by rw [h.letters.same, List.length_map]
  obtain ⟨i0, i1⟩ := List.getElem?_eq_some_iff.1 hi
  have hA := picks_pattern μ hU hne hwl h.length.total (fun _ => i) fun _ => by rw [hll]; exact i0
  simp only [Finset.univ_unique, Finset.prod_singleton, Fin.forall_fin_one] at hA
  rw [← hA, ← picks_pattern ν hV hnea hwa h.letters.total (fun j => is j)
    fun j => by rw [hla]; exact (is j).2, ← Measure.prod_prod]
  congr 1
  ext ⟨x, y⟩
  simp only [Set.mem_ofPred_eq, Set.mem_prod]
  have al : World.Alike w ((w.withGen l x).withGen a y) :=
    World.withGen_alike (World.withGen_alike (fun _ => rfl) hkl x)
      (by rw [World.withGen_obj, if_neg (Ne.symm h.apart)]; exact hka) y
  have hx : (((w.withGen l x).withGen a y).obj l).choice.rng = x := by
    rw [World.withGen_obj, if_neg h.apart, World.withGen_obj, if_pos rfl]
  have hy : (((w.withGen l x).withGen a y).obj a).choice.rng = y := by
    rw [World.withGen_obj, if_pos rfl]
  obtain ⟨n', w', hn', hcall⟩ := World.word_call (h.congr al) str fuel
  rw [hx] at hn'
  rw [hy, List.map_ofFn] at hcall
  have hlt : ∀ m : Nat, choicesPick (accumulate wa) wa.sum (R.nthDraw m y) < cs.length := by
    intro m
    rw [← hla]
    exact (choicesPick_spec wa hnea h.letters.total _ (nthDraw_mem R m y).1 (nthDraw_mem R m y).2).1
  rw [World.pick_ofFn cs (choicesPick (accumulate wa) wa.sum ∘ fun j : Fin n' => R.nthDraw j y)
    (fun j => hlt j)] at hcall
  rw [hcall]
  change Except.ok _ = Except.ok _ ↔ choicesPick (accumulate wl) wl.sum (R.random x).1 = i ∧ _
  obtain ⟨i2, i3⟩ := List.getElem?_eq_some_iff.1 hn'
  constructor
  · intro he
    have hl' := Val.str.inj (Except.ok.inj he)
    have hn : n' = n := by
      have := congrArg List.length hl'
      rwa [List.length_ofFn, List.length_ofFn] at this
    subst hn
    refine ⟨hl.getElem_inj_iff.1 (i3.trans i1.symm), fun j => ?_⟩
    have := congrFun (List.ofFn_injective hl') j
    exact hc.getElem_inj_iff.1 this
  · rintro ⟨e1, e2⟩
    have hn : n' = n := by
      rw [e1, hi] at hn'
      exact (Option.some.inj hn').symm
    subst hn
    refine congrArg (fun t => Except.ok (Val.str t)) (congrArg List.ofFn (funext fun j => ?_))
    simp only [e2 j, Function.comp]
    rfl

/-! ### An example -/

section
variable {K : Type} [Field K] [LinearOrder K] [FloorRing K] [IsStrictOrderedRing K]

/-- `Word(Choice([1, 2], weights=[1, 1]), Choice('ab', weights=[1, 1]))` (2). -/
def abWorld (R : Rng K) : World R where
  obj
    | 0 => coin R [.int 1, .int 2] [1, 1] | 1 => coin R [.str ['a'], .str ['b']] [1, 1]
    | 2 => { World.blank with node := some (.word 0 1), seed := some 0, rng := R.ofSeed 0 }
    | _ => World.blank
  next := 3
  entropy := 0

theorem ab_word (R : Rng K) : WordOf (abWorld R) 2 0 1 [1, 2] [1, 1] ['a', 'b'] [1, 1] where
  node := rfl
  apart := by decide
  length := ⟨⟨_, rfl⟩, rfl, rfl, rfl, rfl, rfl, by decide, by simp⟩
  letters := ⟨⟨_, rfl⟩, rfl, rfl, rfl, rfl, rfl, by decide, by simp⟩
  roac := rfl
end

/-- Whatever the seed: the first word is not `b`, and no word of two letters beginning with `a`. -/
example (s : Int) (c : Char) (hok : (World.seed 5 2 (some s) (abWorld demoRng)).1 = .ok ()) :
    (World.call demoStr 5 2 none (World.seed 5 2 (some s) (abWorld demoRng)).2).1 ≠ .ok (.str ['b']) ∧
    (World.call demoStr 5 2 none (World.seed 5 2 (some s) (abWorld demoRng)).2).1 ≠ .ok (.str ['a', c]) :=
  ⟨C89_seeded_violated demoStr (ab_word demoRng) (by decide) (by decide) s 5 hok 0 1 1 'b' rfl rfl
      (.inl (by norm_num)) [] rfl 5,
    C89_seeded_violated demoStr (ab_word demoRng) (by decide) (by decide) s 5 hok 1 0 2 'a' rfl rfl
      (.inr (by norm_num)) [c] rfl 5⟩

/-- Words after the seeds 0 and 2; from the second on the length goes with a letter of an earlier
word (C132). -/
example : (World.seed 5 2 (some 0) (abWorld demoRng)).1 = .ok () ∧
    World.outcomes demoStr 5 2 [none, none, none] (World.seed 5 2 (some 0) (abWorld demoRng)).2 =
      [.ok (.str ['a']), .ok (.str ['b', 'b']), .ok (.str ['a', 'b'])] ∧
    World.outcomes demoStr 5 2 [none, none, none] (World.seed 5 2 (some 2) (abWorld demoRng)).2 =
      [.ok (.str ['b', 'a']), .ok (.str ['b']), .ok (.str ['a', 'a'])] := by
  decide +kernel

/-- With independent generators `b` has the probability 1/4. -/
example : (replayMeasure.prod replayMeasure) {xy | (World.call demoStr 5 2 none
      (((abWorld replayRng).withGen 0 xy.1).withGen 1 xy.2)).1 = .ok (.str ['b'])} =
    ENNReal.ofReal (1 / 2) * ENNReal.ofReal (1 / 2) := by
  have := C89_probability_partial replayMeasure replayMeasure demoStr (ab_word replayRng) (by decide)
    (by decide) (by norm_num) (by norm_num) 0 1 rfl (replayRng_uniform 1) (replayRng_uniform 1)
    (fun _ => ⟨1, by decide⟩) 3
  have h2 : (1 : ℝ) / (1 + 1) = 1 / 2 := by norm_num
  simpa [h2] using this

end Fauxdoc
