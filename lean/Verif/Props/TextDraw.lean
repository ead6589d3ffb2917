import Verif.Spec.TextDraw
import Verif.Props.WordDraw
import Verif.Props.Heap
/-
C114: texts have the probabilities of their number of words, words and separators.
-/
set_option linter.unusedSectionVars false
namespace Fauxdoc
open PyM
variable {K : Type} [Field K] [LinearOrder K] [FloorRing K] {R : Rng K}

/-! ### Reading a text -/

theorem split_at {S : Char → Prop} {a b t u : List Char} {c d : Char} (ha : ∀ x ∈ a, ¬ S x)
    (hb : ∀ x ∈ b, ¬ S x) (hc : S c) (hd : S d) (h : a ++ c :: t = b ++ d :: u) :
    a = b ∧ c = d ∧ t = u := by
  induction a generalizing b with
  | nil =>
    cases b with
    | nil => cases h; exact ⟨rfl, rfl, rfl⟩
    | cons y b => cases h; exact absurd hc (hb _ (by simp))
  | cons x a ih =>
    cases b with
    | nil => cases h; exact absurd hd (ha _ (by simp))
    | cons y b =>
      rw [List.cons_append, List.cons_append, List.cons.injEq] at h
      obtain ⟨rfl, h⟩ := h
      obtain ⟨h1, h2⟩ := ih (fun x hx => ha x (by simp [hx])) (fun x hx => hb x (by simp [hx])) h
      exact ⟨by rw [h1], h2⟩

/-- Texts can be read if every separator is one character that is in no word. -/
theorem legible_of_chars {words seps : List (List Char)} {S : List Char} (hs : seps = S.map fun c => [c])
    (hw : ∀ x ∈ words, ∀ c ∈ x, c ∉ S) : Legible words seps := by
  subst hs
  intro ws ss ws' ss' t h1 h2 h3 h4 h h'
  induction h generalizing ws' ss' with
  | one w =>
    cases h' with
    | one => exact ⟨rfl, rfl⟩
    | more w' s' h' =>
      exfalso
      obtain ⟨c, hc, rfl⟩ := List.mem_map.1 (h4 s' (by simp))
      exact hw (w' ++ [c] ++ _) (h1 _ (List.mem_singleton_self _)) c (by simp) hc
  | @more w s ws ss t h ih =>
    obtain ⟨c, hc, rfl⟩ := List.mem_map.1 (h2 s (by simp))
    generalize hu : w ++ [c] ++ t = u at h'
    cases h' with
    | one => exact absurd hc (hw u (h3 u (by simp)) c (by rw [← hu]; simp))
    | @more w' s' ws' ss' t' h' =>
      obtain ⟨c', hc', rfl⟩ := List.mem_map.1 (h4 s' (by simp))
      rw [List.append_assoc, List.append_assoc] at hu
      obtain ⟨rfl, rfl, rfl⟩ := split_at (S := (· ∈ S)) (hw w (h1 w (by simp)))
        (hw w' (h3 w' (by simp))) hc hc' hu
      obtain ⟨rfl, rfl⟩ := ih _ _ (fun x hx => h1 x (by simp [hx])) (fun x hx => h2 x (by simp [hx]))
        (fun x hx => h3 x (by simp [hx])) (fun x hx => h4 x (by simp [hx])) h'
      exact ⟨rfl, rfl⟩

theorem TextOf.lengths {ws ss : List (List Char)} {t : List Char} (h : TextOf ws ss t) :
    ws.length = ss.length + 1 := by
  induction h with
  | one => rfl
  | more _ _ _ ih => simp [ih]

theorem TextOf.same {ws ss : List (List Char)} {t t' : List Char} (h : TextOf ws ss t)
    (h' : TextOf ws ss t') : t = t' := by
  induction h generalizing t' with
  | one => cases h'; rfl
  | more w s h ih => cases h' with
    | more _ _ h' => rw [ih h']

/-- What the draws from `g` pick. -/
def World.pickedBy {α : Type} (items : List α) (ws : List K) (k : Nat) (g : R.G) : List α :=
  Choice.pick items ((List.ofFn fun j : Fin k => R.nthDraw j g).map (choicesPick (accumulate ws) ws.sum))

theorem pickedBy_getElem {α : Type} [IsStrictOrderedRing K] {items : List α} {ws : List K}
    (hl : ws.length = items.length) (hpos : 0 < ws.sum) (k : Nat) (g : R.G) :
    (World.pickedBy (R := R) items ws k g).length = k ∧ ∀ m < k,
      choicesPick (accumulate ws) ws.sum (R.nthDraw m g) < items.length ∧
      (World.pickedBy (R := R) items ws k g)[m]? =
        items[choicesPick (accumulate ws) ws.sum (R.nthDraw m g)]? := by
  have hne : ws ≠ [] := by
    rintro rfl
    simp at hpos
  have hlt : ∀ m, choicesPick (accumulate ws) ws.sum (R.nthDraw m g) < items.length := by
    intro m
    have hm : 0 ≤ R.nthDraw m g ∧ R.nthDraw m g < 1 := by
      induction m generalizing g with
      | zero => exact ⟨R.random_nonneg g, R.random_lt_one g⟩
      | succ m ih => exact ih _
    rw [← hl]
    exact (choicesPick_spec ws hne hpos _ hm.1 hm.2).1
  have e : World.pickedBy (R := R) items ws k g = List.ofFn fun j : Fin k =>
      items[choicesPick (accumulate ws) ws.sum (R.nthDraw j g)]'(hlt j) := by
    unfold World.pickedBy
    rw [List.map_ofFn]
    exact World.pick_ofFn items _ fun j => hlt j
  refine ⟨by rw [e, List.length_ofFn], fun m hm => ⟨hlt m, ?_⟩⟩
  rw [e, List.getElem?_eq_getElem (by rw [List.length_ofFn]; exact hm), List.getElem_ofFn,
    List.getElem?_eq_getElem]

namespace World
section
variable [IsStrictOrderedRing K]

theorem roacInfo_off {w : World R} {r : Ref} {k : ItemsKind} (hk : (w.obj r).node = some (.choice k))
    (hro : (w.obj r).choice.roac = false) : roacInfo r w = (.ok none, w) := by
  unfold roacInfo
  rw [run_get_bind, hk]
  change onChoice r Choice.roacInfo w = _
  unfold onChoice
  have hc : Choice.roacInfo ((w.obj r).choice, w.entropy) = (.ok none, ((w.obj r).choice, w.entropy)) := by
    unfold Choice.roacInfo
    rw [Choice.self_bind, if_neg (by simp [hro])]
    rfl
  rw [hc]
  dsimp only
  congr 1
  unfold World.upd
  obtain ⟨obj, next, ent⟩ := w
  dsimp only
  congr 1
  funext x
  split
  · next hx => rw [hx]
  · rfl

/-- The draws of the three emitters decide what the text is. -/
theorem text_drawn {w : World R} {r n wd sp : Ref} {lens : List Nat} {wn : List K}
    {words : List (List Char)} {ww : List K} {seps : List (List Char)} {ws : List K}
    (h : RandomText w r n wd sp lens wn words ww seps ws) (str : Val → List Char) (fuel : Nat) :
    ∃ k t w', lens[choicesPick (accumulate wn) wn.sum (R.random (w.obj n).choice.rng).1]? =
        some (k + 1) ∧
      World.call str (fuel + 2) r none w = (.ok (.str t), w') ∧
      TextOf (pickedBy (R := R) words ww (k + 1) (w.obj wd).choice.rng)
        (pickedBy (R := R) seps ws k (w.obj sp).choice.rng) t := by
  obtain ⟨us, g, hu, h1⟩ := picks_many h.counts h.roac.1 str fuel 1
  obtain rfl : us = [(R.random (w.obj n).choice.rng).1] := by
    have e : R.rands 1 (w.obj n).choice.rng =
      (.ok [(R.random (w.obj n).choice.rng).1], (R.random (w.obj n).choice.rng).2) := rfl
    rw [e] at hu
    cases hu; rfl
  have hnem : ∀ {l : List K}, 0 < l.sum → l ≠ [] := by
    rintro l hl rfl
    simp at hl
  obtain ⟨p0, _⟩ := choicesPick_spec wn (hnem h.counts.total) h.counts.total _
    (R.random_nonneg (w.obj n).choice.rng) (R.random_lt_one (w.obj n).choice.rng)
  rw [h.counts.same, List.length_map] at p0
  obtain ⟨c, hc⟩ : ∃ c, lens[choicesPick (accumulate wn) wn.sum (R.random (w.obj n).choice.rng).1]? =
      some c := ⟨_, List.getElem?_eq_getElem p0⟩
  obtain ⟨k, rfl⟩ : ∃ k, c = k + 1 := ⟨c - 1, by have := h.positive c (List.mem_of_getElem? hc); omega⟩
  have hpc : Choice.pick (lens.map fun n : Nat => Val.int n)
      ([(R.random (w.obj n).choice.rng).1].map (choicesPick (accumulate wn) wn.sum)) =
        [.int ((k + 1 : Nat) : Int)] := by
    rw [pick_mapped]
    unfold Choice.pick
    rw [List.map_singleton, List.filterMap_cons, hc]
    rfl
  rw [hpc] at h1
  set w1 := w.withGen n g with hw1
  have o1 : ∀ x, x ≠ n → w1.obj x = w.obj x := fun x hx => by rw [hw1, withGen_obj, if_neg hx]
  obtain ⟨kd, hkd⟩ := h.words.node
  have hwd : w1.obj wd = w.obj wd := o1 _ (Ne.symm h.apart.1)
  have hro := roacInfo_off (w := w1) (r := wd) (k := kd) (by rw [hwd]; exact hkd)
    (by rw [hwd]; exact h.roac.2.1)
  obtain ⟨us2, g2, hu2, h2⟩ := picks_many (w := w1) (r := wd) (by rw [hwd]; exact h.words)
    (by rw [hwd]; exact h.roac.2.1) str fuel (k + 1)
  set w2 := w1.withGen wd g2 with hw2
  have hsp : w2.obj sp = w.obj sp := by
    rw [hw2, withGen_obj, if_neg (Ne.symm h.apart.2.2)]
    exact o1 _ (Ne.symm h.apart.2.1)
  obtain ⟨us3, g3, hu3, h3⟩ := picks_many (w := w2) (r := sp) (by rw [hsp]; exact h.seps)
    (by rw [hsp]; exact h.roac.2.2) str fuel k
  have hus : ∀ {m : Nat} {x : R.G} {l : List K} {y : R.G}, R.rands m x = (.ok l, y) →
      l = List.ofFn fun j : Fin m => R.nthDraw j x := by
    intro m x l y e
    obtain ⟨g', e'⟩ := rands_nthDraw (R := R) m x
    rw [e'] at e
    cases e; rfl
  have e2 := hus hu2
  have e3 := hus hu3
  rw [hwd] at e2
  rw [hsp] at e3
  rw [pick_mapped, e2] at h2
  rw [pick_mapped, e3] at h3
  have hl2 := (pickedBy_getElem (R := R) (h.words.same.trans (List.length_map _)) h.words.total (k + 1)
    (w.obj wd).choice.rng).1
  have hl3 := (pickedBy_getElem (R := R) (h.seps.same.trans (List.length_map _)) h.seps.total k
    (w.obj sp).choice.rng).1
  obtain ⟨t, ht, htext⟩ := C32_emit (World.call str (fuel + 1) n) (wordsOf str (fuel + 1) wd)
    (World.call str (fuel + 1) sp) (k := k + 1) h1 rfl rfl (by omega)
    (.atOnce hro (fun D hD => by cases hD) h2 rfl
      (by rw [show (((k + 1 : Nat) : Int) - 1) = (k : Int) by omega]; exact h3) rfl hl2)
    (congrArg (· + 1) hl3)
  exact ⟨k, t, _, hc, (call_text str (fuel + 1) _ h.node).trans ht, htext⟩
end
end World
variable [IsStrictOrderedRing K]

theorem RandomText.congr {w v : World R} {r n wd sp : Ref} {lens : List Nat} {wn : List K}
    {words : List (List Char)} {ww : List K} {seps : List (List Char)} {ws : List K}
    (h : RandomText w r n wd sp lens wn words ww seps ws) (ha : World.Alike w v) :
    RandomText v r n wd sp lens wn words ww seps ws := by
  have hro : ∀ {x : Ref} {is : List Val} {u : List K}, Picks is u (w.obj x) →
      (w.obj x).choice.roac = false → (v.obj x).choice.roac = false := by
    intro x is u hp hr
    obtain ⟨k, hk⟩ := hp.node
    exact (World.alike_of_shape (ha x).symm hk).roac.symm.trans hr
  exact ⟨(World.node_of_shape (ha r)).trans h.node, h.apart, h.counts.congr (ha n), h.words.congr (ha wd),
    h.seps.congr (ha sp), ⟨hro h.counts h.roac.1, hro h.words h.roac.2.1, hro h.seps h.roac.2.2⟩,
    h.positive⟩

/-- Two choices that go by the same draw. -/
theorem same_draw {wa wb : List K} (ha : 0 < wa.sum) (hb : 0 < wb.sum) {u : K} (h0 : 0 ≤ u) (h1 : u < 1) :
    ¬ SharesApart wa (choicesPick (accumulate wa) wa.sum u) wb (choicesPick (accumulate wb) wb.sum u) := by
  have hne : ∀ {l : List K}, 0 < l.sum → l ≠ [] := by
    rintro l hl rfl
    simp at hl
  obtain ⟨_, a1, a2⟩ := choicesPick_spec wa (hne ha) ha u h0 h1
  obtain ⟨_, b1, b2⟩ := choicesPick_spec wb (hne hb) hb u h0 h1
  rw [← div_le_iff₀ ha] at a1
  rw [← div_le_iff₀ hb] at b1
  rw [← lt_div_iff₀ ha] at a2
  rw [← lt_div_iff₀ hb] at b2
  rintro (h | h)
  · exact absurd (lt_of_lt_of_le a2 h) (not_lt.2 b1)
  · exact absurd (lt_of_lt_of_le b2 h) (not_lt.2 a1)

theorem nodup_index {α : Type} {l : List α} (hl : l.Nodup) {i j : Nat} {x : α} (hi : l[i]? = some x)
    (hj : l[j]? = some x) : i = j := by
  obtain ⟨i0, i1⟩ := List.getElem?_eq_some_iff.1 hi
  obtain ⟨j0, j1⟩ := List.getElem?_eq_some_iff.1 hj
  exact hl.getElem_inj_iff.1 (i1.trans j1.symm)

theorem pickedBy_mem {α : Type} {items : List α} {ws : List K} {k : Nat} {g : R.G} {x : α}
    (hx : x ∈ World.pickedBy (R := R) items ws k g) : x ∈ items := by
  unfold World.pickedBy Choice.pick at hx
  obtain ⟨i, _, hi⟩ := List.mem_filterMap.1 hx
  exact List.mem_of_getElem? hi

/-- The first text after seeding: one and the same sequence of draws decides the number of words, the
words and the separators. -/
theorem seeded_text (str : Val → List Char) {w : World R} {r n wd sp : Ref} {lens : List Nat}
    {wn : List K} {words : List (List Char)} {ww : List K} {seps : List (List Char)} {ws : List K}
    (h : RandomText w r n wd sp lens wn words ww seps ws) (hread : Legible words seps) (s : Int)
    (fuel : Nat) (hok : (World.seed fuel r (some s) w).1 = .ok ()) {xs ss : List (List Char)}
    {t : List Char} (ht : TextOf xs ss t) (hxs : ∀ x ∈ xs, x ∈ words) (hss : ∀ x ∈ ss, x ∈ seps)
    (fuel' : Nat) (hcall : (World.call str fuel' r none (World.seed fuel r (some s) w).2).1 = .ok (.str t)) :
    lens[choicesPick (accumulate wn) wn.sum (R.nthDraw 0 (R.ofSeed s))]? = some xs.length ∧
    xs = World.pickedBy (R := R) words ww xs.length (R.ofSeed s) ∧
    ss = World.pickedBy (R := R) seps ws ss.length (R.ofSeed s) := by
  have hw := h.congr (World.seed_shape fuel r (some s) w)
  have below : ∀ x, x ∈ Node.childRefs (w.obj r).node → Below w r x := fun x hx =>
    .step (c := x) hx (.self x)
  have hch : Node.childRefs (w.obj r).node = [n, wd, sp] := by rw [h.node]; rfl
  rw [hch] at below
  rcases fuel' with _ | _ | fuel'
  · cases hcall
  · unfold World.call at hcall
    rw [PyM.run_get_bind, hw.node] at hcall
    cases hcall
  obtain ⟨k, t', w', hk, hc, htext⟩ := World.text_drawn hw str fuel'
  rw [seeded_picks h.counts (below n (by simp)) hok] at hk
  rw [seeded_picks h.words (below wd (by simp)) hok, seeded_picks h.seps (below sp (by simp)) hok] at htext
  rw [hc] at hcall
  cases hcall
  obtain ⟨h1, h2⟩ := hread _ _ _ _ _ hxs hss (fun _ => pickedBy_mem) (fun _ => pickedBy_mem) ht htext
  have hl1 := congrArg List.length h1
  have hl2 := congrArg List.length h2
  rw [(pickedBy_getElem (h.words.same.trans (List.length_map _)) h.words.total _ _).1] at hl1
  rw [(pickedBy_getElem (h.seps.same.trans (List.length_map _)) h.seps.total _ _).1] at hl2
  rw [hl1, hl2]
  exact ⟨hk, h1, h2⟩

/-- **C114, violated.** In the first text after `seed(s)` a word and the separator behind it are
decided by the same draw, for every word of the text: if the parts of the unit interval that belong
to a word and a separator do not meet, the one is never followed by the other, whatever the seed and
the generator. -/
theorem C114_separators_violated (str : Val → List Char) {w : World R} {r n wd sp : Ref}
    {lens : List Nat} {wn : List K} {words : List (List Char)} {ww : List K} {seps : List (List Char)}
    {ws : List K} (h : RandomText w r n wd sp lens wn words ww seps ws) (hread : Legible words seps)
    (hw : words.Nodup) (hs : seps.Nodup) (s : Int) (fuel : Nat)
    (hok : (World.seed fuel r (some s) w).1 = .ok ()) {xs ss : List (List Char)} {t : List Char}
    (ht : TextOf xs ss t) (hxs : ∀ x ∈ xs, x ∈ words) (hss : ∀ x ∈ ss, x ∈ seps) {m i j : Nat}
    {x y : List Char} (hx : xs[m]? = some x) (hi : words[i]? = some x) (hy : ss[m]? = some y)
    (hj : seps[j]? = some y) (hd : SharesApart ww i ws j) (fuel' : Nat) :
    (World.call str fuel' r none (World.seed fuel r (some s) w).2).1 ≠ .ok (.str t) := by
  intro hcall
  obtain ⟨_, h1, h2⟩ := seeded_text str h hread s fuel hok ht hxs hss fuel' hcall
  obtain ⟨m0, _⟩ := List.getElem?_eq_some_iff.1 hx
  obtain ⟨m1, _⟩ := List.getElem?_eq_some_iff.1 hy
  have e1 := ((pickedBy_getElem (R := R) (h.words.same.trans (List.length_map _)) h.words.total
    xs.length (R.ofSeed s)).2 m m0).2
  have e2 := ((pickedBy_getElem (R := R) (h.seps.same.trans (List.length_map _)) h.seps.total
    ss.length (R.ofSeed s)).2 m m1).2
  rw [← h1, hx] at e1
  rw [← h2, hy] at e2
  rw [nodup_index hw hi e1.symm, nodup_index hs hj e2.symm] at hd
  have hm : ∀ g : R.G, 0 ≤ R.nthDraw m g ∧ R.nthDraw m g < 1 := by
    clear * -
    induction m with
    | zero => exact fun g => ⟨R.random_nonneg g, R.random_lt_one g⟩
    | succ m ih => exact fun g => ih _
  exact same_draw h.words.total h.seps.total (hm _).1 (hm _).2 hd

/-- **C114, violated (number of words).** Likewise the number of words and the first word. -/
theorem C114_counts_violated (str : Val → List Char) {w : World R} {r n wd sp : Ref}
    {lens : List Nat} {wn : List K} {words : List (List Char)} {ww : List K} {seps : List (List Char)}
    {ws : List K} (h : RandomText w r n wd sp lens wn words ww seps ws) (hread : Legible words seps)
    (hw : words.Nodup) (hl : lens.Nodup) (s : Int) (fuel : Nat)
    (hok : (World.seed fuel r (some s) w).1 = .ok ()) {xs ss : List (List Char)} {x t : List Char}
    (ht : TextOf (x :: xs) ss t) (hxs : ∀ y ∈ x :: xs, y ∈ words) (hss : ∀ y ∈ ss, y ∈ seps) {i j : Nat}
    (hi : lens[i]? = some (xs.length + 1)) (hj : words[j]? = some x) (hd : SharesApart wn i ww j)
    (fuel' : Nat) :
    (World.call str fuel' r none (World.seed fuel r (some s) w).2).1 ≠ .ok (.str t) := by
  intro hcall
  obtain ⟨h0, h1, _⟩ := seeded_text str h hread s fuel hok ht hxs hss fuel' hcall
  have e1 := ((pickedBy_getElem (R := R) (h.words.same.trans (List.length_map _)) h.words.total
    (x :: xs).length (R.ofSeed s)).2 0 (by simp)).2
  rw [← h1, List.getElem?_cons_zero] at e1
  rw [nodup_index hl hi h0, nodup_index hw hj e1.symm] at hd
  exact same_draw h.counts.total h.words.total (R.random_nonneg _) (R.random_lt_one _) hd

end Fauxdoc

namespace Fauxdoc
open MeasureTheory
variable {R : Rng ℝ}

theorem pickedBy_iff {α : Type} {items : List α} {ws : List ℝ} (hnd : items.Nodup)
    (hl : ws.length = items.length) (hpos : 0 < ws.sum) {k : Nat} {g : R.G} (is : Fin k → Fin items.length) :
    World.pickedBy (R := R) items ws k g = List.ofFn (fun j => items[is j]) ↔
      ∀ j : Fin k, choicesPick (accumulate ws) ws.sum (R.nthDraw j g) = is j := by
  obtain ⟨h1, h2⟩ := pickedBy_getElem (R := R) hl hpos k g
  constructor
  · intro he j
    have := (h2 j j.2).2
    rw [he, List.getElem?_eq_getElem (by rw [List.length_ofFn]; exact j.2), List.getElem_ofFn] at this
    exact (nodup_index hnd (List.getElem?_eq_getElem (is j).2) this.symm).symm
  · intro he
    refine List.ext_getElem? fun m => ?_
    by_cases hm : m < k
    · rw [(h2 m hm).2, List.getElem?_eq_getElem (l := List.ofFn _) (by rw [List.length_ofFn]; exact hm),
        List.getElem_ofFn]
      have := he ⟨m, hm⟩
      dsimp only at this
      rw [this, List.getElem?_eq_getElem (is ⟨m, hm⟩).2]
      rfl
    · rw [List.getElem?_eq_none (by rw [h1]; omega), List.getElem?_eq_none (by rw [List.length_ofFn]; omega)]

/-- **C114, as far as it holds.** If the generators of the three emitters start in independent states
with uniform draws, the next text is a given one with the probability of its number of words times
the probabilities of its words and separators.  (Missing: emitters seeded alike, as `seed` and `reset`
of a `Text` with a seed do.) -/
theorem C114_probability_partial [MeasurableSpace R.G] (μ ν ρ : Measure R.G) [SFinite μ] [SFinite ν]
    [SFinite ρ] (str : Val → List Char) {w : World R} {r n wd sp : Ref} {lens : List Nat} {wn : List ℝ}
    {words : List (List Char)} {ww : List ℝ} {seps : List (List Char)} {ws : List ℝ}
    (h : RandomText w r n wd sp lens wn words ww seps ws) (hread : Legible words seps)
    (hl : lens.Nodup) (hw : words.Nodup) (hs : seps.Nodup) (hwn : ∀ x ∈ wn, 0 ≤ x)
    (hww : ∀ x ∈ ww, 0 ≤ x) (hws : ∀ x ∈ ws, 0 ≤ x) (i k : Nat) (hi : lens[i]? = some (k + 1))
    (hU : UniformDraws R μ 1) (hV : UniformDraws R ν (k + 1)) (hW : UniformDraws R ρ k)
    (is : Fin (k + 1) → Fin words.length) (js : Fin k → Fin seps.length) {t : List Char}
    (ht : TextOf (List.ofFn fun m => words[is m]) (List.ofFn fun m => seps[js m]) t) (fuel : Nat) :
    (μ.prod (ν.prod ρ)) {g | (World.call str (fuel + 2) r none
        (((w.withGen n g.1).withGen wd g.2.1).withGen sp g.2.2)).1 = .ok (.str t)} =
      ENNReal.ofReal (wn.getD i 0 / wn.sum) * ((∏ m, ENNReal.ofReal (ww.getD (is m) 0 / ww.sum)) *
        ∏ m, ENNReal.ofReal (ws.getD (js m) 0 / ws.sum)) := by
  have hne : ∀ {l : List ℝ}, 0 < l.sum → l ≠ [] := by
    rintro l hl rfl
    simp at hl
  have ln : wn.length = lens.length := h.counts.same.trans (List.length_map _)
  have lw : ww.length = words.length := h.words.same.trans (List.length_map _)
  have ls : ws.length = seps.length := h.seps.same.trans (List.length_map _)
  obtain ⟨i0, i1⟩ := List.getElem?_eq_some_iff.1 hi
  have hA := picks_pattern μ hU (hne h.counts.total) hwn h.counts.total (fun _ => i) fun _ => by
    rw [ln]; exact i0
  simp only [Finset.univ_unique, Finset.prod_singleton, Fin.forall_fin_one] at hA
  rw [← hA, ← picks_pattern ν hV (hne h.words.total) hww h.words.total (fun j => is j)
    fun j => by rw [lw]; exact (is j).2, ← picks_pattern ρ hW (hne h.seps.total) hws h.seps.total
    (fun j => js j) fun j => by rw [ls]; exact (js j).2, ← Measure.prod_prod, ← Measure.prod_prod]
  congr 1
  ext ⟨x, y, z⟩
  simp only [Set.mem_ofPred_eq, Set.mem_prod]
  obtain ⟨kn, hkn⟩ := h.counts.node
  obtain ⟨kw, hkw⟩ := h.words.node
  obtain ⟨ks, hks⟩ := h.seps.node
  obtain ⟨a1, a2, a3⟩ := h.apart
  have al : World.Alike w (((w.withGen n x).withGen wd y).withGen sp z) :=
    World.withGen_alike (World.withGen_alike (World.withGen_alike (fun _ => rfl) hkn x)
      (by rw [World.withGen_obj, if_neg (Ne.symm a1)]; exact hkw) y)
      (by rw [World.withGen_obj, if_neg (Ne.symm a3), World.withGen_obj, if_neg (Ne.symm a2)]; exact hks) z
  have hx : ((((w.withGen n x).withGen wd y).withGen sp z).obj n).choice.rng = x := by
    rw [World.withGen_obj, if_neg a2, World.withGen_obj, if_neg a1, World.withGen_obj, if_pos rfl]
  have hy : ((((w.withGen n x).withGen wd y).withGen sp z).obj wd).choice.rng = y := by
    rw [World.withGen_obj, if_neg a3, World.withGen_obj, if_pos rfl]
  have hz : ((((w.withGen n x).withGen wd y).withGen sp z).obj sp).choice.rng = z := by
    rw [World.withGen_obj, if_pos rfl]
  obtain ⟨k', t', w', hk', hcall, htext⟩ := World.text_drawn (h.congr al) str fuel
  rw [hx] at hk'
  rw [hy, hz] at htext
  rw [hcall]
  change Except.ok _ = Except.ok _ ↔ choicesPick (accumulate wn) wn.sum (R.random x).1 = i ∧ _
  have m1 : ∀ q ∈ List.ofFn (fun m => words[is m]), q ∈ words := by
    intro q hq
    obtain ⟨m, rfl⟩ := List.mem_ofFn.1 hq
    exact List.getElem_mem _
  have m2 : ∀ q ∈ List.ofFn (fun m => seps[js m]), q ∈ seps := by
    intro q hq
    obtain ⟨m, rfl⟩ := List.mem_ofFn.1 hq
    exact List.getElem_mem _
  constructor
  · intro he
    have hl' := Val.str.inj (Except.ok.inj he)
    subst hl'
    obtain ⟨e1, e2⟩ := hread _ _ _ _ _ (fun _ => pickedBy_mem) (fun _ => pickedBy_mem) m1 m2 htext ht
    have hk : k' = k := by
      have := congrArg List.length e2
      rwa [(pickedBy_getElem (R := R) ls h.seps.total k' z).1, List.length_ofFn] at this
    subst hk
    exact ⟨nodup_index hl hk' hi, (pickedBy_iff hw lw h.words.total is).1 e1,
      (pickedBy_iff hs ls h.seps.total js).1 e2⟩
  · rintro ⟨e0, e1, e2⟩
    have hk : k' = k := by
      rw [e0, hi] at hk'
      have := Option.some.inj hk'
      omega
    subst hk
    rw [(pickedBy_iff hw lw h.words.total is).2 e1, (pickedBy_iff hs ls h.seps.total js).2 e2] at htext
    rw [htext.same ht]

/-! ### An example -/

section
variable {K : Type} [Field K] [LinearOrder K] [FloorRing K] [IsStrictOrderedRing K]

/-- `Text(Choice([2, 3], weights=[1, 1]), Choice(['no', 'yes'], weights=[1, 1]),
Choice([',', ';'], weights=[1, 1]))` (3). -/
def yesWorld (R : Rng K) : World R where
  obj
    | 0 => coin R [.int 2, .int 3] [1, 1]
    | 1 => coin R [.str ['n', 'o'], .str ['y', 'e', 's']] [1, 1]
    | 2 => coin R [.str [','], .str [';']] [1, 1]
    | 3 => { World.blank with node := some (.text 0 1 2), seed := some 0, rng := R.ofSeed 0 }
    | _ => World.blank
  next := 4
  entropy := 0

theorem yes_text (R : Rng K) : RandomText (yesWorld R) 3 0 1 2 [2, 3] [1, 1]
    [['n', 'o'], ['y', 'e', 's']] [1, 1] [[','], [';']] [1, 1] where
  node := rfl
  apart := by decide
  counts := ⟨⟨_, rfl⟩, rfl, rfl, rfl, rfl, rfl, by decide, by simp⟩
  words := ⟨⟨_, rfl⟩, rfl, rfl, rfl, rfl, rfl, by decide, by simp⟩
  seps := ⟨⟨_, rfl⟩, rfl, rfl, rfl, rfl, rfl, by decide, by simp⟩
  roac := ⟨rfl, rfl, rfl⟩
  positive := by decide

theorem yes_legible : Legible [['n', 'o'], ['y', 'e', 's']] [[','], [';']] :=
  legible_of_chars (S := [',', ';']) rfl (by decide)

theorem yes_no : TextOf [['y', 'e', 's'], ['n', 'o']] [[',']] ['y', 'e', 's', ',', 'n', 'o'] :=
  .more ['y', 'e', 's'] [','] (.one ['n', 'o'])
end

/-- Whatever the seed: in the first text `yes` is followed by a semicolon, never by a comma. -/
example (s : Int) (hok : (World.seed 5 3 (some s) (yesWorld demoRng)).1 = .ok ()) :
    (World.call demoStr 5 3 none (World.seed 5 3 (some s) (yesWorld demoRng)).2).1 ≠
      .ok (.str ['y', 'e', 's', ',', 'n', 'o']) :=
  C114_separators_violated demoStr (yes_text demoRng) yes_legible (by decide) (by decide) s 5 hok yes_no
    (by decide) (by decide) (m := 0) (i := 1) (j := 0) rfl rfl rfl rfl (.inr (by norm_num)) 5

/-- Nor has the first text two words the first of which is `yes`. -/
example (s : Int) (hok : (World.seed 5 3 (some s) (yesWorld demoRng)).1 = .ok ()) (x y : List Char)
    (hx : x ∈ [['n', 'o'], ['y', 'e', 's']]) (hy : y ∈ [[','], [';']]) :
    (World.call demoStr 5 3 none (World.seed 5 3 (some s) (yesWorld demoRng)).2).1 ≠
      .ok (.str (['y', 'e', 's'] ++ y ++ x)) :=
  C114_counts_violated demoStr (yes_text demoRng) yes_legible (by decide) (by decide) s 5 hok
    (.more ['y', 'e', 's'] y (.one x)) (by simpa using hx) (by simpa using hy) (i := 0) (j := 1) rfl rfl
    (.inl (by norm_num)) 5

/-- Texts after the seeds 0 and 2; from the second on the words and separators with the
same draw are in different places of the texts (C131). -/
example : (World.seed 5 3 (some 0) (yesWorld demoRng)).1 = .ok () ∧
    World.outcomes demoStr 5 3 [none, none] (World.seed 5 3 (some 0) (yesWorld demoRng)).2 =
      [.ok (.str ['n', 'o', ',', 'y', 'e', 's']),
        .ok (.str ['y', 'e', 's', ';', 'n', 'o', ';', 'y', 'e', 's'])] ∧
    World.outcomes demoStr 5 3 [none, none] (World.seed 5 3 (some 2) (yesWorld demoRng)).2 =
      [.ok (.str ['y', 'e', 's', ';', 'n', 'o', ',', 'y', 'e', 's']), .ok (.str ['n', 'o', ';', 'n', 'o'])] := by
  decide +kernel

/-- With independent generators the text `yes,no` has the probability 1/16. -/
example : (replayMeasure.prod (replayMeasure.prod replayMeasure)) {g | (World.call demoStr 5 3 none
      ((((yesWorld replayRng).withGen 0 g.1).withGen 1 g.2.1).withGen 2 g.2.2)).1 =
        .ok (.str ['y', 'e', 's', ',', 'n', 'o'])} =
    ENNReal.ofReal (1 / 2) * (ENNReal.ofReal (1 / 2) * ENNReal.ofReal (1 / 2) * ENNReal.ofReal (1 / 2)) := by
  have := C114_probability_partial replayMeasure replayMeasure replayMeasure demoStr (yes_text replayRng)
    yes_legible (by decide) (by decide) (by decide) (by norm_num) (by norm_num) (by norm_num) 0 1 rfl
    (replayRng_uniform 1) (replayRng_uniform 2) (replayRng_uniform 1)
    (fun m => if m = 0 then ⟨1, by decide⟩ else ⟨0, by decide⟩) (fun _ => ⟨0, by decide⟩) yes_no 3
  have h2 : (1 : ℝ) / (1 + 1) = 1 / 2 := by norm_num
  simpa [h2, Fin.prod_univ_two] using this

end Fauxdoc
