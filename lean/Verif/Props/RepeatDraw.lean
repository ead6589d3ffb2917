import Verif.Spec.RepeatDraw
import Verif.Props.WrapDraw
/-
C118: how many values a field has is independent of which.
-/
set_option linter.unusedSectionVars false
namespace Fauxdoc
open PyM World
variable {K : Type} [Field K] [LinearOrder K] [FloorRing K] [IsStrictOrderedRing K] {R : Rng K}

theorem pickedBy_map {α β : Type} (φ : α → β) (items : List α) (ws : List K) (n : Nat) (g : R.G) :
    pickedBy (R := R) (items.map φ) ws n g = (pickedBy (R := R) items ws n g).map φ := by
  unfold pickedBy Choice.pick
  rw [List.map_filterMap]
  refine congrArg (fun h => List.filterMap h _) (funext fun i => ?_)
  rw [List.getElem?_map]

theorem nthDraw_unit (m : Nat) : ∀ g : R.G, 0 ≤ R.nthDraw m g ∧ R.nthDraw m g < 1 := by
  induction m with
  | zero => exact fun g => ⟨R.random_nonneg g, R.random_lt_one g⟩
  | succ m ih => exact fun g => ih _

section
variable {w : World R} {f e rp g : Ref} {counts : List Nat} {wc : List K} {items : List Val} {ws : List K}

theorem MultiField.congr (h : MultiField w f e rp g counts wc items ws) {v : World R}
    (ha : World.Alike w v) : MultiField v f e rp g counts wc items ws := by
  obtain ⟨k, hk⟩ := h.values.node
  obtain ⟨n, hd, hn⟩ := h.node
  have hg : (v.obj g).node = some .static := (World.node_of_shape (ha g)).trans h.gate.1
  have hs : (v.obj g).static = (w.obj g).static := by
    have := congrArg Attrs.static (ha g)
    unfold Attrs.shape at this
    rw [hg, h.gate.1] at this
    exact this
  exact ⟨⟨n, hd, (World.node_of_shape (ha f)).trans hn⟩, ⟨hg, hs ▸ h.gate.2⟩, h.apart,
    h.number.congr (ha rp), h.values.congr (ha e),
    (World.alike_of_shape (ha e).symm hk).roac.symm.trans h.roac⟩

theorem MultiField.lengths (h : MultiField w f e rp g counts wc items ws) : wc.length = counts.length := by
  have := h.number.same
  rwa [List.length_map] at this

/-- One call of the field. -/
theorem multi_call (str : Val → List Char) (h : MultiField w f e rp g counts wc items ws) (fuel : Nat) :
    ∃ c w', pickedBy (R := R) counts wc 1 (w.obj rp).choice.rng = [c] ∧
      World.call str (fuel + 2) f none w =
        (.ok (.list (pickedBy (R := R) items ws c (w.obj e).choice.rng)), w') ∧
      World.Alike w w' ∧ (w'.obj rp).choice.rng = R.past 1 (w.obj rp).choice.rng ∧
      (w'.obj e).choice.rng = R.past c (w.obj e).choice.rng := by
  obtain ⟨n, hd, hn⟩ := h.node
  obtain ⟨k, hk⟩ := h.values.node
  obtain ⟨k', hk'⟩ := h.number.node
  obtain ⟨v, hv, h1⟩ := picks_single h.number str fuel
  rw [pickedBy_map] at hv
  obtain ⟨c, hc, rfl⟩ : ∃ c, pickedBy (R := R) counts wc 1 (w.obj rp).choice.rng = [c] ∧ Val.int c = v := by
    rcases hp : pickedBy (R := R) counts wc 1 (w.obj rp).choice.rng with _ | ⟨c, _ | ⟨d, l⟩⟩ <;> rw [hp] at hv
    · cases hv
    · exact ⟨c, rfl, (List.cons.inj hv).1⟩
    · cases hv
  have he : (w.withGen rp (R.past 1 (w.obj rp).choice.rng)).obj e = w.obj e := by
    rw [withGen_obj, if_neg h.apart]
  have h2 := picks_batch (w := w.withGen rp (R.past 1 (w.obj rp).choice.rng)) (r := e)
    (by rw [he]; exact h.values) (by rw [he]; exact h.roac) str fuel c
  rw [he] at h2
  have hcall := (C46_store str (fuel + 1) hn _ _).2 ⟨_, _, call_static str fuel h.gate.1,
    .inr ⟨h.gate.2, _, _, _, h1, h2, rfl⟩⟩
  have hrf : rp ≠ f := by rintro rfl; rw [hn] at hk'; cases hk'
  have hef : e ≠ f := by rintro rfl; rw [hn] at hk; cases hk
  refine ⟨c, _, hc, hcall, World.alike_after (fun _ => rfl) hcall, ?_, ?_⟩
  · have e1 : ∀ (u : World R) (φ : Attrs R → Attrs R), (u.upd f φ).obj rp = u.obj rp := fun u φ => if_neg hrf
    rw [e1, withGen_obj, if_neg (Ne.symm h.apart), withGen_obj, if_pos rfl]
  · have e1 : ∀ (u : World R) (φ : Attrs R → Attrs R), (u.upd f φ).obj e = u.obj e := fun u φ => if_neg hef
    rw [e1, withGen_obj, if_pos rfl]

/-- **C118 (values).** Any number of calls of the field return lists: their lengths are what the draws
of the repeat emitter pick, and their members, taken together, what the draws of the emitter pick. -/
theorem C118_values (str : Val → List Char) (fuel n : Nat) : ∀ {w : World R}
    (_ : MultiField w f e rp g counts wc items ws),
    ∃ ls, GaveLists (World.fieldCalls str (fuel + 2) f n w) ls ∧
      ls.map List.length = pickedBy (R := R) counts wc n (w.obj rp).choice.rng ∧
      ls.flatten = pickedBy (R := R) items ws ls.flatten.length (w.obj e).choice.rng := by
  induction n with
  | zero => exact fun _ => ⟨[], rfl, rfl, rfl⟩
  | succ n ih =>
    intro w h
    obtain ⟨c, w', hc, hcall, ha, hr, he⟩ := multi_call str h fuel
    obtain ⟨ls, h1, h2, h3⟩ := ih (h.congr ha)
    rw [hr] at h2
    rw [he] at h3
    have hl := (pickedBy_getElem (R := R) h.values.same h.values.total c (w.obj e).choice.rng).1
    refine ⟨pickedBy (R := R) items ws c (w.obj e).choice.rng :: ls, ?_, ?_, ?_⟩
    · unfold GaveLists World.fieldCalls at h1 ⊢
      rw [List.replicate_succ, List.map_cons, ← h1]
      change (World.call str (fuel + 2) f none w).1 ::
        World.outcomes str (fuel + 2) f (List.replicate n none) (World.call str (fuel + 2) f none w).2 = _
      rw [hcall]
    · rw [Nat.add_comm n 1, pickedBy_add, hc, List.map_cons, hl, h2]
      rfl
    · rw [List.flatten_cons, List.length_append, hl, pickedBy_add, ← h3]

/-- **C118, violated.** After `seed(s)` of the field its first number of values and the first of these
values are decided by the same draw: whatever the seed and the generator, the `i`-th number never comes
with the `j`-th item in front, if the parts of the unit interval that belong to the two do not meet; and
with the same weights only if `i = j`. -/
theorem C118_violated (str : Val → List Char) (h : MultiField w f e rp g counts wc items ws)
    (hnc : counts.Nodup) (hni : items.Nodup) (s : Int) (fuel : Nat)
    (hok : (World.seed fuel f (some s) w).1 = .ok ()) (fuel' : Nat) {x : Val} {l : List Val} {i j : Nat}
    (hcall : (World.call str (fuel' + 2) f none (World.seed fuel f (some s) w).2).1 = .ok (.list (x :: l)))
    (hi : counts[i]? = some (l.length + 1)) (hj : items[j]? = some x) :
    ¬ SharesApart wc i ws j ∧ (wc = ws → i = j) := by
  have hs := World.seed_shape fuel f (some s) w
  obtain ⟨n, hd, hn⟩ := h.node
  have below : ∀ z, z = e ∨ z = rp → Below w f z := by
    intro z hz
    refine .step (c := z) ?_ (.self z)
    unfold Attrs.children
    rw [hn]
    rcases hz with rfl | rfl <;> simp [Node.childRefs]
  obtain ⟨c, w', hc, hc', -, -, -⟩ := multi_call str (h.congr hs) fuel'
  rw [hc', seeded_picks h.values (below e (.inl rfl)) hok] at hcall
  rw [seeded_picks h.number (below rp (.inr rfl)) hok] at hc
  have hl : pickedBy (R := R) items ws c (R.ofSeed s) = x :: l := by
    simpa using hcall
  obtain ⟨l1, g1⟩ := pickedBy_getElem (R := R) h.values.same h.values.total c (R.ofSeed s)
  rw [hl, List.length_cons] at l1
  obtain ⟨c1, g1⟩ := g1 0 (by omega)
  rw [hl] at g1
  obtain ⟨c2, g2⟩ := (pickedBy_getElem (R := R) h.lengths h.number.total 1 (R.ofSeed s)).2 0 (by omega)
  rw [hc] at g2
  rw [← l1] at g2
  rw [nodup_index hni hj g1.symm, nodup_index hnc hi g2.symm]
  have hu := nthDraw_unit (R := R) 0 (R.ofSeed s)
  exact ⟨same_draw h.number.total h.values.total hu.1 hu.2, fun h => by rw [h]⟩
end

/-! ### Independent generators -/

open MeasureTheory in
/-- **C118, partial.** If the states of the two emitters are independent, the lists that any number of
calls return have the product of the probabilities of their lengths and of their members.  Missing: the
seeds that `seed` sets are not independent, but equal (see `C118_violated`). -/
theorem C118_probability_partial {R : Rng ℝ} [MeasurableSpace R.G] (μ ν : Measure R.G) [SFinite μ]
    [SFinite ν] (str : Val → List Char) {w : World R} {f e rp g : Ref} {counts : List Nat} {wc : List ℝ}
    {items : List Val} {ws : List ℝ} (h : MultiField w f e rp g counts wc items ws) (hnc : counts.Nodup)
    (hni : items.Nodup) (hwc : ∀ x ∈ wc, 0 ≤ x) (hws : ∀ x ∈ ws, 0 ≤ x) (fuel n : Nat)
    (ks : Fin n → Fin counts.length) (t : Nat) (ht : t = ∑ m, counts[ks m])
    (js : Fin t → Fin items.length) (hU : UniformDraws R μ n) (hV : UniformDraws R ν t) :
    (μ.prod ν) {xy | ∃ ls, GaveLists (World.fieldCalls str (fuel + 2) f n
        ((w.withGen rp xy.1).withGen e xy.2)) ls ∧ ls.map List.length = List.ofFn (fun m => counts[ks m]) ∧
        ls.flatten = List.ofFn fun m => items[js m]} =
      (∏ m, ENNReal.ofReal (wc.getD (ks m) 0 / wc.sum)) *
        ∏ m, ENNReal.ofReal (ws.getD (js m) 0 / ws.sum) := by
  have hnem : ∀ {l : List ℝ}, 0 < l.sum → l ≠ [] := by
    rintro l hl rfl
    simp at hl
  rw [← picks_pattern μ hU (hnem h.number.total) hwc h.number.total (fun m => ks m)
      (fun m => by rw [h.lengths]; exact (ks m).2),
    ← picks_pattern ν hV (hnem h.values.total) hws h.values.total (fun m => js m)
      (fun m => by rw [h.values.same]; exact (js m).2), ← Measure.prod_prod]
  congr 1
  ext ⟨x, y⟩
  simp only [Set.mem_ofPred_eq, Set.mem_prod]
  obtain ⟨k, hk⟩ := h.number.node
  obtain ⟨k', hk'⟩ := h.values.node
  have al : World.Alike w ((w.withGen rp x).withGen e y) :=
    World.withGen_alike (World.withGen_alike (fun _ => rfl) hk x)
      (by rw [World.withGen_obj, if_neg h.apart]; exact hk') y
  have hx : (((w.withGen rp x).withGen e y).obj rp).choice.rng = x := by
    rw [World.withGen_obj, if_neg (Ne.symm h.apart), World.withGen_obj, if_pos rfl]
  have hy : (((w.withGen rp x).withGen e y).obj e).choice.rng = y := by
    rw [World.withGen_obj, if_pos rfl]
  obtain ⟨ls, h1, h2, h3⟩ := C118_values str fuel n (h.congr al)
  rw [hx] at h2
  rw [hy] at h3
  -- a list of picks is a given one iff all draws pick the given positions
  have pattern : ∀ {α : Type} {its : List α} {l : List ℝ} (_ : l.length = its.length) (_ : 0 < l.sum)
      (_ : its.Nodup) (q : Nat) (z : R.G) (is : Fin q → Fin its.length),
      pickedBy (R := R) its l q z = List.ofFn (fun m => its[is m]) ↔
        ∀ m : Fin q, choicesPick (accumulate l) l.sum (R.nthDraw m z) = is m := by
    intro α its l hl h0 hnd q z is
    obtain ⟨p1, p2⟩ := pickedBy_getElem (R := R) hl h0 q z
    constructor
    · intro hp m
      have := (p2 m m.2).2
      rw [hp, List.getElem?_ofFn, dif_pos m.2] at this
      exact nodup_index hnd this.symm (List.getElem?_eq_getElem (is m).2)
    · intro hp
      refine List.ext_getElem? fun m => ?_
      by_cases hm : m < q
      · rw [(p2 m hm).2, hp ⟨m, hm⟩, List.getElem?_ofFn, dif_pos hm]
        exact List.getElem?_eq_getElem (is ⟨m, hm⟩).2
      · rw [List.getElem?_eq_none (by omega), List.getElem?_eq_none (by rw [List.length_ofFn]; omega)]
  rw [← pattern h.lengths h.number.total hnc, ← pattern h.values.same h.values.total hni, ← h2]
  have hlen : ls.map List.length = List.ofFn (fun m => counts[ks m]) → ls.flatten.length = t := by
    intro hm
    rw [List.length_flatten, hm, List.sum_ofFn, ht]
  constructor
  · rintro ⟨ls', g1, g2, g3⟩
    have : ls' = ls := by
      have hinj : Function.Injective fun l : List Val => (.ok (.list l) : Except Err Val) := by
        intro a b hab
        cases hab
        rfl
      exact List.map_injective_iff.2 hinj (g1.symm.trans h1)
    subst this
    rw [hlen g2] at h3
    exact ⟨g2, h3 ▸ g3⟩
  · rintro ⟨g2, g3⟩
    rw [hlen g2] at h3
    exact ⟨ls, h1, g2, h3.trans g3⟩

/-! ### An example -/

section
variable {K : Type} [Field K] [LinearOrder K] [FloorRing K]

/-- `Field('tag', Choice(['a', 'b'], weights=[1, 1]), repeat=Choice([1, 2], weights=[1, 1]))` (3). -/
def tagWorld (R : Rng K) : World R where
  obj
    | 0 => coin R [.str ['a'], .str ['b']] [1, 1]
    | 1 => coin R [.int 1, .int 2] [1, 1]
    | 2 => fixed R (.bool true) | 3 => gated R "tag" 0 1 2
    | _ => World.blank
  next := 4
  entropy := 0

variable [IsStrictOrderedRing K] {R : Rng K}

theorem tag_multi : MultiField (tagWorld R) 3 0 1 2 [1, 2] [1, 1] [.str ['a'], .str ['b']] [1, 1] where
  node := ⟨_, _, rfl⟩
  gate := ⟨rfl, rfl⟩
  apart := by decide
  number := ⟨⟨_, rfl⟩, rfl, rfl, rfl, rfl, rfl, by decide, by norm_num⟩
  values := ⟨⟨_, rfl⟩, rfl, rfl, rfl, rfl, rfl, by decide, by norm_num⟩
  roac := rfl
end

/-- Whatever the seed, the field does not start with two values of which the first is `a`. -/
example (s : Int) (hok : (World.seed 3 3 (some s) (tagWorld demoRng)).1 = .ok ()) (y : Val) :
    (World.call demoStr 2 3 none (World.seed 3 3 (some s) (tagWorld demoRng)).2).1 ≠
      .ok (.list [.str ['a'], y]) := by
  intro h
  have := (C118_violated demoStr tag_multi (by decide) (by decide) s 3 hok 0 h (i := 1) (j := 0) rfl rfl).2 rfl
  cases this

example : (World.seed 3 3 (some 0) (tagWorld demoRng)).1 = .ok () := by decide +kernel

/-- With independent generators two calls give `['a']` and `['a', 'b']` with probability 1/32. -/
example : (replayMeasure.prod replayMeasure) {xy | ∃ ls, GaveLists (World.fieldCalls demoStr 2 3 2
      (((tagWorld replayRng).withGen 1 xy.1).withGen 0 xy.2)) ls ∧ ls.map List.length = [1, 2] ∧
      ls.flatten = [.str ['a'], .str ['a'], .str ['b']]} =
    (ENNReal.ofReal (1 / 2)) ^ 2 * (ENNReal.ofReal (1 / 2)) ^ 3 := by
  have := C118_probability_partial replayMeasure replayMeasure demoStr tag_multi (by decide) (by decide)
    (by norm_num) (by norm_num) 0 2 ![⟨0, by decide⟩, ⟨1, by decide⟩] 3 (by decide)
    ![⟨0, by decide⟩, ⟨0, by decide⟩, ⟨1, by decide⟩] (replayRng_uniform _) (replayRng_uniform _)
  have h2 : (1 : ℝ) / (1 + 1) = 1 / 2 := by norm_num
  refine Eq.trans ?_ (this.trans ?_)
  · rfl
  · simp [h2, Fin.prod_univ_succ]
    ring

end Fauxdoc
