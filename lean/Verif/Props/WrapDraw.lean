import Verif.Spec.WrapDraw
import Verif.Props.FieldDraw
/-
C117: the sources of a wrapper, and the numbers that its callback draws, are independent.
-/
set_option linter.unusedSectionVars false
namespace Fauxdoc
open PyM World
variable {K : Type} [Field K] [LinearOrder K] [FloorRing K] [IsStrictOrderedRing K] {R : Rng K}

/-! ### One call -/

theorem picks_batch {items : List Val} {ws : List K} {w : World R} {r : Ref}
    (h : Picks items ws (w.obj r)) (hro : (w.obj r).choice.roac = false) (str : Val → List Char)
    (fuel n : Nat) : World.call str (fuel + 1) r (some (.int n)) w =
      (.ok (.list (pickedBy (R := R) items ws n (w.obj r).choice.rng)),
        w.withGen r (R.past n (w.obj r).choice.rng)) := by
  obtain ⟨us, g', hu, h⟩ := picks_many h hro str fuel n
  rw [rands_past] at hu
  cases hu
  exact h

theorem picks_single {items : List Val} {ws : List K} {w : World R} {r : Ref}
    (h : Picks items ws (w.obj r)) (str : Val → List Char) (fuel : Nat) :
    ∃ v, pickedBy (R := R) items ws 1 (w.obj r).choice.rng = [v] ∧
      World.call str (fuel + 1) r none w = (.ok v, w.withGen r (R.past 1 (w.obj r).choice.rng)) := by
  obtain ⟨v, hv, hc⟩ := picks_call h str fuel none (.inl rfl)
  refine ⟨v, ?_, hc⟩
  obtain ⟨h1, h2⟩ := pickedBy_getElem (R := R) h.same h.total 1 (w.obj r).choice.rng
  obtain ⟨x, hx⟩ := List.length_eq_one_iff.1 h1
  have h3 := (h2 0 (by omega)).2
  rw [hx] at h3
  rw [hx]
  exact congrArg (fun x => [x]) (Option.some.inj (h3.trans hv))

section
variable {w : World R} {r a b : Ref} {ka kb : String} {items : List Val} {wa : List K}
  {items' : List Val} {wb : List K} {cb : Callback R.G} {f : Val → Val → Val}

theorem PairWrap.congr (h : PairWrap w r a b ka kb items wa items' wb cb f) {v : World R}
    (ha : World.Alike w v) (hw : (v.obj r).wrapper = (w.obj r).wrapper) :
    PairWrap v r a b ka kb items wa items' wb cb f := by
  obtain ⟨k, hk⟩ := h.first.node
  obtain ⟨k', hk'⟩ := h.second.node
  exact ⟨(World.node_of_shape (ha r)).trans h.node, hw.trans h.wrapper, h.apart, h.labels,
    h.first.congr (ha a), h.second.congr (ha b),
    ⟨(World.alike_of_shape (ha a).symm hk).roac.symm.trans h.roac.1,
      (World.alike_of_shape (ha b).symm hk').roac.symm.trans h.roac.2⟩, h.noRng, h.makes⟩

theorem PairWrap.ne (h : PairWrap w r a b ka kb items wa items' wb cb f) : r ≠ a ∧ r ≠ b := by
  obtain ⟨k, hk⟩ := h.first.node
  obtain ⟨k', hk'⟩ := h.second.node
  constructor
  · rintro rfl; rw [h.node] at hk; cases hk
  · rintro rfl; rw [h.node] at hk'; cases hk'

/-- The store after both sources were called. -/
def World.bothPast (w : World R) (a b : Ref) (n : Nat) : World R :=
  (w.withGen a (R.past n (w.obj a).choice.rng)).withGen b (R.past n (w.obj b).choice.rng)

theorem bothPast_obj (h : a ≠ b) (n : Nat) :
    ((w.bothPast a b n).obj a).choice.rng = R.past n (w.obj a).choice.rng ∧
      ((w.bothPast a b n).obj b).choice.rng = R.past n (w.obj b).choice.rng := by
  unfold World.bothPast
  constructor
  · rw [withGen_obj, if_neg h, withGen_obj, if_pos rfl]
  · rw [withGen_obj, if_pos rfl]

theorem PairWrap.past (h : PairWrap w r a b ka kb items wa items' wb cb f) (n : Nat) :
    PairWrap (w.bothPast a b n) r a b ka kb items wa items' wb cb f := by
  obtain ⟨k, hk⟩ := h.first.node
  obtain ⟨k', hk'⟩ := h.second.node
  refine h.congr (World.withGen_alike (World.withGen_alike (fun _ => rfl) hk _)
    (by rw [World.withGen_obj, if_neg (Ne.symm h.apart)]; exact hk') _) ?_
  unfold World.bothPast
  rw [withGen_obj, if_neg h.ne.2, withGen_obj, if_neg h.ne.1]

theorem wrap_single (str : Val → List Char) (h : PairWrap w r a b ka kb items wa items' wb cb f)
    (fuel : Nat) : ∃ v, World.call str (fuel + 2) r none w = (.ok v, w.bothPast a b 1) ∧
      List.zipWith f (pickedBy (R := R) items wa 1 (w.obj a).choice.rng)
        (pickedBy (R := R) items' wb 1 (w.obj b).choice.rng) = [v] := by
  obtain ⟨x, hx, h1⟩ := picks_single h.first str fuel
  have hb : (w.withGen a (R.past 1 (w.obj a).choice.rng)).obj b = w.obj b := by
    rw [withGen_obj, if_neg (Ne.symm h.apart)]
  obtain ⟨y, hy, h2⟩ := picks_single (w := w.withGen a (R.past 1 (w.obj a).choice.rng)) (r := b)
    (by rw [hb]; exact h.second) str fuel
  rw [hb] at hy h2
  have mx : x ∈ items := pickedBy_mem (by rw [hx]; simp)
  have my : y ∈ items' := pickedBy_mem (by rw [hy]; simp)
  refine ⟨f x y, (C38_store_one str (fuel + 1) h.node h.wrapper
    (by simp [Dict.keys, Ne.symm h.labels.1, Ne.symm h.labels.2]) _ _).2 ⟨[(ka, x), (kb, y)],
      w.bothPast a b 1, .cons h1 (.cons h2 (.nil _)), ?_⟩, by rw [hx, hy]; rfl⟩
  exact ⟨fun hr => absurd hr h.noRng, fun _ => ⟨.cons (h.makes x mx y my) .nil, rfl⟩⟩

theorem wrap_batch (str : Val → List Char) (h : PairWrap w r a b ka kb items wa items' wb cb f)
    (fuel n : Nat) : World.call str (fuel + 2) r (some (.int n)) w =
      (.ok (.list (List.zipWith f (pickedBy (R := R) items wa n (w.obj a).choice.rng)
        (pickedBy (R := R) items' wb n (w.obj b).choice.rng))), w.bothPast a b n) := by
  obtain ⟨k, hk⟩ := h.first.node
  obtain ⟨k', hk'⟩ := h.second.node
  have h1 := picks_batch h.first h.roac.1 str fuel n
  have hb : (w.withGen a (R.past n (w.obj a).choice.rng)).obj b = w.obj b := by
    rw [withGen_obj, if_neg (Ne.symm h.apart)]
  have h2 := picks_batch (w := w.withGen a (R.past n (w.obj a).choice.rng)) (r := b)
    (by rw [hb]; exact h.second) (by rw [hb]; exact h.roac.2) str fuel n
  rw [hb] at h2
  have l1 := (pickedBy_getElem (R := R) h.first.same h.first.total n (w.obj a).choice.rng).1
  have l2 := (pickedBy_getElem (R := R) h.second.same h.second.total n (w.obj b).choice.rng).1
  have m1 : ∀ x ∈ pickedBy (R := R) items wa n (w.obj a).choice.rng, x ∈ items := fun _ => pickedBy_mem
  have m2 : ∀ x ∈ pickedBy (R := R) items' wb n (w.obj b).choice.rng, x ∈ items' := fun _ => pickedBy_mem
  generalize pickedBy (R := R) items wa n (w.obj a).choice.rng = xs at *
  generalize pickedBy (R := R) items' wb n (w.obj b).choice.rng = ys at *
  refine (C38_store_many str (fuel + 1) h.node h.wrapper
    (by simp [Dict.keys, Ne.symm h.labels.1, Ne.symm h.labels.2]) ?_ n _ _).2
    ⟨[(ka, .list xs), (kb, .list ys)], w.bothPast a b n,
      List.zipWith (fun x y => [(ka, x), (kb, y)]) xs ys, List.zipWith f xs ys,
      .cons h1 (.cons h2 (.nil _)), by rw [List.length_zipWith, l1, l2, Nat.min_self], ?_, ?_, rfl⟩
  · intro ks hks
    simp only [List.mem_cons, List.not_mem_nil, or_false] at hks
    unfold Attrs.isField
    rcases hks with rfl | rfl
    · rw [hk]
    · rw [hk']
  · intro i row hrow
    rw [List.getElem?_zipWith] at hrow
    rcases hx : xs[i]? with _ | x <;> rcases hy : ys[i]? with _ | y <;> rw [hx, hy] at hrow <;>
      cases hrow
    exact .cons ⟨rfl, xs, rfl, hx⟩ (.cons ⟨rfl, ys, rfl, hy⟩ .nil)
  · refine ⟨fun hr => absurd hr h.noRng, fun _ => ⟨?_, rfl⟩⟩
    clear h1 h2 l1 l2
    induction xs generalizing ys with
    | nil => exact .nil
    | cons x xs ih =>
      cases ys with
      | nil => exact .nil
      | cons y ys =>
        exact .cons (h.makes x (m1 x (by simp)) y (m2 y (by simp)))
          (ih (fun x hx => m1 x (List.mem_cons_of_mem _ hx)) ys
            (fun x hx => m2 x (List.mem_cons_of_mem _ hx)))

theorem zipWith_pickedBy (h : PairWrap w r a b ka kb items wa items' wb cb f) (n m : Nat) (x y : R.G) :
    List.zipWith f (pickedBy (R := R) items wa (n + m) x) (pickedBy (R := R) items' wb (n + m) y) =
      List.zipWith f (pickedBy (R := R) items wa n x) (pickedBy (R := R) items' wb n y) ++
        List.zipWith f (pickedBy (R := R) items wa m (R.past n x))
          (pickedBy (R := R) items' wb m (R.past n y)) := by
  rw [pickedBy_add, pickedBy_add, List.zipWith_append]
  rw [(pickedBy_getElem (R := R) h.first.same h.first.total n x).1,
    (pickedBy_getElem (R := R) h.second.same h.second.total n y).1]

/-- **C117 (values).** The values that a `WrapMany` of two choices returns, in calls for one or several
values, are made from what the draws of the two sources pick, one after the other. -/
theorem C117_values (str : Val → List Char) (fuel : Nat) (ns : List (Option Nat)) : ∀ {w : World R}
    (_ : PairWrap w r a b ka kb items wa items' wb cb f),
    returned ns (World.outcomes str (fuel + 2) r (ns.map wantedArg) w) =
      List.zipWith f (pickedBy (R := R) items wa (askedFor ns) (w.obj a).choice.rng)
        (pickedBy (R := R) items' wb (askedFor ns) (w.obj b).choice.rng) := by
  induction ns with
  | nil => intro w h; rfl
  | cons n ns ih =>
    intro w h
    have e : askedFor (n :: ns) = n.getD 1 + askedFor ns := rfl
    have ihp := ih (h.past (n.getD 1))
    obtain ⟨e1, e2⟩ := bothPast_obj (w := w) h.apart (n.getD 1)
    rw [e1, e2] at ihp
    rw [e, zipWith_pickedBy h, ← ihp]
    rw [List.map_cons]
    cases n with
    | none =>
      obtain ⟨v, h1, h2⟩ := wrap_single str h fuel
      change returned _ ((World.call str (fuel + 2) r none w).1 ::
        World.outcomes str (fuel + 2) r (ns.map wantedArg) (World.call str (fuel + 2) r none w).2) = _
      rw [h1]
      change v :: _ = List.zipWith f (pickedBy (R := R) items wa 1 _) (pickedBy (R := R) items' wb 1 _) ++ _
      rw [h2]
      rfl
    | some n =>
      have h1 := wrap_batch str h fuel n
      change returned _ ((World.call str (fuel + 2) r (some (.int n)) w).1 ::
        World.outcomes str (fuel + 2) r (ns.map wantedArg)
          (World.call str (fuel + 2) r (some (.int n)) w).2) = _
      rw [h1]
      rfl

/-- **C117, violated.** After `seed(s)` of the wrapper the two values that go into its `m`-th value are
decided by the same draw, for every `m`: whatever the seed and the generator, it is never made from
the `i`-th item of the one and the `j`-th item of the other source, if the parts of the unit interval
that belong to the two do not meet; and with the same weights always from the same position. -/
theorem C117_violated (str : Val → List Char) (h : PairWrap w r a b ka kb items wa items' wb cb f)
    (hf : TellsApart f items items') (hna : items.Nodup) (hnb : items'.Nodup) (s : Int) (fuel : Nat)
    (hok : (World.seed fuel r (some s) w).1 = .ok ()) (fuel' : Nat) (ns : List (Option Nat)) {m i j : Nat}
    {x y : Val} (hi : items[i]? = some x) (hj : items'[j]? = some y)
    (hm : (returned ns (World.outcomes str (fuel' + 2) r (ns.map wantedArg)
      (World.seed fuel r (some s) w).2))[m]? = some (f x y)) :
    ¬ SharesApart wa i wb j ∧ (wa = wb → i = j) := by
  have hs := World.seed_shape fuel r (some s) w
  have hw : ((World.seed fuel r (some s) w).2.obj r).wrapper = (w.obj r).wrapper := by
    have := congrArg Attrs.wrapper (hs r)
    unfold Attrs.shape at this
    rw [World.node_of_shape (hs r), h.node] at this
    exact this
  have below : ∀ z, z = a ∨ z = b → Below w r z := by
    intro z hz
    refine .step (c := z) ?_ (.self z)
    unfold Attrs.children
    rw [h.node]
    simpa [Node.childRefs] using hz
  rw [C117_values str fuel' ns (h.congr hs hw), seeded_picks h.first (below a (.inl rfl)) hok,
    seeded_picks h.second (below b (.inr rfl)) hok, List.getElem?_zipWith] at hm
  obtain ⟨l1, g1⟩ := pickedBy_getElem (R := R) h.first.same h.first.total (askedFor ns) (R.ofSeed s)
  obtain ⟨l2, g2⟩ := pickedBy_getElem (R := R) h.second.same h.second.total (askedFor ns) (R.ofSeed s)
  by_cases hlt : m < askedFor ns
  · obtain ⟨c1, g1⟩ := g1 m hlt
    obtain ⟨c2, g2⟩ := g2 m hlt
    rw [g1, g2, List.getElem?_eq_getElem c1, List.getElem?_eq_getElem c2] at hm
    obtain ⟨p1, p2⟩ := hf _ (List.getElem_mem c1) _ (List.getElem_mem c2) x (List.mem_of_getElem? hi) y
      (List.mem_of_getElem? hj) (Option.some.inj hm)
    rw [nodup_index hna hi ((List.getElem?_eq_getElem c1).trans (congrArg some p1)),
      nodup_index hnb hj ((List.getElem?_eq_getElem c2).trans (congrArg some p2))]
    have hd : ∀ g : R.G, 0 ≤ R.nthDraw m g ∧ R.nthDraw m g < 1 := by
      clear * -
      induction m with
      | zero => exact fun g => ⟨R.random_nonneg g, R.random_lt_one g⟩
      | succ m ih => exact fun g => ih _
    exact ⟨same_draw h.first.total h.second.total (hd _).1 (hd _).2, fun h => by rw [h]⟩
  · rw [List.getElem?_eq_none (by rw [l1]; omega)] at hm
    cases hm
end

/-! ### The numbers that the callback draws -/

section
variable {w : World R} {r a : Ref} {items : List Val} {ws : List K} {cb : Callback R.G} {f : Val → K → Val}

/-- The first `n` numbers of the generator `g`. -/
def numbersOf (R : Rng K) (n : Nat) (g : R.G) : List K := List.ofFn fun j : Fin n => R.nthDraw j g

theorem numbersOf_add (n m : Nat) (g : R.G) :
    numbersOf R (n + m) g = numbersOf R n g ++ numbersOf R m (R.past n g) := by
  unfold numbersOf
  rw [List.ofFn_add]
  congr 1
  refine congrArg List.ofFn (funext fun j => ?_)
  exact (nthDraw_past n j g).symm

theorem wrapOne_wrapper {w v : World R} (hs : World.Alike w v) {r : Ref} {s : Ref}
    (hn : (w.obj r).node = some (.wrapOne s)) : (v.obj r).wrapper = (w.obj r).wrapper := by
  have := congrArg Attrs.wrapper (hs r)
  unfold Attrs.shape at this
  rw [World.node_of_shape (hs r), hn] at this
  exact this

theorem DrawWrap.congr (h : DrawWrap w r a items ws cb f) {v : World R} (ha : World.Alike w v) :
    DrawWrap v r a items ws cb f := by
  obtain ⟨k, hk⟩ := h.source.node
  exact ⟨(World.node_of_shape (ha r)).trans h.node, (wrapOne_wrapper ha h.node).trans h.wrapper,
    h.source.congr (ha a), (World.alike_of_shape (ha a).symm hk).roac.symm.trans h.roac, h.rng, h.makes⟩

theorem DrawWrap.ne (h : DrawWrap w r a items ws cb f) : r ≠ a := by
  obtain ⟨k, hk⟩ := h.source.node
  rintro rfl
  rw [h.node] at hk
  cases hk

/-- The store after the source and the callback have drawn `n` numbers each. -/
def World.ownPast (w : World R) (r a : Ref) (n : Nat) : World R :=
  (rngAttr r).set (R.past n (w.obj r).rng) (w.withGen a (R.past n (w.obj a).choice.rng))

theorem ownPast_obj (h : r ≠ a) (n : Nat) :
    ((w.ownPast r a n).obj r).rng = R.past n (w.obj r).rng ∧
      ((w.ownPast r a n).obj a).choice.rng = R.past n (w.obj a).choice.rng := by
  constructor
  · exact (rngAttr r).get_set _ _
  · have e : (w.ownPast r a n).obj a = (w.withGen a (R.past n (w.obj a).choice.rng)).obj a :=
      if_neg (Ne.symm h)
    rw [e, withGen_obj, if_pos rfl]

theorem runs_numbers (h : DrawWrap w r a items ws cb f) (xs : List Val) : (∀ x ∈ xs, x ∈ items) → ∀ g : R.G,
    Runs (fun p : List Val × Dict Val => cb.invokeRng p.1 p.2) (xs.map fun v => ([v], [])) g
      (List.zipWith f xs (numbersOf R xs.length g)) (R.past xs.length g) := by
  induction xs with
  | nil => intro _ g; exact .nil g
  | cons x xs ih =>
    intro hx g
    rw [List.length_cons, Nat.add_comm, numbersOf_add]
    rw [← past_add]
    exact .cons (h.makes x (hx x (by simp)) g) (ih (fun y hy => hx y (List.mem_cons_of_mem _ hy)) _)

theorem own_single (str : Val → List Char) (h : DrawWrap w r a items ws cb f) (fuel : Nat) :
    ∃ v, World.call str (fuel + 2) r none w = (.ok v, w.ownPast r a 1) ∧
      List.zipWith f (pickedBy (R := R) items ws 1 (w.obj a).choice.rng)
        (numbersOf R 1 (w.obj r).rng) = [v] := by
  obtain ⟨x, hx, h1⟩ := picks_single h.source str fuel
  have mx : x ∈ items := pickedBy_mem (by rw [hx]; simp)
  have hr := runs_numbers h [x] (by simpa using mx) (w.obj r).rng
  refine ⟨f x (R.nthDraw 0 (w.obj r).rng), (C37_store_one str (fuel + 1) h.node h.wrapper _ _).2
    ⟨x, _, h1, fun _ => ⟨R.past 1 (w.obj r).rng, ?_, rfl⟩, fun hn => absurd h.rng hn⟩, by rw [hx]; rfl⟩
  have e : (rngAttr r).get (w.withGen a (R.past 1 (w.obj a).choice.rng)) = (w.obj r).rng := by
    change ((w.withGen a (R.past 1 (w.obj a).choice.rng)).obj r).rng = _
    rw [withGen_obj, if_neg h.ne]
  rw [e]
  exact hr

theorem own_batch (str : Val → List Char) (h : DrawWrap w r a items ws cb f) (fuel n : Nat) :
    World.call str (fuel + 2) r (some (.int n)) w =
      (.ok (.list (List.zipWith f (pickedBy (R := R) items ws n (w.obj a).choice.rng)
        (numbersOf R n (w.obj r).rng))), w.ownPast r a n) := by
  obtain ⟨k, hk⟩ := h.source.node
  have h1 := picks_batch h.source h.roac str fuel n
  have l1 := (pickedBy_getElem (R := R) h.source.same h.source.total n (w.obj a).choice.rng).1
  have hr := runs_numbers h (pickedBy (R := R) items ws n (w.obj a).choice.rng)
    (fun _ => pickedBy_mem) (w.obj r).rng
  rw [l1] at hr
  refine (C37_store_many str (fuel + 1) h.node h.wrapper (by unfold Attrs.isField; rw [hk]) n _ _).2
    ⟨_, _, _, _, h1, rfl, ⟨fun _ => ⟨R.past n (w.obj r).rng, ?_, rfl⟩, fun hn => absurd h.rng hn⟩, rfl⟩
  have e : (rngAttr r).get (w.withGen a (R.past n (w.obj a).choice.rng)) = (w.obj r).rng := by
    change ((w.withGen a (R.past n (w.obj a).choice.rng)).obj r).rng = _
    rw [withGen_obj, if_neg h.ne]
  rw [e]
  exact hr

theorem DrawWrap.past (h : DrawWrap w r a items ws cb f) (n : Nat) :
    DrawWrap (w.ownPast r a n) r a items ws cb f :=
  h.congr (World.alike_after (fun _ => rfl) (own_batch (fun _ => []) h 0 n))

/-- **C117 (own numbers, values).** The values of a `WrapOne` of a choice, whose callback draws one
number per value, are made from what the draws of the source pick and from the numbers of the
generator of the wrapper, one after the other. -/
theorem C117_own_values (str : Val → List Char) (fuel : Nat) (ns : List (Option Nat)) : ∀ {w : World R}
    (_ : DrawWrap w r a items ws cb f),
    returned ns (World.outcomes str (fuel + 2) r (ns.map wantedArg) w) =
      List.zipWith f (pickedBy (R := R) items ws (askedFor ns) (w.obj a).choice.rng)
        (numbersOf R (askedFor ns) (w.obj r).rng) := by
  induction ns with
  | nil => intro w h; rfl
  | cons n ns ih =>
    intro w h
    have e : askedFor (n :: ns) = n.getD 1 + askedFor ns := rfl
    have ihp := ih (h.past (n.getD 1))
    obtain ⟨e1, e2⟩ := ownPast_obj (w := w) h.ne (n.getD 1)
    rw [e1, e2] at ihp
    rw [e, pickedBy_add, numbersOf_add, List.zipWith_append (by
      rw [(pickedBy_getElem (R := R) h.source.same h.source.total (n.getD 1) _).1]
      unfold numbersOf
      rw [List.length_ofFn]), ← ihp]
    rw [List.map_cons]
    cases n with
    | none =>
      obtain ⟨v, h1, h2⟩ := own_single str h fuel
      change returned _ ((World.call str (fuel + 2) r none w).1 ::
        World.outcomes str (fuel + 2) r (ns.map wantedArg) (World.call str (fuel + 2) r none w).2) = _
      rw [h1]
      change v :: _ = List.zipWith f (pickedBy (R := R) items ws 1 _) (numbersOf R 1 _) ++ _
      rw [h2]
      rfl
    | some n =>
      have h1 := own_batch str h fuel n
      change returned _ ((World.call str (fuel + 2) r (some (.int n)) w).1 ::
        World.outcomes str (fuel + 2) r (ns.map wantedArg)
          (World.call str (fuel + 2) r (some (.int n)) w).2) = _
      rw [h1]
      rfl

/-- **C117, violated (own numbers).** After `seed(s)` of the wrapper the number that the callback draws
for the `m`-th value is the one that has picked the item: it always lies in the share of that item. -/
theorem C117_own_violated (str : Val → List Char) (h : DrawWrap w r a items ws cb f) (s : Int) (fuel : Nat)
    (hok : (World.seed fuel r (some s) w).1 = .ok ()) (fuel' : Nat) (ns : List (Option Nat)) {m : Nat}
    (hm : m < askedFor ns) :
    ∃ i x u, items[i]? = some x ∧ (returned ns (World.outcomes str (fuel' + 2) r (ns.map wantedArg)
        (World.seed fuel r (some s) w).2))[m]? = some (f x u) ∧
      (ws.take i).sum / ws.sum ≤ u ∧ u < (ws.take (i + 1)).sum / ws.sum := by
  have hs := World.seed_shape fuel r (some s) w
  have hb : Below w r a := by
    refine .step (c := a) ?_ (.self a)
    unfold Attrs.children
    rw [h.node]
    simp [Node.childRefs]
  have hr := C53_seed fuel r (some s) w hok r (.self r)
  unfold Attrs.Seeded at hr
  rw [(World.node_of_shape (hs r)).trans h.node] at hr
  rw [C117_own_values str fuel' ns (h.congr hs), seeded_picks h.source hb hok, hr.2 s rfl,
    List.getElem?_zipWith]
  obtain ⟨c, g⟩ := (pickedBy_getElem (R := R) h.source.same h.source.total (askedFor ns) (R.ofSeed s)).2 m hm
  have hd : ∀ g : R.G, 0 ≤ R.nthDraw m g ∧ R.nthDraw m g < 1 := by
    clear * -
    induction m with
    | zero => exact fun g => ⟨R.random_nonneg g, R.random_lt_one g⟩
    | succ m ih => exact fun g => ih _
  have hn : (numbersOf R (askedFor ns) (R.ofSeed s))[m]? = some (R.nthDraw m (R.ofSeed s)) := by
    unfold numbersOf
    rw [List.getElem?_ofFn, dif_pos hm]
  have hne : ws ≠ [] := by
    have := h.source.total
    rintro rfl
    simp at this
  obtain ⟨_, a1, a2⟩ := choicesPick_spec ws hne h.source.total _ (hd (R.ofSeed s)).1 (hd (R.ofSeed s)).2
  rw [← div_le_iff₀ h.source.total] at a1
  rw [← lt_div_iff₀ h.source.total] at a2
  rw [g, hn, List.getElem?_eq_getElem c]
  exact ⟨_, _, _, List.getElem?_eq_getElem c, rfl, a1, a2⟩
end

/-! ### Independent generators -/

open MeasureTheory in
/-- **C117, partial.** If the states of the two sources are independent, the values of the wrapper have
the product of the probabilities that the weights give.  Missing: the seeds that `seed` sets are not
independent, but equal (see `C117_violated`). -/
theorem C117_probability_partial {R : Rng ℝ} [MeasurableSpace R.G] (μ ν : Measure R.G) [SFinite μ]
    [SFinite ν] (str : Val → List Char) {w : World R} {r a b : Ref} {ka kb : String} {items : List Val}
    {wa : List ℝ} {items' : List Val} {wb : List ℝ} {cb : Callback R.G} {f : Val → Val → Val}
    (h : PairWrap w r a b ka kb items wa items' wb cb f) (hf : TellsApart f items items')
    (hna : items.Nodup) (hnb : items'.Nodup) (hwa : ∀ x ∈ wa, 0 ≤ x) (hwb : ∀ x ∈ wb, 0 ≤ x)
    (fuel : Nat) (ns : List (Option Nat)) (hU : UniformDraws R μ (askedFor ns))
    (hV : UniformDraws R ν (askedFor ns)) (is : Fin (askedFor ns) → Fin items.length)
    (js : Fin (askedFor ns) → Fin items'.length) :
    (μ.prod ν) {xy | ∀ m : Fin (askedFor ns),
        (returned ns (World.outcomes str (fuel + 2) r (ns.map wantedArg)
          ((w.withGen a xy.1).withGen b xy.2)))[(m : Nat)]? = some (f items[is m] items'[js m])} =
      (∏ m, ENNReal.ofReal (wa.getD (is m) 0 / wa.sum)) *
        ∏ m, ENNReal.ofReal (wb.getD (js m) 0 / wb.sum) := by
  have hnem : ∀ {l : List ℝ}, 0 < l.sum → l ≠ [] := by
    rintro l hl rfl
    simp at hl
  rw [← picks_pattern μ hU (hnem h.first.total) hwa h.first.total (fun m => is m)
      (fun m => by rw [h.first.same]; exact (is m).2),
    ← picks_pattern ν hV (hnem h.second.total) hwb h.second.total (fun m => js m)
      (fun m => by rw [h.second.same]; exact (js m).2), ← Measure.prod_prod]
  congr 1
  ext ⟨x, y⟩
  simp only [Set.mem_ofPred_eq, Set.mem_prod]
  obtain ⟨k, hk⟩ := h.first.node
  obtain ⟨k', hk'⟩ := h.second.node
  have al : World.Alike w ((w.withGen a x).withGen b y) :=
    World.withGen_alike (World.withGen_alike (fun _ => rfl) hk x)
      (by rw [World.withGen_obj, if_neg (Ne.symm h.apart)]; exact hk') y
  have hw : (((w.withGen a x).withGen b y).obj r).wrapper = (w.obj r).wrapper := by
    rw [World.withGen_obj, if_neg h.ne.2, World.withGen_obj, if_neg h.ne.1]
  have hx : (((w.withGen a x).withGen b y).obj a).choice.rng = x := by
    rw [World.withGen_obj, if_neg h.apart, World.withGen_obj, if_pos rfl]
  have hy : (((w.withGen a x).withGen b y).obj b).choice.rng = y := by
    rw [World.withGen_obj, if_pos rfl]
  rw [C117_values str fuel ns (h.congr al hw), hx, hy, ← forall_and]
  refine forall_congr' fun m => ?_
  obtain ⟨c1, g1⟩ := (pickedBy_getElem (R := R) h.first.same h.first.total (askedFor ns) x).2 m m.2
  obtain ⟨c2, g2⟩ := (pickedBy_getElem (R := R) h.second.same h.second.total (askedFor ns) y).2 m m.2
  rw [List.getElem?_zipWith, g1, g2, List.getElem?_eq_getElem c1, List.getElem?_eq_getElem c2]
  constructor
  · intro hm
    obtain ⟨p1, p2⟩ := hf _ (List.getElem_mem c1) _ (List.getElem_mem c2) _ (List.getElem_mem (is m).2) _
      (List.getElem_mem (js m).2) (Option.some.inj hm)
    exact ⟨(hna.getElem_inj_iff).1 p1, (hnb.getElem_inj_iff).1 p2⟩
  · rintro ⟨p1, p2⟩
    simp only [p1, p2]
    rfl

/-! ### Examples -/

section
variable {K : Type} [Field K] [LinearOrder K] [FloorRing K]

/-- `lambda first, last: f'{first} {last}'` -/
def fullName (G : Type) : Callback G where
  sig := some [⟨"first", .posOrKw, false⟩, ⟨"last", .posOrKw, false⟩]
  run
    | [], [(_, .str x), (_, .str y)] => .ok (.str (x ++ ' ' :: y))
    | _, _ => .error .typeError
  runRng _ _ := PyM.raise .typeError

/-- `WrapMany({'first': Choice(['Ann', 'Bob'], weights=[1, 1]), 'last': Choice(['Lee', 'Roe'],
weights=[1, 1])}, lambda first, last: f'{first} {last}')` (2). -/
def nameWorld (R : Rng K) : World R where
  obj
    | 0 => coin R [.str ['A', 'n', 'n'], .str ['B', 'o', 'b']] [1, 1]
    | 1 => coin R [.str ['L', 'e', 'e'], .str ['R', 'o', 'e']] [1, 1]
    | 2 => { World.blank with
        node := some (.wrapMany [("first", 0), ("last", 1)])
        wrapper := some (fullName R.G), seed := some 0, rng := R.ofSeed 0 }
    | _ => World.blank
  next := 3
  entropy := 0

/-- What the callback makes. -/
def joinNames : Val → Val → Val
  | .str x, .str y => .str (x ++ ' ' :: y)
  | _, _ => .none

/-- `lambda drink, rng: drink + ('!' if rng.random() < 0.5 else '?')` -/
def shouted (R : Rng K) : Callback R.G where
  sig := some [⟨"drink", .posOrKw, false⟩, ⟨"rng", .posOrKw, false⟩]
  run _ _ := .error .typeError
  runRng
    | [.str x], [] => fun g => (.ok (.str (x ++ [if (R.random g).1 < 1 / 2 then '!' else '?'])), (R.random g).2)
    | _, _ => PyM.raise .typeError

/-- What the callback makes. -/
def shout : Val → K → Val
  | .str x, u => .str (x ++ [if u < 1 / 2 then '!' else '?'])
  | _, _ => .none

/-- `WrapOne(Choice(['tea', 'milk'], weights=[1, 1]), lambda drink, rng: …)` (1). -/
def drinkWorld (R : Rng K) : World R where
  obj
    | 0 => coin R [.str ['t', 'e', 'a'], .str ['m', 'i', 'l', 'k']] [1, 1]
    | 1 => { World.blank with
        node := some (.wrapOne 0), wrapper := some (shouted R), seed := some 0, rng := R.ofSeed 0 }
    | _ => World.blank
  next := 2
  entropy := 0

variable [IsStrictOrderedRing K] {R : Rng K}

theorem name_pair : PairWrap (nameWorld R) 2 0 1 "first" "last"
    [.str ['A', 'n', 'n'], .str ['B', 'o', 'b']] [1, 1] [.str ['L', 'e', 'e'], .str ['R', 'o', 'e']] [1, 1]
    (fullName R.G) joinNames where
  node := rfl
  wrapper := rfl
  apart := by decide
  labels := by decide
  first := ⟨⟨_, rfl⟩, rfl, rfl, rfl, rfl, rfl, by decide, by norm_num⟩
  second := ⟨⟨_, rfl⟩, rfl, rfl, rfl, rfl, rfl, by decide, by norm_num⟩
  roac := ⟨rfl, rfl⟩
  noRng := by
    rintro ⟨ps, hps, p, hp, hn⟩
    cases hps
    simp only [List.mem_cons, List.not_mem_nil, or_false] at hp
    rcases hp with rfl | rfl <;> exact absurd hn (by decide)
  makes x hx y hy := by
    simp only [List.mem_cons, List.not_mem_nil, or_false] at hx hy
    rcases hx with rfl | rfl <;> rcases hy with rfl | rfl <;> rfl

theorem names_apart : TellsApart joinNames [.str ['A', 'n', 'n'], .str ['B', 'o', 'b']]
    [.str ['L', 'e', 'e'], .str ['R', 'o', 'e']] := by
  unfold TellsApart
  decide

theorem drink_wrap : DrawWrap (drinkWorld R) 1 0 [.str ['t', 'e', 'a'], .str ['m', 'i', 'l', 'k']] [1, 1]
    (shouted R) shout where
  node := rfl
  wrapper := rfl
  source := ⟨⟨_, rfl⟩, rfl, rfl, rfl, rfl, rfl, by decide, by norm_num⟩
  roac := rfl
  rng := ⟨_, rfl, ⟨"rng", .posOrKw, false⟩, by simp, rfl⟩
  makes x hx g := by
    simp only [List.mem_cons, List.not_mem_nil, or_false] at hx
    rcases hx with rfl | rfl <;> rfl
end

/-- Whatever the seed and the calls, nobody is called Ann Roe. -/
example (s : Int) (hok : (World.seed 3 2 (some s) (nameWorld demoRng)).1 = .ok ()) (ns : List (Option Nat)) :
    Val.str ['A', 'n', 'n', ' ', 'R', 'o', 'e'] ∉
      returned ns (World.outcomes demoStr 2 2 (ns.map wantedArg) (World.seed 3 2 (some s) (nameWorld demoRng)).2) := by
  intro h
  obtain ⟨m, h0, hm⟩ := List.getElem_of_mem h
  have := (C117_violated demoStr name_pair names_apart (by decide) (by decide) s 3 hok 0 ns (m := m) (i := 0)
    (j := 1) rfl rfl ((List.getElem?_eq_getElem h0).trans (congrArg some hm))).2 rfl
  cases this

example : (World.seed 3 2 (some 0) (nameWorld demoRng)).1 = .ok () := by decide +kernel

/-- Whatever the seed and the calls, tea always has an exclamation mark. -/
example (s : Int) (hok : (World.seed 3 1 (some s) (drinkWorld demoRng)).1 = .ok ()) (ns : List (Option Nat))
    (m : Nat) (hm : m < askedFor ns) :
    (returned ns (World.outcomes demoStr 2 1 (ns.map wantedArg)
      (World.seed 3 1 (some s) (drinkWorld demoRng)).2))[m]? ≠ some (.str ['t', 'e', 'a', '?']) := by
  obtain ⟨i, x, u, hi, hv, h1, h2⟩ := C117_own_violated demoStr drink_wrap s 3 hok 0 ns hm
  rw [hv]
  match i, hi with
  | 0, hi =>
    cases hi
    have : u < 2⁻¹ := lt_of_lt_of_le h2 (by norm_num)
    simp [shout, this]
  | 1, hi =>
    cases hi
    simp [shout]
  | n + 2, hi => cases hi

example : (World.seed 3 1 (some 0) (drinkWorld demoRng)).1 = .ok () := by decide +kernel

/-- With independent generators three names in two calls are Ann Roe with probability 1/64. -/
example : (replayMeasure.prod replayMeasure) {xy | ∀ m : Fin (askedFor [none, some 2]),
      (returned [none, some 2] (World.outcomes demoStr 2 2 ([none, some 2].map wantedArg)
        (((nameWorld replayRng).withGen 0 xy.1).withGen 1 xy.2)))[(m : Nat)]? =
          some (.str ['A', 'n', 'n', ' ', 'R', 'o', 'e'])} =
    (∏ _m : Fin 3, ENNReal.ofReal (1 / 2)) * ∏ _m : Fin 3, ENNReal.ofReal (1 / 2) := by
  have := C117_probability_partial replayMeasure replayMeasure demoStr name_pair names_apart (by decide)
    (by decide) (by norm_num) (by norm_num) 0 [none, some 2] (replayRng_uniform _) (replayRng_uniform _)
    (fun _ => ⟨0, by decide⟩) (fun _ => ⟨1, by decide⟩)
  have h2 : (1 : ℝ) / (1 + 1) = 1 / 2 := by norm_num
  refine Eq.trans ?_ (this.trans ?_)
  · rfl
  · change (∏ m : Fin 3, _) * (∏ m : Fin 3, _) = _
    simp [h2]

end Fauxdoc
