import Verif.Proofs.Batch3
/-
Batches in the store: the wrapper emitters and the emitters that read fields; the induction over the
emitter graph.
-/
set_option linter.unusedSectionVars false
namespace Fauxdoc
open PyM World
variable {K : Type} [Field K] [LinearOrder K] [FloorRing K] {R : Rng K}

namespace World
variable {V : Ref → Val → Prop} (str : Val → List Char)

theorem like_call {w0 w w' : World R} {fuel : Nat} {x : Ref} {arg : Option Val} {v : Except Err Val}
    (hw : Like w0 w) (h : call str fuel x arg w = (v, w')) : Like w0 w' := by
  have := hw.call str fuel x arg
  rwa [h] at this

/-- The generator of an object is of no concern to the types. -/
theorem typed_setRng [IsStrictOrderedRing K] (r : Ref) (g : R.G) {w : World R} (h : AllTyped V w) :
    AllTyped V ((rngAttr r).set g w) := by
  rw [allTyped_iff] at h ⊢
  intro x
  have hx := h x
  by_cases hxr : x = r
  · subst hxr
    have e : ((rngAttr x).set g w).obj x = { w.obj x with rng := g } := if_pos rfl
    rw [e]
    exact hx
  · have e : ((rngAttr r).set g w).obj x = w.obj x := if_neg hxr
    rw [e]
    exact hx

theorem typed_callback [IsStrictOrderedRing K] {r : Ref} {cb : Callback R.G} {as : List (List Val × Dict Val)}
    {w w' : World R} {xs : List Val}
    (hr : Runs (fun a => cb.call (rngAttr r) a.1 a.2) as w xs w') (ht : AllTyped V w) :
    AllTyped V w' := by
  induction as generalizing w xs with
  | nil => cases hr; exact ht
  | cons a as ih =>
    cases hr with
    | cons h1 h2 =>
      refine ih h2 ?_
      unfold Callback.call at h1
      by_cases hs : "self" ∈ a.2.keys
      · rw [if_pos hs] at h1; cases h1
      · rw [if_neg hs] at h1
        by_cases hq : cb.wantsRng = true
        · rw [if_pos hq, Attr.run_ok] at h1
          obtain ⟨g, _, rfl⟩ := h1
          exact typed_setRng r g ht
        · rw [if_neg hq, lift_apply, Prod.mk.injEq] at h1
          exact h1.2 ▸ ht

/-- Applying the callback concerns nothing but the wrapper emitter itself. -/
theorem acts_apply {w0 : World R} (r : Ref) (cb : Callback R.G) (as : List (List Val × Dict Val)) :
    Acts w0 (· = r) (· = r) (mapPyM (fun a => cb.call (rngAttr r) a.1 a.2) as) :=
  Acts.mapPyM (fun _ h => h) as fun a _ => Acts.callback r cb a.1 a.2

theorem like_apply {w0 u y : World R} {r : Ref} {cb : Callback R.G} {as : List (List Val × Dict Val)}
    {xs : Except Err (List Val)} (hu : Like w0 u)
    (h : mapPyM (fun a => cb.call (rngAttr r) a.1 a.2) as u = (xs, y)) : Like w0 y := by
  have := (acts_apply (w0 := w0) r cb as).like u hu
  rwa [h] at this

/-! ### `WrapOne` -/

section
variable [IsStrictOrderedRing K]

theorem splits_wrapOne {w0 w : World R} (hw : Like w0 w) (ht : AllTyped V w) {fuel : Nat} {r s : Ref}
    (hn : (w0.obj r).node = some (.wrapOne s)) (hs : Batchable V w0 s) (hr : ¬ Needs w0 s r)
    (ih : ∀ w, Like w0 w → AllTyped V w → SplitsAt (call str fuel s) w) :
    SplitsAt (call str (fuel + 1) r) w := by
  rcases hcb : (w0.obj r).wrapper with _ | cb
  · have hno : ∀ {w : World R} {n : Nat} {v : Val} {w' : World R}, Like w0 w →
        call str (fuel + 1) r (some (.int n)) w ≠ (.ok v, w') := by
      intro w n v w' hw h
      unfold call at h
      rw [run_get_bind, (hw.node r).trans hn] at h
      dsimp only at h
      rw [(hw.wrapper r).trans hcb] at h
      cases h
    intro a b l w2
    constructor
    · intro h; exact absurd h (hno hw)
    · rintro ⟨la, lb, w1, h, _⟩; exact absurd h (hno hw)
  have key : ∀ {w : World R}, Like w0 w → AllTyped V w → ∀ (n : Nat) (xs : List Val) (w' : World R),
      call str (fuel + 1) r (some (.int n)) w = (.ok (.list xs), w') ↔
      ∃ l w1, call str fuel s (some (.int n)) w = (.ok (.list l), w1) ∧
        mapPyM (fun a => cb.call (rngAttr r) a.1 a.2) (l.map fun v => ([v], [])) w1 = (.ok xs, w') := by
    intro w hw ht n xs w'
    rw [C37_store_many str fuel ((hw.node r).trans hn) ((hw.wrapper r).trans hcb) (hw.not_field hs)]
    constructor
    · rintro ⟨v, l, w1, xs', h1, h2, h3, h4⟩
      cases h4
      obtain ⟨⟨l', rfl, _, _⟩, _⟩ := many_ok str ht h1
      cases h2
      exact ⟨_, w1, h1, mapPyM_ok_iff.2 ((runs_call_iff (by simp [Dict.keys])).2 h3)⟩
    · rintro ⟨l, w1, h1, h2⟩
      exact ⟨_, l, w1, xs, h1, rfl, (runs_call_iff (by simp [Dict.keys])).1 (mapPyM_ok_iff.1 h2), rfl⟩
  have h12 : ∀ x, Needs w0 s x → ¬ x = r := fun x hx e => hr (e ▸ hx)
  have h21 : ∀ x, x = r → ¬ Below w0 s x := fun x e hx => hr (e ▸ hx.needs)
  intro a b xs w3
  rw [key hw ht]
  constructor
  · rintro ⟨l, w1, h1, h2⟩
    obtain ⟨la, lb, u1, g1, g2, rfl⟩ := (ih w hw ht a b _ _).1 h1
    rw [List.map_append, mapPyM_ok_iff, runs_append] at h2
    obtain ⟨xa, xb, u2, g3, g4, rfl⟩ := h2
    have hu1 := like_call str hw g1
    have htu := (many_ok str ht g1).2
    obtain ⟨y, g5, g6⟩ := (hs.acts str fuel _).swap (acts_apply r cb _) h12 h21 hu1 g2
      (mapPyM_ok_iff.2 g3)
    have hy : Like w0 y := like_apply hu1 g5
    have hty : AllTyped V y := typed_callback (mapPyM_ok_iff.1 g5) htu
    exact ⟨xa, xb, y, (key hw ht a _ _).2 ⟨la, u1, g1, g5⟩,
      (key hy hty b _ _).2 ⟨lb, u2, g6, mapPyM_ok_iff.2 g4⟩, rfl⟩
  · rintro ⟨xa, xb, y, h1, h2, rfl⟩
    obtain ⟨la, u1, g1, g5⟩ := (key hw ht a _ _).1 h1
    have hu1 := like_call str hw g1
    have htu := (many_ok str ht g1).2
    have hy : Like w0 y := like_apply hu1 g5
    have hty : AllTyped V y := typed_callback (mapPyM_ok_iff.1 g5) htu
    obtain ⟨lb, u2, g6, g4⟩ := (key hy hty b _ _).1 h2
    obtain ⟨w1, g2, g3⟩ := (acts_apply r cb _).swap (hs.acts str fuel _) h21 h12 hu1 g5 g6
    refine ⟨la ++ lb, w1, (ih w hw ht a b _ _).2 ⟨la, lb, u1, g1, g2, rfl⟩, ?_⟩
    rw [List.map_append, mapPyM_ok_iff, runs_append]
    exact ⟨xa, xb, u2, mapPyM_ok_iff.1 g3, mapPyM_ok_iff.1 g4, rfl⟩

/-! ### `WrapMany` -/

/-- Two parts of what each source was asked for, and the two together. -/
structure Part where
  label : String
  first : List Val
  second : List Val

theorem acts_draw {w0 : World R} {fuel : Nat} (ss : Dict Ref)
    (hs : ∀ ks ∈ ss, Batchable V w0 ks.2) (arg : Option Val) :
    Acts w0 (fun x => ∃ ks ∈ ss, Below w0 ks.2 x) (fun x => ∃ ks ∈ ss, Needs w0 ks.2 x)
      (WrapMany.draw (drawn str fuel ss) arg) := by
  unfold WrapMany.draw drawn
  have hsub : ∀ x, (∃ ks ∈ ss, Below w0 ks.2 x) → ∃ ks ∈ ss, Needs w0 ks.2 x :=
    fun x ⟨ks, h1, h2⟩ => ⟨ks, h1, h2.needs⟩
  refine Acts.mapPyM hsub _ fun a ha => ?_
  obtain ⟨ks, hks, rfl⟩ := List.mem_map.1 ha
  exact (((hs ks hks).acts str fuel arg).mono (fun x hx => ⟨ks, hks, hx⟩) (fun x hx => ⟨ks, hks, hx⟩)
    hsub).bind fun v => Acts.lift hsub (.ok (ks.1, v))

theorem called_typed {fuel : Nat} {ss : Dict Ref} {n : Nat} {w w' : World R} {vals : Dict Val}
    (h : Called (some (.int n)) (drawn str fuel ss) w vals w') (ht : AllTyped V w) : AllTyped V w' := by
  induction ss generalizing w vals with
  | nil => cases h; exact ht
  | cons ks ss ih =>
    cases h with
    | cons h1 h2 => exact ih h2 (many_ok str ht h1).2

theorem called_split {w0 : World R} {fuel : Nat} (a b : Nat) : ∀ (ss : Dict Ref),
    (∀ ks ∈ ss, Batchable V w0 ks.2) → (ss.Pairwise fun x y => Apart w0 x.2 y.2) →
    (∀ ks ∈ ss, ∀ w, Like w0 w → AllTyped V w → SplitsAt (call str fuel ks.2) w) →
    ∀ (w w2 : World R) (vals : Dict Val), Like w0 w → AllTyped V w →
    (Called (some (.int ((a + b : Nat) : Int))) (drawn str fuel ss) w vals w2 ↔
      ∃ (q : List Part) (w1 : World R),
        Called (some (.int (a : Int))) (drawn str fuel ss) w
          (q.map fun p => (p.label, .list p.first)) w1 ∧
        Called (some (.int (b : Int))) (drawn str fuel ss) w1
          (q.map fun p => (p.label, .list p.second)) w2 ∧
        vals = (q.map fun p => (p.label, .list (p.first ++ p.second))) ∧
        ∀ p ∈ q, p.first.length = a ∧ p.second.length = b) := by
  intro ss
  induction ss with
  | nil =>
    intro _ _ _ w w2 vals _ _
    constructor
    · intro h
      cases h
      exact ⟨[], w, .nil w, .nil w, rfl, by simp⟩
    · rintro ⟨q, w1, h1, h2, rfl, _⟩
      have : q = [] := by
        generalize hq : (q.map fun p => (p.label, Val.list p.first)) = q' at h1
        cases h1
        exact List.map_eq_nil_iff.1 hq
      subst this
      cases h1
      cases h2
      exact .nil _
  | cons ks ss ih =>
    intro hs hap hsp w w2 vals hw ht
    obtain ⟨k, s⟩ := ks
    rw [List.pairwise_cons] at hap
    have ihs := ih (fun x hx => hs x (by simp [hx])) hap.2 fun x hx => hsp x (by simp [hx])
    have hb : Batchable V w0 s := hs (k, s) (by simp)
    have hss : ∀ x ∈ ss, Batchable V w0 x.2 := fun x hx => hs x (by simp [hx])
    have h12 : ∀ x, Needs w0 s x → ¬ ∃ y ∈ ss, Below w0 y.2 x := fun x hx ⟨y, hy, h⟩ =>
      (hap.1 y hy).1 x hx h
    have h21 : ∀ x, (∃ y ∈ ss, Needs w0 y.2 x) → ¬ Below w0 s x := fun x ⟨y, hy, h⟩ hx =>
      (hap.1 y hy).2 x h hx
    have hd : ∀ (n : Nat) {u u' : World R} {vs : Dict Val}, Called (some (.int (n : Int)))
        (drawn str fuel ss) u vs u' ↔ WrapMany.draw (drawn str fuel ss) (some (.int (n : Int))) u =
          (.ok vs, u') := fun n => draw_ok_iff.symm
    constructor
    · intro h
      cases h with
      | @cons _ _ _ _ u _ v vs h1 h2 =>
        obtain ⟨⟨l, rfl, _, _⟩, htu⟩ := many_ok str ht h1
        have hu := like_call str hw h1
        obtain ⟨la, lb, x, g1, g2, rfl⟩ := (hsp (k, s) (by simp) w hw ht a b _ _).1 h1
        obtain ⟨⟨_, e, hla, _⟩, htx⟩ := many_ok str ht g1
        cases e
        obtain ⟨⟨_, e, hlb, _⟩, _⟩ := many_ok str htx g2
        cases e
        have hx := like_call str hw g1
        obtain ⟨q, y, g3, g4, rfl, g5⟩ := (ihs u w2 vs hu htu).1 h2
        obtain ⟨z, g6, g7⟩ := (hb.acts str fuel _).swap (acts_draw str ss hss _) h12 h21 hx g2
          ((hd a).1 g3)
        exact ⟨⟨k, la, lb⟩ :: q, z, .cons g1 ((hd a).2 g6), .cons g7 g4, rfl, by
          intro p hp
          rcases List.mem_cons.1 hp with rfl | hp
          · exact ⟨hla, hlb⟩
          · exact g5 p hp⟩
    · rintro ⟨q, z, h1, h2, rfl, h3⟩
      cases q with
      | nil => cases h1
      | cons p q =>
        obtain ⟨k', la, lb⟩ := p
        cases h1 with
        | @cons _ _ _ _ x _ v vs g1 g6 =>
          cases h2 with
          | @cons _ _ _ _ y _ v vs g7 g4 =>
            have hx := like_call str hw g1
            obtain ⟨u, g2, g3⟩ := (acts_draw str ss hss _).swap (hb.acts str fuel _) h21 h12 hx
              ((hd a).1 g6) g7
            have hc := (hsp (k, s) (by simp) w hw ht a b (la ++ lb) u).2 ⟨la, lb, x, g1, g2, rfl⟩
            have hu := like_call str hw hc
            have htu := (many_ok str ht hc).2
            exact .cons hc ((ihs u w2 _ hu htu).2 ⟨q, y, (hd a).2 g3, g4, rfl,
              fun p hp => h3 p (by simp [hp])⟩)

/-- Two draws have the same labels and return lists. -/
theorem called_parts {fuel : Nat} {ss : Dict Ref} {a b : Nat} {w w' u u' : World R} {va vb : Dict Val}
    (hw : AllTyped V w) (hu : AllTyped V u)
    (ha : Called (some (.int (a : Int))) (drawn str fuel ss) w va w')
    (hb : Called (some (.int (b : Int))) (drawn str fuel ss) u vb u') :
    ∃ q : List Part, va = (q.map fun p => (p.label, .list p.first)) ∧
      vb = (q.map fun p => (p.label, .list p.second)) ∧
      ∀ p ∈ q, p.first.length = a ∧ p.second.length = b := by
  induction ss generalizing w u va vb with
  | nil => cases ha; cases hb; exact ⟨[], rfl, rfl, by simp⟩
  | cons ks ss ih =>
    cases ha with
    | cons h1 h2 =>
      cases hb with
      | cons h3 h4 =>
        obtain ⟨⟨la, rfl, hla, _⟩, ht1⟩ := many_ok str hw h1
        obtain ⟨⟨lb, rfl, hlb, _⟩, ht2⟩ := many_ok str hu h3
        obtain ⟨q, rfl, rfl, hq⟩ := ih ht1 ht2 h2 h4
        exact ⟨⟨ks.1, la, lb⟩ :: q, rfl, rfl, by
          intro p hp
          rcases List.mem_cons.1 hp with rfl | hp
          · exact ⟨hla, hlb⟩
          · exact hq p hp⟩

theorem rowAt_parts {q : List Part} {a b : Nat}
    (hq : ∀ p ∈ q, p.first.length = a ∧ p.second.length = b) (i : Nat) (row : Dict Val) :
    (i < a → (RowAt (q.map fun p => (p.label, .list (p.first ++ p.second))) i row ↔
      RowAt (q.map fun p => (p.label, .list p.first)) i row)) ∧
    (RowAt (q.map fun p => (p.label, .list (p.first ++ p.second))) (a + i) row ↔
      RowAt (q.map fun p => (p.label, .list p.second)) i row) := by
  unfold RowAt
  induction q generalizing row with
  | nil => simp
  | cons p q ih =>
    obtain ⟨h1, h2⟩ := hq p (by simp)
    cases row with
    | nil => simp
    | cons kx row =>
      obtain ⟨ih1, ih2⟩ := ih (fun p hp => hq p (by simp [hp])) row
      simp only [List.map_cons, List.forall₂_cons]
      refine ⟨fun hi => and_congr (and_congr_right fun _ => ?_) (ih1 hi),
        and_congr (and_congr_right fun _ => ?_) ih2⟩
      · have e : ∀ l : List Val, (Val.list l).elems = .ok l := fun _ => rfl
        simp only [e, Except.ok.injEq, exists_eq_left']
        rw [List.getElem?_append_left (by omega)]
      · have e : ∀ l : List Val, (Val.list l).elems = .ok l := fun _ => rfl
        simp only [e, Except.ok.injEq, exists_eq_left']
        rw [List.getElem?_append_right (by omega), h1, Nat.add_sub_cancel_left]

theorem splits_wrapMany {w0 w : World R} (hw : Like w0 w) (ht : AllTyped V w) {fuel : Nat} {r : Ref}
    {ss : Dict Ref} (hn : (w0.obj r).node = some (.wrapMany ss)) (hself : "self" ∉ ss.keys)
    (hs : ∀ ks ∈ ss, Batchable V w0 ks.2) (hr : ∀ ks ∈ ss, ¬ Needs w0 ks.2 r)
    (hap : ss.Pairwise fun a b => Apart w0 a.2 b.2)
    (ih : ∀ ks ∈ ss, ∀ w, Like w0 w → AllTyped V w → SplitsAt (call str fuel ks.2) w) :
    SplitsAt (call str (fuel + 1) r) w := by
  rcases hcb : (w0.obj r).wrapper with _ | cb
  · have hno : ∀ {w : World R} {n : Nat} {v : Val} {w' : World R}, Like w0 w →
        call str (fuel + 1) r (some (.int n)) w ≠ (.ok v, w') := by
      intro w n v w' hw h
      unfold call at h
      rw [run_get_bind, (hw.node r).trans hn] at h
      dsimp only at h
      rw [(hw.wrapper r).trans hcb] at h
      cases h
    intro a b l w2
    constructor
    · intro h; exact absurd h (hno hw)
    · rintro ⟨la, lb, w1, h, _⟩; exact absurd h (hno hw)
  have hkeys : ∀ {arg : Option Val} {u u' : World R} {vals : Dict Val},
      Called arg (drawn str fuel ss) u vals u' → "self" ∉ vals.keys := by
    intro arg u u' vals h
    rw [h.keys]
    unfold drawn Dict.keys
    rw [List.map_map]
    exact hself
  have key : ∀ {w : World R}, Like w0 w → ∀ (n : Nat) (xs : List Val) (w' : World R),
      call str (fuel + 1) r (some (.int n)) w = (.ok (.list xs), w') ↔
      ∃ (vals : Dict Val) (w1 : World R) (rows : List (Dict Val)),
        Called (some (.int n)) (drawn str fuel ss) w vals w1 ∧ rows.length = n ∧
        (∀ i row, rows[i]? = some row → RowAt vals i row) ∧
        mapPyM (fun a => cb.call (rngAttr r) a.1 a.2) (rows.map fun row => ([], row)) w1 =
          (.ok xs, w') := by
    intro w hw n xs w'
    rw [C38_store_many str fuel ((hw.node r).trans hn) ((hw.wrapper r).trans hcb) hself
      fun ks hks => hw.not_field (hs ks hks)]
    refine exists_congr fun vals => exists_congr fun w1 => exists_congr fun rows => ?_
    have hA : ∀ xs, Called (some (.int n)) (drawn str fuel ss) w vals w1 →
        (∀ i row, rows[i]? = some row → RowAt vals i row) →
        (Applies (rngAttr r) cb (rows.map fun row => ([], row)) w1 xs w' ↔
        mapPyM (fun a => cb.call (rngAttr r) a.1 a.2) (rows.map fun row => ([], row)) w1 =
          (.ok xs, w')) := by
      intro xs hc hrow
      rw [mapPyM_ok_iff, runs_call_iff]
      intro x hx
      obtain ⟨row, hrw, rfl⟩ := List.mem_map.1 hx
      obtain ⟨i, hi⟩ := List.mem_iff_getElem?.1 hrw
      rw [show ((([] : List Val), row).2) = row from rfl, (hrow i row hi).keys]
      exact hkeys hc
    constructor
    · rintro ⟨xs', h1, h2, h3, h4, h5⟩
      cases h5
      exact ⟨h1, h2, h3, (hA _ h1 h3).1 h4⟩
    · rintro ⟨h1, h2, h3, h4⟩
      exact ⟨xs, h1, h2, h3, (hA _ h1 h3).2 h4, rfl⟩
  have h12 : ∀ x, (∃ y ∈ ss, Needs w0 y.2 x) → ¬ x = r := fun x ⟨y, hy, hx⟩ e => hr y hy (e ▸ hx)
  have h21 : ∀ x, x = r → ¬ ∃ y ∈ ss, Below w0 y.2 x := fun x e ⟨y, hy, hx⟩ => hr y hy (e ▸ hx.needs)
  have hlikeD : ∀ {n : Nat} {u u' : World R} {vs : Dict Val}, Like w0 u →
      Called (some (.int (n : Int))) (drawn str fuel ss) u vs u' → Like w0 u' := by
    intro n u u' vs hu h
    have := (acts_draw str (fuel := fuel) ss hs (some (.int (n : Int)))).like u hu
    rwa [draw_ok_iff.2 h] at this
  intro a b xs w3
  rw [key hw]
  constructor
  · rintro ⟨vals, w1, rows, h1, h2, h3, h4⟩
    obtain ⟨q, u1, g1, g2, rfl, hq⟩ := (called_split str a b ss hs hap ih w w1 vals hw ht).1 h1
    rw [← List.take_append_drop a rows, List.map_append, mapPyM_ok_iff, runs_append] at h4
    obtain ⟨xa, xb, u2, g3, g4, rfl⟩ := h4
    have hu1 := hlikeD hw g1
    have htu := called_typed str g1 ht
    obtain ⟨y, g5, g6⟩ := (acts_draw str ss hs _).swap (acts_apply r cb _) h12 h21 hu1
      (draw_ok_iff.2 g2) (mapPyM_ok_iff.2 g3)
    have hy : Like w0 y := like_apply hu1 g5
    refine ⟨xa, xb, y, (key hw a _ _).2 ⟨_, u1, rows.take a, g1, by rw [List.length_take]; omega, ?_, g5⟩,
      (key hy b _ _).2 ⟨_, u2, rows.drop a, draw_ok_iff.1 g6, by rw [List.length_drop]; omega, ?_,
        mapPyM_ok_iff.2 g4⟩, rfl⟩
    · intro i row hi
      have hia : i < a := by
        by_contra hc
        rw [List.getElem?_eq_none (by rw [List.length_take]; omega)] at hi
        cases hi
      rw [List.getElem?_take_of_lt hia] at hi
      exact ((rowAt_parts hq i row).1 hia).1 (h3 i row hi)
    · intro i row hi
      rw [List.getElem?_drop] at hi
      exact (rowAt_parts hq i row).2.1 (h3 (a + i) row hi)
  · rintro ⟨xa, xb, y, h1, h2, rfl⟩
    obtain ⟨va, u1, ra, g1, hra, hrowa, g5⟩ := (key hw a _ _).1 h1
    have hu1 := hlikeD hw g1
    have htu := called_typed str g1 ht
    have hy : Like w0 y := like_apply hu1 g5
    obtain ⟨vb, u2, rb, g6, hrb, hrowb, g4⟩ := (key hy b _ _).1 h2
    obtain ⟨w1, g2, g3⟩ := (acts_apply r cb _).swap (acts_draw str ss hs _) h21 h12 hu1 g5
      (draw_ok_iff.2 g6)
    have g2' := draw_ok_iff.1 g2
    -- the two draws have the same labels and return lists
    obtain ⟨q, rfl, rfl, hq⟩ : ∃ q : List Part, va = (q.map fun p => (p.label, .list p.first)) ∧
        vb = (q.map fun p => (p.label, .list p.second)) ∧
        ∀ p ∈ q, p.first.length = a ∧ p.second.length = b := called_parts str ht htu g1 g2'
    have hc := (called_split str a b ss hs hap ih w w1 _ hw ht).2 ⟨q, u1, g1, g2', rfl, hq⟩
    refine ⟨_, w1, ra ++ rb, hc, by simp [hra, hrb], ?_, ?_⟩
    · intro i row hi
      by_cases hia : i < a
      · rw [List.getElem?_append_left (by omega)] at hi
        exact ((rowAt_parts hq i row).1 hia).2 (hrowa i row hi)
      · rw [List.getElem?_append_right (by omega), hra] at hi
        have := (rowAt_parts hq (i - a) row).2.2 (hrowb _ row hi)
        rwa [show a + (i - a) = i by omega] at this
    · rw [List.map_append, mapPyM_ok_iff, runs_append]
      exact ⟨xa, xb, u2, mapPyM_ok_iff.1 g3, mapPyM_ok_iff.1 g4, rfl⟩

/-! ### Emitters that read fields -/

/-- The outcome `x`, repeated `n` times. -/
def copies (x : Except Err Val) (n : Nat) (w : World R) : Except Err Val × World R :=
  match x with
  | .ok v => (.ok (.list (List.replicate n v)), w)
  | .error e => (.error e, w)

theorem splits_const {c : Child (World R)} {w : World R} {x : Except Err Val}
    (h : ∀ n : Nat, c (some (.int n)) w = copies x n w) : SplitsAt c w := by
  intro a b l w2
  cases x with
  | error e =>
    unfold copies at h
    dsimp only at h
    constructor
    · intro hc; rw [h] at hc; cases hc
    · rintro ⟨la, lb, w1, hc, _⟩; rw [h] at hc; cases hc
  | ok v =>
    unfold copies at h
    dsimp only at h
    rw [h]
    constructor
    · intro hc
      cases hc
      exact ⟨_, _, w, h a, h b, List.replicate_add ..⟩
    · rintro ⟨la, lb, w1, h1, h2, rfl⟩
      rw [h] at h1
      cases h1
      rw [h] at h2
      cases h2
      rw [List.replicate_add]

theorem repeated {b : Val → PyM (World R) Val} {e : PyM (World R) Val} {w : World R}
    {x : Except Err Val} (he : e w = (x, w)) (n : Nat) :
    emitterCallOr b e (fun n => do
        let v ← e
        return List.replicate n.toNat v) (some (.int n)) w = copies x n w := by
  change (if (n : Int) = 1 then (do return Val.list [← e])
    else (do return Val.list (← (do
        let v ← e
        return List.replicate (n : Int).toNat v))) : PyM _ Val) w = _
  by_cases h1 : (n : Int) = 1
  · obtain rfl : n = 1 := by omega
    rw [if_pos h1, bind_apply, he]
    cases x <;> rfl
  · rw [if_neg h1, bind_apply, bind_apply, he, Int.toNat_natCast]
    cases x <;> rfl

theorem splits_copyFields {w : World R} {fuel : Nat} {r : Ref} {src : List Ref} {single : Bool}
    {sep : Option (List Char)} (hn : (w.obj r).node = some (.copyFields src single sep)) :
    SplitsAt (call str (fuel + 1) r) w := by
  have he : ∃ x, CopyFields.emit str (group str fuel w src single) sep w = (x, w) := by
    unfold CopyFields.emit
    rw [run_get_bind]
    by_cases hs : (group str fuel w src single).singleValued w = true
    · rw [if_pos hs]
      rcases (group str fuel w src single).fields with _ | ⟨f, fs⟩
      · exact ⟨_, rfl⟩
      · exact ⟨_, rfl⟩
    · rw [if_neg hs]
      cases sep with
      | none =>
        dsimp only
        by_cases hv : (CopyFields.collect w [] (group str fuel w src single).fields).isEmpty = true
        · rw [if_pos hv]; exact ⟨_, rfl⟩
        · rw [if_neg hv]; exact ⟨_, rfl⟩
      | some sp => exact ⟨_, rfl⟩
  obtain ⟨x, he⟩ := he
  refine splits_const (x := x) fun n => ?_
  rw [call_copyFields str fuel _ hn]
  exact repeated he n

theorem splits_basedOn {w : World R} {fuel : Nat} {r : Ref} {src : List Ref} {single : Bool}
    (hn : (w.obj r).node = some (.basedOn src single))
    (hcb : ∀ cb, (w.obj r).wrapper = some cb → ¬ cb.DeclaresRng) :
    SplitsAt (call str (fuel + 1) r) w := by
  rcases hw : (w.obj r).wrapper with _ | cb
  · refine splits_const (x := .error .attributeError) fun n => ?_
    unfold call
    rw [run_get_bind, hn]
    dsimp only
    rw [hw]; rfl
  · have hc : ∀ args kwargs, ∃ x, cb.call (rngAttr r) args kwargs w = (x, w) := by
      intro args kwargs
      unfold Callback.call
      by_cases h1 : "self" ∈ kwargs.keys
      · rw [if_pos h1]; exact ⟨_, rfl⟩
      · rw [if_neg h1, if_neg (fun h => hcb cb hw (cb.wantsRng_iff.1 h))]; exact ⟨_, rfl⟩
    have he : ∃ x, BasedOnFields.emit (rngAttr r) (group str fuel w src single) cb w = (x, w) := by
      unfold BasedOnFields.emit
      rw [run_get_bind]
      rcases (group str fuel w src single).fields with _ | ⟨f, _ | ⟨f2, fs⟩⟩
      · exact hc _ _
      · exact hc _ _
      · exact hc _ _
    obtain ⟨x, he⟩ := he
    refine splits_const (x := x) fun n => ?_
    rw [call_basedOn str fuel _ hn hw]
    exact repeated he n

/-! ### All emitters -/

/-- A call for `a + b` values does what a call for `a` and then a call for `b` values do. -/
theorem splits {w0 : World R} {r : Ref} (h : Batchable V w0 r) : ∀ (fuel : Nat) (w : World R),
    Like w0 w → AllTyped V w → SplitsAt (call str fuel r) w := by
  intro fuel
  induction fuel generalizing r with
  | zero =>
    intro w _ _ a b l w2
    constructor
    · intro hc; cases hc
    · rintro ⟨_, _, _, hc, _⟩; cases hc
  | succ fuel ih =>
    intro w hw ht
    cases h with
    | static hn => exact splits_static str fuel ((hw.node r).trans hn)
    | iterative hn hr => exact splits_iterative str fuel ((hw.node r).trans hn) ((hw.iter r).trans hr)
    | sequential hn hr => exact splits_sequential str fuel ((hw.node r).trans hn) ((hw.seq r).trans hr)
    | choice hn hc =>
      refine splits_choice str fuel ((hw.node r).trans hn) ?_ ht
      unfold ChoiceSt.Batchable at hc ⊢
      rw [hw.roac, hw.replace, hw.weights, hw.items]
      exact hc
    | word hn hl hc hlc hlen hchar =>
      exact splits_word str hw ht hn hl hc hlc hlen hchar (ih hl) (ih hc)
    | text hn hcnt hwd hs hnw hns hws hpos hword hsep =>
      exact splits_text str hw ht hn hcnt hwd hs hnw hns hws hpos hword hsep (ih hcnt) (ih hwd) (ih hs)
    | wrapOne hn hs hr => exact splits_wrapOne str hw ht hn hs hr (ih hs)
    | wrapMany hn hself hs hr hap =>
      exact splits_wrapMany str hw ht hn hself hs hr hap fun ks hks => ih (hs ks hks)
    | copyFields hn => exact splits_copyFields str ((hw.node r).trans hn)
    | basedOn hn hcb =>
      exact splits_basedOn str ((hw.node r).trans hn) fun cb h => hcb cb ((hw.wrapper r).symm.trans h)

end

end World
end Fauxdoc
