import Verif.Props.Seeds3
/-
C106: what seeding leaves alone, and when two stores are the same after `seed` or `reset`.
-/
set_option linter.unusedSectionVars false
namespace Fauxdoc
open PyM
variable {K : Type} [Field K] [LinearOrder K] [FloorRing K] {R : Rng K}

namespace World

/-- Iterators, their positions and the last value are the same. -/
def Idle (a b : Attrs R) : Prop := a.iter = b.iter ∧ a.seq = b.seq ∧ a.cache = b.cache

theorem Idle.refl (a : Attrs R) : Idle a a := ⟨rfl, rfl, rfl⟩
theorem Idle.symm {a b : Attrs R} (h : Idle a b) : Idle b a := ⟨h.1.symm, h.2.1.symm, h.2.2.symm⟩
theorem Idle.trans {a b c : Attrs R} (h : Idle a b) (h' : Idle b c) : Idle a c :=
  ⟨h.1.trans h'.1, h.2.1.trans h'.2.1, h.2.2.trans h'.2.2⟩

theorem Idle.position {a b : Attrs R} (h : Idle a b) (hn : a.node = b.node) :
    a.position = b.position := by
  unfold Attrs.position
  rw [hn, h.1, h.2.1]

theorem Idle.sameProgress {a b : Attrs R} (h : Idle a b) : SameProgress a b := by
  unfold SameProgress
  rw [h.1, h.2.1, h.2.2]
  split <;> trivial

theorem Idle.rewound {a b : Attrs R} {z : Int} (h : Idle a b) (hs : a.shape = b.shape)
    (ha : a.Rewound) (ha' : a.Seeded (some z)) (hb : b.Seeded (some z)) : b.Rewound := by
  rw [← seeded_ext ha' hb h.sameProgress hs]
  exact ha

/-- All objects are idle since the store was `w0`. -/
def AllIdle (w0 w : World R) : Prop := ∀ x, Idle (w0.obj x) (w.obj x)

theorem AllIdle.upd {w0 w : World R} (h : AllIdle w0 w) (r : Ref) {f : Attrs R → Attrs R}
    (hf : Idle (w.obj r) (f (w.obj r))) (e : Nat) :
    AllIdle w0 { w.upd r f with entropy := e } := by
  intro x
  change Idle _ ((w.upd r f).obj x)
  rw [upd_obj]
  by_cases hx : x = r
  · subst hx; rw [if_pos rfl]; exact (h x).trans hf
  · rw [if_neg hx]; exact h x

theorem idle_setSeed (s : Option Int) (a : Attrs R) : Idle a (a.setSeed s) := by
  unfold Attrs.setSeed
  split <;> exact ⟨rfl, rfl, rfl⟩

theorem mixinSeed_idle (w0 : World R) (r : Ref) (s : Option Int) :
    Keeps (AllIdle w0) (mixinSeed r s) := by
  intro w hw
  unfold mixinSeed
  rw [PyM.run_modify_bind]
  obtain ⟨g, e, h1, _⟩ := newRng_eq r s (w.upd r fun a => { a with seed := s })
  rw [h1]
  exact (hw.upd r (f := fun a => { a with seed := s }) ⟨rfl, rfl, rfl⟩ w.entropy).upd r
    (f := fun a => { a with rng := g }) ⟨rfl, rfl, rfl⟩ e

theorem doMethod_idle (w0 : World R) (l : List Ref) {f : Ref → PyM (World R) Unit}
    (hf : ∀ c, Keeps (AllIdle w0) (f c)) : Keeps (AllIdle w0) (Group.doMethod (l.map some) f) :=
  (Group.doMethod_rel fun c _ => (hf c).rel).keeps

theorem mixinChildSeed_idle (w0 : World R) {f : Ref → Option Int → PyM (World R) Unit}
    (hf : ∀ c s, Keeps (AllIdle w0) (f c s)) (r : Ref) (s : Option Int) :
    Keeps (AllIdle w0) (mixinChildSeed f r s) := by
  intro w hw
  unfold mixinChildSeed
  rw [PyM.run_get_bind, PyM.bind_apply]
  have h1 := doMethod_idle w0 (w.obj r).children (hf · s) w hw
  rcases hd : Group.doMethod ((w.obj r).children.map some) (f · s) w with ⟨e | u, w1⟩
  · rw [hd] at h1; exact h1
  · rw [hd] at h1
    dsimp only
    have h2 := mixinSeed_idle w0 r s w1 h1
    unfold PyM.ignoring
    rcases hm : mixinSeed r s w1 with ⟨e | u, w2⟩
    · rw [hm] at h2
      dsimp only
      split <;> exact h2
    · rw [hm] at h2; exact h2

/-- `seed` leaves positions and last values alone. -/
theorem seed_idle' (w0 : World R) (fuel : Nat) (r : Ref) (s : Option Int) :
    Keeps (AllIdle w0) (seed fuel r s) := by
  induction fuel generalizing r s with
  | zero => intro w hw; exact hw
  | succ fuel ih =>
    intro w hw
    unfold seed
    rw [PyM.run_get_bind]
    have mix := mixinChildSeed_idle w0 (f := seed fuel) (fun c s => ih c s) r s w hw
    have twice : AllIdle w0 (((do
          mixinChildSeed (seed fuel) r s
          let a := (← PyM.get).obj r
          Group.doMethod (a.children.map some) (seed fuel · a.seed)) : PyM (World R) Unit) w).2 := by
      rw [PyM.bind_apply]
      rcases hm : mixinChildSeed (seed fuel) r s w with ⟨e | u, w1⟩
      · rw [hm] at mix; exact mix
      · rw [hm] at mix
        dsimp only
        rw [PyM.run_get_bind]
        exact doMethod_idle w0 _ (fun c => ih c _) w1 mix
    dsimp only
    rcases hn : (w.obj r).node with _ | node
    · exact hw
    · cases node with
      | choice k =>
        dsimp only
        exact hw.upd r (f := fun a => { a with
          choice := (Choice.seed s ((w.obj r).choice, w.entropy)).2.1 }) ⟨rfl, rfl, rfl⟩ _
      | static => exact hw
      | iterative => exact hw
      | sequential k => exact hw
      | word l a => exact twice
      | text n wd sp => exact twice
      | wrapOne x => exact mix
      | wrapMany x => exact mix
      | copyFields a b c => exact hw
      | basedOn a b => exact mixinSeed_idle w0 r s w hw
      | field n e rp g hd => exact mix

theorem seed_idle (fuel : Nat) (r : Ref) (s : Option Int) (w : World R) :
    AllIdle w (seed fuel r s w).2 := seed_idle' w fuel r s w fun _ => .refl _

theorem seedAll_idle (fuel : Nat) (l : List Ref) (s : Option Int) (w : World R) :
    AllIdle w (Group.doMethod (l.map some) (seed fuel · s) w).2 :=
  doMethod_idle w l (fun c => seed_idle' w fuel c s) w fun _ => .refl _

/-! ### Frames -/

/-- Everything below one of the objects. -/
abbrev Under (w : World R) (l : List Ref) (x : Ref) : Prop := ∃ c ∈ l, Below w c x

theorem under_closed (w : World R) (l : List Ref) :
    ∀ r, Under w l r → ∀ c ∈ Node.childRefs (w.obj r).node, Under w l c :=
  fun _ ⟨c, hc, h⟩ _ hd => ⟨c, hc, h.child hd⟩

theorem seedAll_frame (fuel : Nat) (l : List Ref) (s : Option Int) (w : World R) :
    ShapeFrame (Under w l) w (Group.doMethod (l.map some) (seed fuel · s) w).2 :=
  ((Group.doMethod_rel (l := l) fun c hc => (shapeFrame_steps (Under w l) s w
    (under_closed w l)).seed fuel c ⟨c, hc, .self c⟩) w w ⟨rfl, .refl _ w⟩).2.2

theorem seed_shapeFrame (fuel : Nat) (r : Ref) (s : Option Int) (w : World R) :
    ShapeFrame (Below w r) w (seed fuel r s w).2 :=
  ((shapeFrame_steps (Below w r) s w (fun _ h _ hd => h.child hd)).seed fuel r (.self r) w w
    ⟨rfl, .refl _ w⟩).2.2

theorem reset_shapeFrame (fuel : Nat) (r : Ref) (w : World R) :
    ShapeFrame (Below w r) w (reset fuel r w).2 :=
  reset_frame fuel r (Below w r) w (fun _ h _ hd => h.child hd) (.self r)

theorem resetAll_frame (fuel : Nat) (l : List Ref) (w : World R) :
    ShapeFrame (Under w l) w (Group.doMethod (l.map some) (reset fuel) w).2 := by
  refine (Group.doMethod_rel (S := fun a b => a = b ∧ ShapeFrame (Under w l) w a) (l := l)
    (fun c hc => (Keeps.rel fun u hu => ?_)) w w ⟨rfl, .refl _ w⟩).2.2
  refine hu.trans ?_
  have := reset_frame fuel c (Under w l) u
    (fun r hr d hd => under_closed w l r hr d (by rw [← hu.node r]; exact hd)) ⟨c, hc, .self c⟩
  exact this

theorem under_congr {w v : World R} (h : ∀ x, (v.obj x).shape = (w.obj x).shape) (l : List Ref)
    (x : Ref) : Under v l x ↔ Under w l x := by
  have := fun r => Below.congr (w := w) (v := v) (fun y => node_of_shape (h y)) (r := r) (x := x)
  exact ⟨fun ⟨c, hc, hx⟩ => ⟨c, hc, (this c).1 hx⟩, fun ⟨c, hc, hx⟩ => ⟨c, hc, (this c).2 hx⟩⟩

/-! ### Stores that are the same afterwards -/

theorem same_objects {A : Ref → Prop} {z : Int} {w v : World R}
    (hs : ∀ x, (w.obj x).shape = (v.obj x).shape)
    (hw : ∀ x, A x → (w.obj x).Seeded (some z)) (hv : ∀ x, A x → (v.obj x).Seeded (some z))
    (hp : ∀ x, A x → SameProgress (w.obj x) (v.obj x)) (hf : ∀ x, ¬ A x → w.obj x = v.obj x) :
    ∀ x, w.obj x = v.obj x := by
  intro x
  by_cases hx : A x
  · exact seeded_ext (hw x hx) (hv x hx) (hp x hx) (hs x)
  · exact hf x hx

theorem agree_of_shape {w v : World R} (hs : ∀ x, (w.obj x).shape = (v.obj x).shape) :
    Agree (fun x => (w.obj x).node) (fun _ => True) (fun _ => False) (fun _ => False) w v :=
  ⟨fun _ _ => rfl, fun x _ => (node_of_shape (hs x)).symm, fun x _ => hs x, fun _ h => h.elim,
    fun _ h => h.elim⟩

theorem spots_of_idle {w v : World R} (hs : ∀ x, (w.obj x).shape = (v.obj x).shape)
    (hi : AllIdle w v) : SameSpots (fun _ => True) w v :=
  fun x _ => (hi x).position (node_of_shape (hs x))

/-- Seeding stores that differ below `r` in seeds and generators only. -/
theorem seed_law (fuel : Nat) (r : Ref) (z : Int) (w v : World R)
    (hs : ∀ x, (w.obj x).shape = (v.obj x).shape) (hi : AllIdle w v)
    (hf : ∀ x, ¬ Below w r x → w.obj x = v.obj x) :
    (seed fuel r (some z) w).1 = (seed fuel r (some z) v).1 ∧
    ((seed fuel r (some z) w).1 = .ok () →
      ∀ x, (seed fuel r (some z) w).2.obj x = (seed fuel r (some z) v).2.obj x) := by
  have h1 := ((spots_steps (R := R) (fun x => (w.obj x).node) (fun _ => True) z
    (fun _ _ _ _ => trivial)).seed fuel r trivial w v ⟨agree_of_shape hs, spots_of_idle hs hi⟩).1
  refine ⟨h1, fun hok => ?_⟩
  have fw := seed_shapeFrame fuel r (some z) w
  have fv := seed_shapeFrame fuel r (some z) v
  have hb : ∀ x, Below v r x ↔ Below w r x := fun x =>
    Below.congr fun y => (node_of_shape (hs y)).symm
  refine same_objects (A := Below w r) (z := z) (fun x => ?_)
    (fun x hx => C53_seed fuel r (some z) w hok x hx)
    (fun x hx => C53_seed fuel r (some z) v (h1 ▸ hok) x ((hb x).2 hx)) (fun x _ => ?_)
    (fun x hx => ?_)
  · rw [fw.shape, fv.shape, hs]
  · exact ((seed_idle fuel r _ w x).symm.trans ((hi x).trans (seed_idle fuel r _ v x))).sameProgress
  · rw [fw.frame x hx, fv.frame x (fun h => hx ((hb x).1 h)), hf x hx]

theorem seedAll_seeded (fuel : Nat) (l : List Ref) (z : Option Int) (w : World R)
    (hok : (Group.doMethod (l.map some) (seed fuel · z) w).1 = .ok ()) (x : Ref)
    (hx : Under w l x) :
    ((Group.doMethod (l.map some) (seed fuel · z) w).2.obj x).Seeded z := by
  obtain ⟨c, hc, hx⟩ := hx
  exact (doSeed_fresh (nodes := fun y => (w.obj y).node) (P := fun _ => True)
    (fun _ _ _ _ => trivial) (fun c hc => seed_fresh (fun _ _ _ _ => trivial) fuel c hc)
    (fun _ _ => trivial) w _ ⟨fun _ _ => rfl, fun _ h => h.elim, fun _ h => h.elim⟩
    (Prod.ext hok rfl)).2 c hc x ((BelowN.iff w c x).2 hx)

theorem seedAll_law (fuel : Nat) (l : List Ref) (z : Int) (w v : World R)
    (hs : ∀ x, (w.obj x).shape = (v.obj x).shape) (hi : AllIdle w v)
    (hf : ∀ x, ¬ Under w l x → w.obj x = v.obj x) :
    (Group.doMethod (l.map some) (seed fuel · (some z)) w).1 =
      (Group.doMethod (l.map some) (seed fuel · (some z)) v).1 ∧
    ((Group.doMethod (l.map some) (seed fuel · (some z)) w).1 = .ok () →
      ∀ x, (Group.doMethod (l.map some) (seed fuel · (some z)) w).2.obj x =
        (Group.doMethod (l.map some) (seed fuel · (some z)) v).2.obj x) := by
  have h1 := ((Group.doMethod_rel (l := l) fun c _ => (spots_steps (R := R)
    (fun x => (w.obj x).node) (fun _ => True) z (fun _ _ _ _ => trivial)).seed fuel c trivial) w v
    ⟨agree_of_shape hs, spots_of_idle hs hi⟩).1
  refine ⟨h1, fun hok => ?_⟩
  have fw := seedAll_frame fuel l (some z) w
  have fv := seedAll_frame fuel l (some z) v
  have hb := under_congr (fun y => (hs y).symm) l
  refine same_objects (A := Under w l) (z := z) (fun x => ?_)
    (fun x hx => seedAll_seeded fuel l (some z) w hok x hx)
    (fun x hx => seedAll_seeded fuel l (some z) v (h1 ▸ hok) x ((hb x).2 hx)) (fun x _ => ?_)
    (fun x hx => ?_)
  · rw [fw.shape, fv.shape, hs]
  · exact ((seedAll_idle fuel l _ w x).symm.trans
      ((hi x).trans (seedAll_idle fuel l _ v x))).sameProgress
  · rw [fw.frame x hx, fv.frame x (fun h => hx ((hb x).1 h)), hf x hx]

/-- Resetting an object that has the same seed in stores that differ below it in the state of the
emitters only. -/
theorem reset_law (fuel : Nat) (r : Ref) (z : Int) (w v : World R)
    (hs : ∀ x, (w.obj x).shape = (v.obj x).shape) (hr : (w.obj r).random = true)
    (hw : (w.obj r).rngSeed = some z) (hv : (v.obj r).rngSeed = some z)
    (hf : ∀ x, ¬ Below w r x → w.obj x = v.obj x) :
    (reset fuel r w).1 = (reset fuel r v).1 ∧
    ((reset fuel r w).1 = .ok () → ∀ x, (reset fuel r w).2.obj x = (reset fuel r v).2.obj x) := by
  have hA : Agree (fun x => (w.obj x).node) (fun _ => True) (fun _ => False) (· = r) w v :=
    ⟨fun _ _ => rfl, fun x _ => (node_of_shape (hs x)).symm, fun x _ => hs x, fun _ h => h.elim,
      fun x h _ => by subst h; exact ⟨z, hw, hv⟩⟩
  have h1 := (reset_agree (r := r) (nodes := fun x => (w.obj x).node) (P := fun _ => True) (T := (· = r))
    (X := fun _ => False) (fun _ _ _ _ => trivial) fuel trivial rfl hr w v hA).1
  refine ⟨h1, fun hok => ?_⟩
  have fw := reset_shapeFrame fuel r w
  have fv := reset_shapeFrame fuel r v
  have hb : ∀ x, Below v r x ↔ Below w r x := fun x =>
    Below.congr fun y => (node_of_shape (hs y)).symm
  have hr' : (v.obj r).random = true := by
    unfold Attrs.random at hr ⊢
    rw [← node_of_shape (hs r)]; exact hr
  have c1 := fun x hx => C53_reset fuel r w hr hok x hx
  have c2 := fun x hx => C53_reset fuel r v hr' (h1 ▸ hok) x ((hb x).2 hx)
  rw [hw] at c1
  rw [hv] at c2
  have hsh : ∀ x, ((reset fuel r w).2.obj x).shape = ((reset fuel r v).2.obj x).shape := fun x => by
    rw [fw.shape, fv.shape, hs]
  refine same_objects (A := Below w r) (z := z) hsh (fun x hx => (c1 x hx).1)
    (fun x hx => (c2 x hx).1)
    (fun x hx => sameProgress_of_rewound (node_of_shape (hsh x)) (c1 x hx).2 (c2 x hx).2)
    (fun x hx => ?_)
  rw [fw.frame x hx, fv.frame x (fun h => hx ((hb x).1 h)), hf x hx]

/-- The same for several objects. -/
theorem resetAll_law (fuel : Nat) (l : List Ref) (w v : World R)
    (hs : ∀ x, (w.obj x).shape = (v.obj x).shape) (hr : ∀ c ∈ l, (w.obj c).random = true)
    (hz : ∀ c ∈ l, ∃ z : Int, (w.obj c).rngSeed = some z ∧ (v.obj c).rngSeed = some z)
    (hf : ∀ x, ¬ Under w l x → w.obj x = v.obj x) :
    (Group.doMethod (l.map some) (reset fuel) w).1 =
      (Group.doMethod (l.map some) (reset fuel) v).1 ∧
    ((Group.doMethod (l.map some) (reset fuel) w).1 = .ok () →
      ∀ x, (Group.doMethod (l.map some) (reset fuel) w).2.obj x =
        (Group.doMethod (l.map some) (reset fuel) v).2.obj x) := by
  have hA : Agree (fun x => (w.obj x).node) (fun _ => True) (fun _ => False) (· ∈ l) w v :=
    ⟨fun _ _ => rfl, fun x _ => (node_of_shape (hs x)).symm, fun x _ => hs x, fun _ h => h.elim,
      fun x h _ => hz x h⟩
  obtain ⟨h1, h2⟩ := resetAll_agree (fun _ _ _ _ => trivial) fuel l
    (fun c hc => ⟨trivial, hc, hr c hc⟩) w v hA
  refine ⟨h1, fun hok x => ?_⟩
  by_cases hx : Under w l x
  · obtain ⟨c, hc, hx⟩ := hx
    exact (h2 hok).same x (.inr ⟨c, hc, (BelowN.iff w c x).2 hx⟩)
  · have fw := resetAll_frame fuel l w
    have fv := resetAll_frame fuel l v
    have hb := under_congr (fun y => (hs y).symm) l
    rw [fw.frame x hx, fv.frame x (fun h => hx ((hb x).1 h)), hf x hx]

/-- Resetting objects none of which is below another leaves their seeds. -/
theorem resetAll_rngSeed (fuel : Nat) (l : List Ref) (w : World R)
    (hr : ∀ c ∈ l, (w.obj c).random = true)
    (hroot : ∀ c ∈ l, ∀ d ∈ l, Below w d c → d = c) :
    ∀ c ∈ l, ((Group.doMethod (l.map some) (reset fuel) w).2.obj c).rngSeed = (w.obj c).rngSeed := by
  refine ((Group.doMethod_rel (S := fun a b => a = b ∧ (∀ x, (a.obj x).shape = (w.obj x).shape) ∧
    ∀ c ∈ l, (a.obj c).rngSeed = (w.obj c).rngSeed) (l := l)
    (fun d hd => (Keeps.rel fun u hu => ?_)) w w ⟨rfl, fun _ => rfl, fun _ _ => rfl⟩).2.2).2
  have hF := reset_shapeFrame fuel d u
  refine ⟨fun x => (hF.shape x).trans (hu.1 x), fun c hc => ?_⟩
  by_cases hb : Below u d c
  · have := hroot c hc d hd ((Below.congr fun y => node_of_shape (hu.1 y)).1 hb)
    subst this
    refine (reset_seed fuel d u ?_).trans (hu.2 d hc)
    have := hr d hc
    unfold Attrs.random at this ⊢
    rw [node_of_shape (hu.1 d)]; exact this
  · rw [hF.frame c hb]; exact hu.2 c hc

/-- Resetting several objects rewinds everything below them, whatever their seeds. -/
theorem resetAll_rewound (fuel : Nat) (l : List Ref) (w : World R)
    (hok : (Group.doMethod (l.map some) (reset fuel) w).1 = .ok ()) (x : Ref) (hx : Under w l x) :
    ((Group.doMethod (l.map some) (reset fuel) w).2.obj x).Rewound := by
  obtain ⟨c, hc, hx⟩ := hx
  refine (doMethod_all (f := reset fuel)
    (I := fun u : World R => ∀ y, (u.obj y).node = (w.obj y).node)
    (Q := fun c u => ∀ y, BelowN (fun y => (w.obj y).node) c y → (u.obj y).Rewound) l
    (fun d _ u hu y => (reset_node fuel d y u).trans (hu y)) (fun c _ d _ u hu => ?_)
    (fun d _ u u' y hu he hy => ?_) w _ (fun _ => rfl) (Prod.ext hok rfl)).2 c hc x
    ((BelowN.iff w c x).2 hx)
  · refine ⟨fun y => (reset_node fuel d y u).trans (hu.1 y), ?_⟩
    exact (reset_keep (R := R) (nodes := fun y => (w.obj y).node) (P := fun _ => True)
      (s := (u.obj d).rngSeed) (fun _ _ _ _ => trivial) (X := fun _ => False)
      (Y := BelowN (fun y => (w.obj y).node) c) (T := (· = d)) fuel trivial rfl u u
      ⟨⟨rfl, fun y _ => hu.1 y, fun _ h => h.elim, hu.2⟩,
        fun t ht _ => by subst ht; exact ⟨rfl, rfl⟩⟩).2.1.2.rewound
  · exact fun x hx => (reset_fresh (R := R) (nodes := fun y => (w.obj y).node) (P := fun _ => True)
      (s := (u.obj d).rngSeed) (fun _ _ _ _ => trivial) fuel d trivial u u' y
      ⟨fun y _ => hu y, fun _ h => h.elim, fun _ h => h.elim⟩
      (fun t ht _ => by subst ht; exact ⟨rfl, rfl⟩) he hy x hx).2

/-- Resetting several objects with one seed. -/
theorem resetAll_seeded (fuel : Nat) (l : List Ref) (z : Option Int) (w : World R)
    (hz : ∀ c ∈ l, (w.obj c).random = true → (w.obj c).rngSeed = z)
    (hok : (Group.doMethod (l.map some) (reset fuel) w).1 = .ok ()) (x : Ref) (hx : Under w l x) :
    ((Group.doMethod (l.map some) (reset fuel) w).2.obj x).Seeded z := by
  obtain ⟨c, hc, hx⟩ := hx
  exact (doMethod_fresh (nodes := fun y => (w.obj y).node) (P := fun _ => True)
    (fun _ _ _ _ => trivial)
    (fun c hc => reset_fresh (fun _ _ _ _ => trivial) fuel c hc) l (fun _ _ => trivial) w _
    ⟨fun _ _ => rfl, fun _ h => h.elim, fun _ h => h.elim⟩
    (fun t ht hn => ⟨hz t ht hn, hz t ht hn⟩)
    (Prod.ext hok rfl) c hc x ((BelowN.iff w c x).2 hx)).1

end World
end Fauxdoc
