import Verif.Proofs.World4
/-
Objects after a reset: everything below the reset object is freshly seeded and rewound.
-/
set_option linter.unusedSectionVars false
namespace Fauxdoc
open PyM
variable {K : Type} [Field K] [LinearOrder K] [FloorRing K] {R : Rng K}

namespace World

/-! ### Shapes -/

theorem shape_node (a : Attrs R) : a.shape.node = a.node := by
  unfold Attrs.shape; split <;> rfl

theorem node_of_shape {a b : Attrs R} (h : a.shape = b.shape) : a.node = b.node := by
  rw [← shape_node a, h, shape_node]

theorem shape_wrapper (a : Attrs R) : a.shape.wrapper = a.wrapper := by
  unfold Attrs.shape; split <;> rfl

theorem wrapper_of_shape {a b : Attrs R} (h : a.shape = b.shape) : a.wrapper = b.wrapper := by
  rw [← shape_wrapper a, h, shape_wrapper]

theorem shape_choice {a : Attrs R} {k : ItemsKind} (h : a.node = some (.choice k)) :
    a.shape = { a with choice := { a.choice.config with rngSeed := none } } := by
  unfold Attrs.shape; rw [h]

theorem shape_iter {a : Attrs R} (h : a.node = some .iterative) :
    a.shape = { a with iter := { a.iter with cur := .fin [] } } := by
  unfold Attrs.shape; rw [h]

theorem shape_seq {a : Attrs R} {k : ItemsKind} (h : a.node = some (.sequential k)) :
    a.shape = { a with seq := { a.seq with it := { a.seq.it with cur := .fin [] } } } := by
  unfold Attrs.shape; rw [h]

theorem shape_field {a : Attrs R} {n : String} {e rp g : Ref} {hd : Bool}
    (h : a.node = some (.field n e rp g hd)) :
    a.shape = { a with seed := none, rng := R.ofSeed 0, cache := .none } := by
  unfold Attrs.shape; rw [h]

theorem shape_of_config {a b : Attrs R} (h : a.config = b.config) : a.shape = b.shape := by
  have hcc : ∀ c : ChoiceSt Val R, c.config.config = c.config := by
    intro c
    unfold ChoiceSt.config
    by_cases hr : c.replace = true <;> simp [hr]
  have e : ∀ a : Attrs R, a.config.shape = a.shape := by
    rintro ⟨node, c, _, _, _, _, _, _, _, _⟩
    have := hcc c
    rcases node with _ | (_ | _ | _ | _ | _ | _ | _ | _ | _ | _ | _) <;>
      simp_all [Attrs.config, Attrs.shape]
  rw [← e a, h, e b]

theorem shape_setSeed (x : Option Int) {a : Attrs R} (h : Node.isRandom a.node = true) :
    (a.setSeed x).shape = a.shape := by
  obtain ⟨node, c, _, _, _, _, _, _, _, _⟩ := a
  have := Choice.alike_setSeed x c
  unfold Choice.Alike at this
  rcases node with _ | (_ | _ | _ | _ | _ | _ | _ | _ | _ | _ | _) <;>
    simp_all [Attrs.shape, Attrs.setSeed, Node.isRandom]

theorem shape_setRng (g : R.G) {a : Attrs R} (h : Node.isRandom a.node = true)
    (h1 : Node.isChoice a.node = false) : ({ a with rng := g } : Attrs R).shape = a.shape := by
  obtain ⟨node, c, _, _, _, _, _, _, _, _⟩ := a
  rcases node with _ | (_ | _ | _ | _ | _ | _ | _ | _ | _ | _ | _) <;>
    simp_all [Attrs.shape, Node.isRandom, Node.isChoice]

theorem shape_setChoice {c : ChoiceSt Val R} {a : Attrs R} {k : ItemsKind}
    (h : a.node = some (.choice k)) (hc : Choice.Alike c a.choice) :
    ({ a with choice := c } : Attrs R).shape = a.shape := by
  rw [shape_choice h, shape_choice (k := k) (by exact h)]
  dsimp only
  rw [hc]

theorem shape_setIter (x : Src Val) {a : Attrs R} (h : a.node = some .iterative) :
    ({ a with iter := { a.iter with cur := x } } : Attrs R).shape = a.shape := by
  rw [shape_iter h, shape_iter (by exact h)]

theorem shape_setSeq (x : Src Val) {a : Attrs R} {k : ItemsKind} (h : a.node = some (.sequential k)) :
    ({ a with seq := { a.seq with it := { a.seq.it with cur := x } } } : Attrs R).shape =
      a.shape := by
  rw [shape_seq h, shape_seq (k := k) (by exact h)]

theorem shape_setCache (x : Val) {a : Attrs R} {n : String} {e rp g : Ref} {hd : Bool}
    (h : a.node = some (.field n e rp g hd)) :
    ({ a with cache := x } : Attrs R).shape = a.shape := by
  rw [shape_field h, shape_field (n := n) (e := e) (rp := rp) (g := g) (hd := hd) (by exact h)]

theorem alike_of_shape {a b : Attrs R} {k : ItemsKind} (h : a.shape = b.shape)
    (hk : a.node = some (.choice k)) : Choice.Alike a.choice b.choice := by
  have hk' := (node_of_shape h).symm.trans hk
  rw [shape_choice hk, shape_choice hk'] at h
  exact congrArg Attrs.choice h

/-- The same iterator position or last value. -/
def SameProgress (a b : Attrs R) : Prop :=
  match a.node with
  | some .iterative => a.iter.cur = b.iter.cur
  | some (.sequential _) => a.seq.it.cur = b.seq.it.cur
  | some (.field ..) => a.cache = b.cache
  | _ => True

theorem sameProgress_of_rewound {a b : Attrs R} (hn : a.node = b.node) (ha : a.Rewound)
    (hb : b.Rewound) : SameProgress a b := by
  unfold SameProgress
  unfold Attrs.Rewound at ha hb
  rw [hn] at ha ⊢
  rcases hk : b.node with _ | (_ | _ | _ | _ | _ | _ | _ | _ | _ | _ | _) <;> rw [hk] at ha hb
  case some.iterative => exact Eq.trans ha hb.symm
  case some.sequential => exact Eq.trans ha hb.symm
  case some.field => exact Eq.trans ha hb.symm
  all_goals trivial

/-- Freshly seeded objects are determined by their shape, position and last value. -/
theorem seeded_ext {s : Int} {a b : Attrs R} (ha : a.Seeded (some s)) (hb : b.Seeded (some s))
    (hp : SameProgress a b) (h : a.shape = b.shape) : a = b := by
  have hn := node_of_shape h
  have hal := fun k => alike_of_shape (k := k) h
  obtain ⟨node, c, _, i, q, _, _, _, _, _⟩ := a
  obtain ⟨node', c', _, i', q', _, _, _, _, _⟩ := b
  dsimp only at hn hal
  subst hn
  rcases node with _ | (_ | _ | _ | _ | _ | _ | _ | _ | _ | _ | _)
  case some.choice k =>
    have := Choice.Fresh.ext (ha.2 s rfl : c.Fresh s) (hb.2 s rfl : c'.Fresh s) (hal k rfl)
    subst this
    simp only [Attrs.shape, Attrs.mk.injEq, true_and] at h ⊢
    exact h
  case some.iterative =>
    obtain ⟨_, _, _⟩ := i
    obtain ⟨_, _, _⟩ := i'
    simp_all [Attrs.shape, SameProgress]
  case some.sequential =>
    obtain ⟨_, _, _, _⟩ := q
    obtain ⟨_, _, _, _⟩ := q'
    simp_all [Attrs.shape, SameProgress]
  all_goals simp_all [Attrs.shape, SameProgress, Attrs.Seeded]

/-! ### Persistence -/

theorem seeded_setSeed {s : Option Int} {a : Attrs R} (h : a.Seeded s)
    (hr : Node.isRandom a.node = true) : a.setSeed s = a := by
  obtain ⟨node, c, _, _, _, _, _, _, _, _⟩ := a
  rcases node with _ | (_ | _ | _ | _ | _ | _ | _ | _ | _ | _ | _)
  case some.choice k =>
    have : c.rngSeed = s := h.1
    unfold Attrs.setSeed
    dsimp only
    rw [← this]
  all_goals simp_all [Attrs.Seeded, Attrs.setSeed, Node.isRandom]

theorem seeded_newRng {s : Option Int} {a : Attrs R} {g : R.G} (h : a.Seeded s)
    (hg : ∀ z, s = some z → g = R.ofSeed z) (hc : Node.isChoice a.node = false) :
    ({ a with rng := g } : Attrs R).Seeded s := by
  obtain ⟨node, c, _, _, _, _, _, _, _, _⟩ := a
  rcases node with _ | (_ | _ | _ | _ | _ | _ | _ | _ | _ | _ | _)
  case some.choice => cases hc
  all_goals first | trivial | exact ⟨h.1, hg⟩

theorem seeded_rngSeed {s : Option Int} {a : Attrs R} (h : a.Seeded s)
    (hr : Node.isRandom a.node = true) : a.rngSeed = s := by
  obtain ⟨node, c, _, _, _, _, _, _, _, _⟩ := a
  rcases node with _ | (_ | _ | _ | _ | _ | _ | _ | _ | _ | _ | _)
  case some.choice k => exact h.1
  all_goals simp_all [Attrs.Seeded, Attrs.rngSeed, Node.isRandom]

theorem newRng_eq (r : Ref) (z : Option Int) (w : World R) : ∃ g e,
    newRng r z w = (.ok (), { w.upd r (fun a => { a with rng := g }) with entropy := e }) ∧
      ∀ y, z = some y → g = R.ofSeed y ∧ e = w.entropy := by
  cases z with
  | none => exact ⟨R.ofEntropy w.entropy, w.entropy + 1, rfl, fun y h => by cases h⟩
  | some y => exact ⟨R.ofSeed y, w.entropy, rfl, fun z h => by cases h; exact ⟨rfl, rfl⟩⟩

/-- The classes of the objects in `P` are `nodes`; the objects in `X` are freshly seeded with `s`,
those in `Y` are rewound. -/
structure Inv (nodes : Ref → Option Node) (P : Ref → Prop) (s : Option Int)
    (X Y : Ref → Prop) (w : World R) : Prop where
  node : ∀ x, P x → (w.obj x).node = nodes x
  seeded : ∀ x, X x → (w.obj x).Seeded s
  rewound : ∀ x, Y x → (w.obj x).Rewound

variable {nodes : Ref → Option Node} {P X Y : Ref → Prop} {s : Option Int}

theorem Inv.upd {w : World R} (h : Inv nodes P s X Y w) (r : Ref) {f : Attrs R → Attrs R}
    (hn : (f (w.obj r)).node = (w.obj r).node) (hs : X r → (f (w.obj r)).Seeded s)
    (hr : Y r → (f (w.obj r)).Rewound) (e : Nat) :
    Inv nodes P s X Y { w.upd r f with entropy := e } where
  node x hx := by
    change ((w.upd r f).obj x).node = _
    rw [upd_obj]
    by_cases hxr : x = r
    · subst hxr; rw [if_pos rfl, hn]; exact h.node x hx
    · rw [if_neg hxr]; exact h.node x hx
  seeded x hx := by
    change ((w.upd r f).obj x).Seeded s
    rw [upd_obj]
    by_cases hxr : x = r
    · subst hxr; rw [if_pos rfl]; exact hs hx
    · rw [if_neg hxr]; exact h.seeded x hx
  rewound x hx := by
    change ((w.upd r f).obj x).Rewound
    rw [upd_obj]
    by_cases hxr : x = r
    · subst hxr; rw [if_pos rfl]; exact hr hx
    · rw [if_neg hxr]; exact h.rewound x hx

theorem rewound_congr {a b : Attrs R} (h1 : a.node = b.node) (h2 : a.iter = b.iter)
    (h3 : a.seq = b.seq) (h4 : a.cache = b.cache) (h5 : a.choice.Rewound ↔ b.choice.Rewound)
    (h : b.Rewound) : a.Rewound := by
  unfold Attrs.Rewound at h ⊢
  rw [h1, h2, h3, h4, h5]; exact h

theorem seeded_congr {a b : Attrs R} (h1 : a.node = b.node) (h2 : a.choice = b.choice)
    (h3 : a.seed = b.seed) (h4 : a.rng = b.rng) (h : b.Seeded s) : a.Seeded s := by
  unfold Attrs.Seeded at h ⊢
  rw [h1, h2, h3, h4]; exact h

theorem rewound_setSeed {a : Attrs R} (x : Option Int) (h : a.Rewound) : (a.setSeed x).Rewound := by
  refine rewound_congr (Attrs.setSeed_node x a) ?_ ?_ ?_ ?_ h <;>
    (unfold Attrs.setSeed; split <;> rfl)

/-- Resetting with the same seed keeps objects freshly seeded and rewound. -/
theorem inv_steps (nodes : Ref → Option Node) (P X Y : Ref → Prop) (s : Option Int)
    (hP : ∀ r, P r → ∀ c ∈ Node.childRefs (nodes r), P c) :
    ResetSteps (R := R) nodes P s (fun w v => w = v ∧ Inv nodes P s X Y w) where
  left := by rintro w v r ⟨rfl, h⟩ hr; exact h.node r hr
  right := by rintro w v r ⟨rfl, h⟩ hr; exact h.node r hr
  closed := hP
  setSeed := by
    rintro r w v ⟨rfl, h⟩ hr hn
    refine ⟨rfl, h.upd r (Attrs.setSeed_node _ _) (fun hx => ?_) (fun hy => ?_) w.entropy⟩
    · rw [seeded_setSeed (h.seeded r hx) (by rw [h.node r hr]; exact hn)]; exact h.seeded r hx
    · exact rewound_setSeed _ (h.rewound r hy)
  newRng := by
    rintro r w v ⟨rfl, h⟩ hr hn hc _ _
    obtain ⟨g, e, h1, h2⟩ := newRng_eq r s w
    rw [h1]
    refine ⟨rfl, h.upd r (f := fun a => { a with rng := g }) rfl (fun hx => ?_)
      (fun hy => ?_) e⟩
    · exact seeded_newRng (h.seeded r hx) (fun z hz => (h2 z hz).1) (by rw [h.node r hr]; exact hc)
    · exact rewound_congr rfl rfl rfl rfl Iff.rfl (h.rewound r hy)
  choice := by
    rintro r k w v ⟨rfl, h⟩ hr hk hs _
    have hnk := (h.node r hr).trans hk
    refine ⟨rfl, rfl, ?_⟩
    refine h.upd r (f := fun a => { a with
      choice := (Choice.reset ((w.obj r).choice, w.entropy)).2.1 }) rfl (fun hx => ?_) (fun hy => ?_) _
    · have hsd := h.seeded r hx
      unfold Attrs.Seeded at hsd ⊢
      rw [show Attrs.node _ = (w.obj r).node from rfl, hnk]
      rw [hnk] at hsd
      refine ⟨(Choice.reset_rngSeed _).trans hs, fun z hz => ?_⟩
      have := Choice.Fresh.reset (hsd.2 z hz) w.entropy
      dsimp only
      rw [this]
      exact hsd.2 z hz
    · have hrw := h.rewound r hy
      unfold Attrs.Rewound at hrw ⊢
      rw [show Attrs.node _ = (w.obj r).node from rfl, hnk]
      rw [hnk] at hrw
      exact Choice.reset_rewound _ (.inr hrw)
  iter := by
    rintro r w v ⟨rfl, h⟩ hr hk
    rw [iter_run]
    refine ⟨rfl, h.upd r (f := fun a => { a with iter := (Iterative.reset (w.obj r).iter).2 }) rfl
      (fun hx => ?_) (fun hy => ?_) w.entropy⟩
    · exact seeded_congr rfl rfl rfl rfl (h.seeded r hx)
    · have hn : (w.obj r).node = some .iterative := (h.node r hr).trans hk
      unfold Attrs.Rewound
      dsimp only
      rw [hn]
      rfl
  seq := by
    rintro r k w v ⟨rfl, h⟩ hr hk
    rw [seq_run]
    refine ⟨rfl, h.upd r (f := fun a => { a with
      seq := (Sequential.onIt Iterative.reset (w.obj r).seq).2 }) rfl
      (fun hx => ?_) (fun hy => ?_) w.entropy⟩
    · exact seeded_congr rfl rfl rfl rfl (h.seeded r hx)
    · have hn : (w.obj r).node = some (.sequential k) := (h.node r hr).trans hk
      unfold Attrs.Rewound
      dsimp only
      rw [hn]
      rfl
  cache := by
    rintro r n e rp g hd w v ⟨rfl, h⟩ hr hk
    rw [cache_set]
    refine ⟨rfl, h.upd r (f := fun a => { a with cache := .none }) rfl
      (fun hx => ?_) (fun hy => ?_) w.entropy⟩
    · exact seeded_congr rfl rfl rfl rfl (h.seeded r hx)
    · have hn := (h.node r hr).trans hk
      unfold Attrs.Rewound
      dsimp only
      rw [hn]

/-- Going from parents to children, given the classes of all objects. -/
inductive BelowN (nodes : Ref → Option Node) : Ref → Ref → Prop
  | self (r : Ref) : BelowN nodes r r
  | step {r c x : Ref} (hc : c ∈ Node.childRefs (nodes r)) (h : BelowN nodes c x) : BelowN nodes r x

theorem BelowN.iff (w : World R) (r x : Ref) :
    BelowN (fun y => (w.obj y).node) r x ↔ Below w r x := by
  constructor
  · intro h
    induction h with
    | self r => exact .self r
    | step hc _ ih => exact .step hc ih
  · intro h
    induction h with
    | self r => exact .self r
    | step hc _ ih => exact .step hc ih

theorem BelowN.cases {r x : Ref} (h : BelowN nodes r x) :
    x = r ∨ ∃ c ∈ Node.childRefs (nodes r), BelowN nodes c x := by
  cases h with
  | self => exact .inl rfl
  | step hc h => exact .inr ⟨_, hc, h⟩

/-- `reset` raises `AttributeError` only on something that is not an object of the library. -/
theorem reset_attributeError (fuel : Nat) (r : Ref) (w : World R) (hn : (w.obj r).node ≠ none) :
    (reset fuel r w).1 ≠ .error .attributeError := by
  have hmix : ∀ f, (mixinReset f r w).1 ≠ .error .attributeError := by
    intro f
    unfold mixinReset
    rw [PyM.run_get_bind, PyM.bind_apply]
    rcases hc : setChildSeeds (w.obj r).children (w.obj r).seed w with ⟨x | u, w1⟩
    · have : ∀ (l : List Ref) (z : Option Int) (w : World R), (setChildSeeds l z w).1 = .ok () := by
        intro l z
        induction l with
        | nil => intro w; rfl
        | cons c l ih => intro w; rw [setChildSeeds_cons]; exact ih _
      have := this (w.obj r).children (w.obj r).seed w
      rw [hc] at this
      cases this
    · dsimp only
      rw [PyM.bind_ok (Prod.ext (newRng_ok r (w.obj r).seed w1) rfl :
        newRng r (w.obj r).seed w1 = (.ok (), (newRng r (w.obj r).seed w1).2))]
      exact Group.C58_no_attribute_error _ _ _
  cases fuel with
  | zero => simp [reset]
  | succ fuel =>
    unfold reset
    rw [PyM.run_get_bind]
    dsimp only
    have hword : ((do
        mixinReset (reset fuel) r
        let a := (← PyM.get).obj r
        setChildSeeds a.children a.seed
        Group.doMethod (a.children.map some) (reset fuel)) w : Except Err Unit × World R).1 ≠
        .error .attributeError := by
      have := hmix (reset fuel)
      rw [PyM.bind_apply]
      rcases hm : mixinReset (reset fuel) r w with ⟨x | u, w1⟩
      · rw [hm] at this; exact this
      · dsimp only
        rw [PyM.run_get_bind]
        rw [PyM.bind_apply]
        rcases hc : setChildSeeds (w1.obj r).children (w1.obj r).seed w1 with ⟨x | u, w2⟩
        · have : ∀ (l : List Ref) (z : Option Int) (w : World R), (setChildSeeds l z w).1 = .ok () := by
            intro l z
            induction l with
            | nil => intro w; rfl
            | cons c l ih => intro w; rw [setChildSeeds_cons]; exact ih _
          have := this (w1.obj r).children (w1.obj r).seed w1
          rw [hc] at this
          cases this
        · exact Group.C58_no_attribute_error _ _ _
    rcases hk : (w.obj r).node with _ | node
    · exact absurd hk hn
    · cases node with
      | choice k =>
        rw [(onChoice_obj r r Choice.reset w).2]
        exact Choice.reset_error _
      | static => simp
      | iterative => intro h; cases h
      | sequential k => intro h; cases h
      | word l a => exact hword
      | text n wd sp => exact hword
      | wrapOne x => exact hmix _
      | wrapMany x => exact hmix _
      | copyFields a b c => simp
      | basedOn a b => dsimp only; rw [newRng_ok]; simp
      | field n e rp g hd =>
        dsimp only
        unfold Field.reset
        rw [PyM.bind_apply]
        have := hmix (reset fuel)
        rcases hm : mixinReset (reset fuel) r w with ⟨x | u, w1⟩
        · rw [hm] at this; exact this
        · intro h; cases h

end World
end Fauxdoc
