import Verif.Proofs.World2
/-
Resetting and seeding in the object store: what a relation between stores must satisfy to be
respected by `reset` and `seed`.
-/
set_option linter.unusedSectionVars false
namespace Fauxdoc
open PyM
variable {K : Type} [Field K] [LinearOrder K] [FloorRing K] {R : Rng K}

/-- The class uses `RandomMixin`, as a function of the node. -/
def Node.isRandom : Option Node → Bool
  | some (.choice _) | some (.word ..) | some (.text ..) | some (.wrapOne _) | some (.wrapMany _)
  | some (.basedOn ..) | some (.field ..) => true
  | _ => false

/-- The object is a `Choice`. -/
def Node.isChoice : Option Node → Bool
  | some (.choice _) => true
  | _ => false

theorem Attrs.random_eq (a : Attrs R) : a.random = Node.isRandom a.node := rfl

theorem Attrs.setSeed_node (s : Option Int) (a : Attrs R) : (a.setSeed s).node = a.node := by
  unfold Attrs.setSeed; split <;> rfl

theorem Attrs.setSeed_rngSeed (s : Option Int) (a : Attrs R) : (a.setSeed s).rngSeed = s := by
  obtain ⟨node, _, _, _, _, _, _, _, _, _⟩ := a
  rcases node with _ | (_ | _) <;> rfl

theorem Choice.reset_rngSeed {α : Type} (s : ChoiceSt α R × Nat) :
    (Choice.reset s).2.1.rngSeed = s.1.rngSeed := by
  obtain ⟨g, e, _, h⟩ := Choice.reset_run s
  rw [h]
  by_cases hr : s.1.replace = true
  · rw [if_pos hr]
  · rw [if_neg hr]
    obtain ⟨r, c', h1, h2⟩ := Choice.globalShuffle_effect (({ s.1 with rng := g } : ChoiceSt α R), e)
    have hs : s.1.replace = false := by simpa using hr
    rw [h1]
    cases h2 <;> rfl

namespace World

/-- One pass over several objects from related stores: outcomes agree, and the relation holds
afterwards. -/
def Step (S : World R → World R → Prop) (m m' : PyM (World R) Unit) (w v : World R) : Prop :=
  (m w).1 = (m' v).1 ∧ S (m w).2 (m' v).2

/-- The steps that resetting the objects in `P` with the seed `s` consists of respect the relation
`S`. -/
structure ResetSteps (nodes : Ref → Option Node) (P : Ref → Prop) (s : Option Int)
    (S : World R → World R → Prop) : Prop where
  left : ∀ w v r, S w v → P r → (w.obj r).node = nodes r
  right : ∀ w v r, S w v → P r → (v.obj r).node = nodes r
  closed : ∀ r, P r → ∀ c ∈ Node.childRefs (nodes r), P c
  setSeed : ∀ r w v, S w v → P r → Node.isRandom (nodes r) = true →
    S (w.upd r (Attrs.setSeed s)) (v.upd r (Attrs.setSeed s))
  newRng : ∀ r w v, S w v → P r → Node.isRandom (nodes r) = true → Node.isChoice (nodes r) = false →
    (w.obj r).seed = s → (v.obj r).seed = s → S (newRng r s w).2 (newRng r s v).2
  choice : ∀ r k w v, S w v → P r → nodes r = some (.choice k) → (w.obj r).choice.rngSeed = s →
    (v.obj r).choice.rngSeed = s →
    Step S (onChoice r Choice.reset) (onChoice r Choice.reset) w v
  iter : ∀ r w v, S w v → P r → nodes r = some .iterative →
    S ((iterAttr r).run Iterative.reset w).2 ((iterAttr r).run Iterative.reset v).2
  seq : ∀ r k w v, S w v → P r → nodes r = some (.sequential k) →
    S ((seqAttr r).run (Sequential.onIt Iterative.reset) w).2
      ((seqAttr r).run (Sequential.onIt Iterative.reset) v).2
  cache : ∀ r n e rp g h w v, S w v → P r → nodes r = some (.field n e rp g h) →
    S ((cacheAttr r).set .none w) ((cacheAttr r).set .none v)

variable {nodes : Ref → Option Node} {P : Ref → Prop} {s : Option Int}
  {S : World R → World R → Prop}

/-- The objects in `T` that have a seed have the seed `s` in both stores. -/
def SeedsIn (nodes : Ref → Option Node) (s : Option Int) (T : Ref → Prop) (w v : World R) :
    Prop :=
  ∀ t, T t → Node.isRandom (nodes t) = true → (w.obj t).rngSeed = s ∧ (v.obj t).rngSeed = s

theorem upd_obj (r x : Ref) (f : Attrs R → Attrs R) (w : World R) :
    (w.upd r f).obj x = if x = r then f (w.obj r) else w.obj x := rfl

theorem newRng_obj (r x : Ref) (s : Option Int) (w : World R) :
    ∃ g, ((newRng r s w).2.obj x = if x = r then { w.obj r with rng := g } else w.obj x) ∧
      (newRng r s w).1 = .ok () ∧ (newRng r s w).2.next = w.next ∧
      ∀ y, s = some y → g = R.ofSeed y ∧ (newRng r s w).2.entropy = w.entropy := by
  unfold newRng
  cases s with
  | none => exact ⟨R.ofEntropy w.entropy, rfl, rfl, rfl, fun y h => by cases h⟩
  | some y => exact ⟨R.ofSeed y, rfl, rfl, rfl, fun z h => by cases h; exact ⟨rfl, rfl⟩⟩

theorem newRng_ok (r : Ref) (s : Option Int) (w : World R) : (newRng r s w).1 = .ok () :=
  (newRng_obj r r s w).choose_spec.2.1

theorem onChoice_obj {β : Type} (r x : Ref) (m : ChoiceM Val R β) (w : World R) :
    (onChoice r m w).2.obj x = (if x = r then
      { w.obj r with choice := (m ((w.obj r).choice, w.entropy)).2.1 } else w.obj x) ∧
    (onChoice r m w).1 = (m ((w.obj r).choice, w.entropy)).1 := ⟨rfl, rfl⟩

theorem iter_run {β : Type} (r : Ref) (m : PyM (IterSt Val) β) (w : World R) :
    ((iterAttr r).run m w).2 = w.upd r (fun a => { a with iter := (m (w.obj r).iter).2 }) := rfl

theorem seq_run {β : Type} (r : Ref) (m : PyM (SeqSt Val) β) (w : World R) :
    ((seqAttr r).run m w).2 = w.upd r (fun a => { a with seq := (m (w.obj r).seq).2 }) := rfl

theorem cache_set (r : Ref) (x : Val) (w : World R) :
    (cacheAttr r).set x w = w.upd r (fun a => { a with cache := x }) := rfl

theorem rngSeed_congr {a b : Attrs R} (h1 : a.node = b.node) (h2 : a.seed = b.seed)
    (h3 : a.choice.rngSeed = b.choice.rngSeed) : a.rngSeed = b.rngSeed := by
  unfold Attrs.rngSeed
  rw [h1, h2, h3]

/-- The seeds of `T` can be carried along. -/
theorem ResetSteps.withSeeds (h : ResetSteps nodes P s S) (T : Ref → Prop) :
    ResetSteps nodes P s (fun w v => S w v ∧ SeedsIn nodes s T w v) where
  left w v r hs hr := h.left w v r hs.1 hr
  right w v r hs hr := h.right w v r hs.1 hr
  closed := h.closed
  setSeed r w v hs hr hn := by
    refine ⟨h.setSeed r w v hs.1 hr hn, fun t ht hrt => ?_⟩
    rw [upd_obj, upd_obj]
    by_cases htr : t = r
    · simp only [htr, if_true, Attrs.setSeed_rngSeed]; exact ⟨trivial, trivial⟩
    · simp only [htr, if_false]; exact hs.2 t ht hrt
  newRng r w v hs hr hn hc h1 h2 := by
    refine ⟨h.newRng r w v hs.1 hr hn hc h1 h2, fun t ht hrt => ?_⟩
    obtain ⟨g, hg, _⟩ := newRng_obj r t s w
    obtain ⟨g', hg', _⟩ := newRng_obj r t s v
    rw [hg, hg']
    by_cases htr : t = r
    · subst htr; simp only [if_true]; exact hs.2 t ht hrt
    · simp only [htr, if_false]; exact hs.2 t ht hrt
  choice r k w v hs hr hn hz he := by
    obtain ⟨a, b⟩ := h.choice r k w v hs.1 hr hn hz he
    refine ⟨a, b, fun t ht hrt => ?_⟩
    rw [(onChoice_obj r t Choice.reset w).1, (onChoice_obj r t Choice.reset v).1]
    by_cases htr : t = r
    · subst htr
      simp only [if_true]
      have hseed : ∀ u : World R,
          ({ u.obj t with choice := (Choice.reset ((u.obj t).choice, u.entropy)).2.1 } :
            Attrs R).rngSeed = (u.obj t).rngSeed :=
        fun u => rngSeed_congr rfl rfl (Choice.reset_rngSeed _)
      rw [hseed w, hseed v]
      exact hs.2 t ht hrt
    · simp only [htr, if_false]; exact hs.2 t ht hrt
  iter r w v hs hr hn := by
    refine ⟨h.iter r w v hs.1 hr hn, fun t ht hrt => ?_⟩
    have hx : ∀ u : World R, (((iterAttr r).run Iterative.reset u).2.obj t).rngSeed =
        (u.obj t).rngSeed := by
      intro u
      rw [iter_run, upd_obj]
      by_cases htr : t = r
      · subst htr; simp only [if_true]; rfl
      · simp only [htr, if_false]
    rw [hx, hx]; exact hs.2 t ht hrt
  seq r k w v hs hr hn := by
    refine ⟨h.seq r k w v hs.1 hr hn, fun t ht hrt => ?_⟩
    have hx : ∀ u : World R, (((seqAttr r).run (Sequential.onIt Iterative.reset) u).2.obj t).rngSeed =
        (u.obj t).rngSeed := by
      intro u
      rw [seq_run, upd_obj]
      by_cases htr : t = r
      · subst htr; simp only [if_true]; rfl
      · simp only [htr, if_false]
    rw [hx, hx]; exact hs.2 t ht hrt
  cache r n e rp g hd w v hs hr hn := by
    refine ⟨h.cache r n e rp g hd w v hs.1 hr hn, fun t ht hrt => ?_⟩
    have hx : ∀ u : World R, (((cacheAttr r).set Val.none u).obj t).rngSeed =
        (u.obj t).rngSeed := by
      intro u
      rw [cache_set, upd_obj]
      by_cases htr : t = r
      · subst htr; simp only [if_true]; rfl
      · simp only [htr, if_false]
    rw [hx, hx]; exact hs.2 t ht hrt

theorem SeedsIn.mono {T T' : Ref → Prop} {w v : World R} (h : SeedsIn nodes s T w v)
    (hT : ∀ t, T' t → T t) : SeedsIn nodes s T' w v := fun t ht => h t (hT t ht)

theorem rngSeed_not_choice {a : Attrs R} (h : Node.isChoice a.node = false) :
    a.rngSeed = a.seed := by
  unfold Attrs.rngSeed
  split
  · next hk => rw [hk] at h; cases h
  · rfl

theorem setChildSeeds_nil (w : World R) : setChildSeeds [] s w = (.ok (), w) := rfl

theorem setChildSeeds_cons (c : Ref) (l : List Ref) (w : World R) :
    setChildSeeds (c :: l) s w =
      setChildSeeds l s (if (w.obj c).random then w.upd c (Attrs.setSeed s) else w) := by
  unfold setChildSeeds
  change ((PyM.get >>= fun u => if (World.obj u c).random then
    PyM.modify (upd c (Attrs.setSeed s)) else pure ()) >>= fun _ => Group.setattr (l.map some)
      (fun c (w : World R) => (w.obj c).random) (fun c => PyM.modify (upd c (Attrs.setSeed s)))) w = _
  rw [PyM.bind_apply, PyM.run_get_bind]
  by_cases h : (w.obj c).random = true
  · rw [if_pos h, if_pos h]; rfl
  · rw [if_neg h, if_neg h]; rfl

/-- Assigning the seed to children. -/
theorem ResetSteps.setChildSeeds (h : ResetSteps nodes P s S) (l : List Ref) (hl : ∀ c ∈ l, P c)
    (T : Ref → Prop) (w v : World R) (hwv : S w v) (hT : SeedsIn nodes s T w v) :
    ∃ w' v', setChildSeeds l s w = (.ok (), w') ∧ setChildSeeds l s v = (.ok (), v') ∧ S w' v' ∧
      SeedsIn nodes s (fun t => T t ∨ t ∈ l) w' v' := by
  induction l generalizing T w v with
  | nil => exact ⟨w, v, rfl, rfl, hwv, hT.mono fun t ht => ht.resolve_right (by simp)⟩
  | cons c l ih =>
    rw [setChildSeeds_cons, setChildSeeds_cons, Attrs.random_eq, Attrs.random_eq,
      h.left w v c hwv (hl c (by simp)), h.right w v c hwv (hl c (by simp))]
    have key : ∀ w1 v1, S w1 v1 → SeedsIn nodes s (fun t => T t ∨ t = c) w1 v1 →
        ∃ w' v', World.setChildSeeds l s w1 = (.ok (), w') ∧
          World.setChildSeeds l s v1 = (.ok (), v') ∧ S w' v' ∧
          SeedsIn nodes s (fun t => T t ∨ t ∈ c :: l) w' v' := by
      intro w1 v1 h1 h2
      obtain ⟨w', v', e1, e2, e3, e4⟩ := ih (fun x hx => hl x (by simp [hx])) _ w1 v1 h1 h2
      refine ⟨w', v', e1, e2, e3, e4.mono fun t ht => ?_⟩
      rcases ht with ht | ht
      · exact .inl (.inl ht)
      · rcases List.mem_cons.1 ht with ht | ht
        · exact .inl (.inr ht)
        · exact .inr ht
    by_cases hc : Node.isRandom (nodes c) = true
    · rw [if_pos hc, if_pos hc]
      have := (h.withSeeds T).setSeed c w v ⟨hwv, hT⟩ (hl c (by simp)) hc
      refine key _ _ this.1 fun t ht hrt => ?_
      by_cases htc : t = c
      · subst htc
        rw [upd_obj, upd_obj, if_pos rfl, if_pos rfl]
        exact ⟨Attrs.setSeed_rngSeed s _, Attrs.setSeed_rngSeed s _⟩
      · exact this.2 t (ht.resolve_right htc) hrt
    · rw [if_neg hc, if_neg hc]
      refine key _ _ hwv fun t ht hrt => ?_
      rcases ht with ht | rfl
      · exact hT t ht hrt
      · exact absurd hrt hc

/-- `RandomWithChildrenMixin.reset`. -/
theorem ResetSteps.mixinReset (h : ResetSteps nodes P s S) {f : Ref → PyM (World R) Unit}
    (hf : ∀ S', ResetSteps nodes P s S' → ∀ c, P c →
      (∀ w v, S' w v → SeedsIn nodes s (· = c) w v) → Rel S' (f c) (f c))
    {r : Ref} (hr : P r) (hran : Node.isRandom (nodes r) = true)
    (hch : Node.isChoice (nodes r) = false) (w v : World R) (hwv : S w v)
    (hseed : SeedsIn nodes s (· = r) w v) :
    Step (fun w v => S w v ∧ SeedsIn nodes s (fun t => t = r ∨ t ∈ Node.childRefs (nodes r)) w v)
      (mixinReset f r) (mixinReset f r) w v := by
  have hs : ∀ w v, S w v → SeedsIn nodes s (· = r) w v →
      (w.obj r).seed = s ∧ (v.obj r).seed = s := by
    intro w v h1 h2
    have := h2 r rfl hran
    rwa [rngSeed_not_choice (by rw [h.left w v r h1 hr]; exact hch),
      rngSeed_not_choice (by rw [h.right w v r h1 hr]; exact hch)] at this
  obtain ⟨w1, v1, e1, e2, h1, h2⟩ := h.setChildSeeds (Node.childRefs (nodes r)) (h.closed r hr)
    (· = r) w v hwv hseed
  have hsteps := h.withSeeds (fun t => t = r ∨ t ∈ Node.childRefs (nodes r))
  obtain ⟨hsw, hsv⟩ := hs w1 v1 h1 (h2.mono fun t ht => .inl ht)
  have h3 := hsteps.newRng r w1 v1 ⟨h1, h2⟩ hr hran hch hsw hsv
  have hdo := Group.doMethod_rel (S := fun w v => S w v ∧
    SeedsIn nodes s (fun t => t = r ∨ t ∈ Node.childRefs (nodes r)) w v)
    (l := Node.childRefs (nodes r)) (f := f) (f' := f)
    (fun c hc => hf _ hsteps c (h.closed r hr c hc) fun w v hwv => hwv.2.mono fun t ht =>
      .inr (ht ▸ hc)) _ _ h3
  have hrun : ∀ u u1 : World R, (u.obj r).seed = s → (u.obj r).node = nodes r →
      World.setChildSeeds (Node.childRefs (nodes r)) s u = (.ok (), u1) →
      World.mixinReset f r u =
        Group.doMethod ((Node.childRefs (nodes r)).map some) f (World.newRng r s u1).2 := by
    intro u u1 hu1 hu2 hu3
    unfold World.mixinReset
    rw [PyM.run_get_bind]
    unfold Attrs.children
    rw [hu1, hu2, PyM.bind_ok hu3]
    have : World.newRng r s u1 = (.ok (), (World.newRng r s u1).2) :=
      Prod.ext (newRng_ok r s u1) rfl
    rw [PyM.bind_ok this]
  obtain ⟨hsw0, hsv0⟩ := hs w v hwv hseed
  unfold Step
  rw [hrun w w1 hsw0 (h.left w v r hwv hr) e1, hrun v v1 hsv0 (h.right w v r hwv hr) e2]
  exact hdo

/-- Any relation that the steps of resetting respect is respected by `reset`. -/
theorem ResetSteps.reset (fuel : Nat) : ∀ {S : World R → World R → Prop},
    ResetSteps nodes P s S → ∀ r, P r → (∀ w v, S w v → SeedsIn nodes s (· = r) w v) →
    Rel S (reset fuel r) (reset fuel r) := by
  induction fuel with
  | zero => intro S h r hr hseed; exact Rel.raise S _
  | succ fuel ih =>
    intro S h r hr hseed
    unfold World.reset
    refine Rel.get_bind fun w v hwv => ?_
    have hsw := hseed w v hwv r rfl
    have mix := fun hran hch => h.mixinReset (f := World.reset fuel) (fun S' h' => ih h') hr hran hch
      w v hwv (hseed w v hwv)
    dsimp only
    rw [h.left w v r hwv hr, h.right w v r hwv hr]
    have wt : Node.isRandom (nodes r) = true → Node.isChoice (nodes r) = false →
        Step S (do
          World.mixinReset (World.reset fuel) r
          let a := (← PyM.get).obj r
          World.setChildSeeds a.children a.seed
          Group.doMethod (a.children.map some) (World.reset fuel))
        (do
          World.mixinReset (World.reset fuel) r
          let a := (← PyM.get).obj r
          World.setChildSeeds a.children a.seed
          Group.doMethod (a.children.map some) (World.reset fuel)) w v := by
      intro hran hch
      obtain ⟨a, b⟩ := mix hran hch
      unfold Step
      rw [PyM.bind_apply, PyM.bind_apply]
      rcases hm : World.mixinReset (World.reset fuel) r w with ⟨x | u, w1⟩ <;>
        rcases hm' : World.mixinReset (World.reset fuel) r v with ⟨x' | u', v1⟩ <;>
        rw [hm, hm'] at a b
      · cases a; exact ⟨rfl, b.1⟩
      · cases a
      · cases a
      · dsimp only at b ⊢
        rw [PyM.run_get_bind, PyM.run_get_bind]
        have hb := b.2 r (.inl rfl) hran
        rw [rngSeed_not_choice (by rw [h.left w1 v1 r b.1 hr]; exact hch),
          rngSeed_not_choice (by rw [h.right w1 v1 r b.1 hr]; exact hch)] at hb
        unfold Attrs.children
        rw [hb.1, hb.2, h.left w1 v1 r b.1 hr, h.right w1 v1 r b.1 hr]
        obtain ⟨w2, v2, e1, e2, h1, h2⟩ := h.setChildSeeds (Node.childRefs (nodes r)) (h.closed r hr)
          (· = r) w1 v1 b.1 (hseed w1 v1 b.1)
        rw [PyM.bind_ok e1, PyM.bind_ok e2]
        have hsteps := h.withSeeds (fun t => t = r ∨ t ∈ Node.childRefs (nodes r))
        have := Group.doMethod_rel (S := fun w v => S w v ∧
          SeedsIn nodes s (fun t => t = r ∨ t ∈ Node.childRefs (nodes r)) w v)
          (l := Node.childRefs (nodes r)) (f := World.reset fuel) (f' := World.reset fuel)
          (fun c hc => ih hsteps c (h.closed r hr c hc) fun w v hwv => hwv.2.mono fun t ht =>
            .inr (ht ▸ hc)) w2 v2 ⟨h1, h2⟩
        exact ⟨this.1, this.2.1⟩
    rcases hn : nodes r with _ | node
    · exact ⟨rfl, hwv⟩
    · rw [hn] at hsw wt mix
      cases node with
      | choice k =>
        have h1 := hsw rfl
        unfold Attrs.rngSeed at h1
        rw [h.left w v r hwv hr, h.right w v r hwv hr, hn] at h1
        exact h.choice r k w v hwv hr hn h1.1 h1.2
      | static => exact ⟨rfl, hwv⟩
      | iterative => exact ⟨rfl, h.iter r w v hwv hr hn⟩
      | sequential k => exact ⟨rfl, h.seq r k w v hwv hr hn⟩
      | word l a => exact wt rfl rfl
      | text n wd sp => exact wt rfl rfl
      | wrapOne x => exact ⟨(mix rfl rfl).1, (mix rfl rfl).2.1⟩
      | wrapMany x => exact ⟨(mix rfl rfl).1, (mix rfl rfl).2.1⟩
      | copyFields a b c => exact ⟨rfl, hwv⟩
      | basedOn a b =>
        have h1 := hsw rfl
        rw [rngSeed_not_choice (by rw [h.left w v r hwv hr, hn]; rfl),
          rngSeed_not_choice (by rw [h.right w v r hwv hr, hn]; rfl)] at h1
        dsimp only
        rw [h1.1, h1.2]
        exact ⟨by rw [newRng_ok, newRng_ok],
          h.newRng r w v hwv hr (by rw [hn]; rfl) (by rw [hn]; rfl) h1.1 h1.2⟩
      | field n e rp g hd =>
        obtain ⟨a, b⟩ := mix rfl rfl
        dsimp only
        unfold Field.reset
        rw [PyM.bind_apply, PyM.bind_apply]
        rcases hm : World.mixinReset (World.reset fuel) r w with ⟨x | u, w1⟩ <;>
          rcases hm' : World.mixinReset (World.reset fuel) r v with ⟨x' | u', v1⟩ <;>
          rw [hm, hm'] at a b
        · cases a; exact ⟨rfl, b.1⟩
        · cases a
        · cases a
        · exact ⟨rfl, h.cache r n e rp g hd w1 v1 b.1 hr hn⟩

end World
end Fauxdoc
