import Verif.Proofs.Interrupt
import Verif.Props.Seeds
/-
What interrupted runs leave alone, and what an uninterrupted reset repairs.
-/
set_option linter.unusedSectionVars false
namespace Fauxdoc
open PyM World
variable {K : Type} [Field K] [LinearOrder K] [FloorRing K] {R : Rng K}

namespace Alarm
variable {T : Tear R} {Q : Prop} {I : World R → Prop} {D P : Ref → Prop} {nodes : Ref → Option Node}
  {wrappers : Ref → Option (Callback R.G)}

/-! ### Calls, with finished generators around -/

/-- The store keeps satisfying `I`. -/
abbrev InStore (I : World R → Prop) (s : Alarm R) : Prop := I s.world

theorem tick_keeps {r : Ref} (hT : ∀ w, I w → I (T.world r w)) : Keeps (InStore I) (tick T r) := by
  intro s h
  rcases tick_cases T r s with ⟨l, h1, _⟩ | ⟨_, h1⟩
  · rw [h1]; exact h
  · rw [h1]; exact hT _ h

theorem guarded_keeps {α : Type} {r : Ref} {m : PyM (Alarm R) α} (hT : ∀ w, I w → I (T.world r w))
    (hm : Keeps (InStore I) m) : Keeps (InStore I) (guarded T r m) :=
  (tick_keeps hT).bind fun _ => hm.bind fun _ => (tick_keeps hT).bind fun _ => Keeps.pure _ _

theorem lift_keeps {α : Type} {m : PyM (World R) α} (hm : Keeps I m) : Keeps (InStore I) (lift m) :=
  fun s h => hm s.world h

theorem revive_keeps (r : Ref) : Keeps (InStore I) (revive r) := fun _ h => h

theorem spent_keeps {r : Ref} {b : Bool} {m : PyM (World R) Unit} (hm : Keeps I m)
    (arg : Option Val) : Keeps (InStore I) (spent r b m arg) := by
  refine emitterCallOr_keeps (fun _ => Keeps.raise _ _) (Keeps.raise _ _) (fun n => ?_) arg
  by_cases hn : n < 0
  · rw [if_pos hn]; exact Keeps.raise _ _
  · rw [if_neg hn]
    cases b with
    | true => exact (lift_keeps hm).bind fun _ => (revive_keeps r).bind fun _ => Keeps.pure _ _
    | false => exact Keeps.pure _ _

/-- Calls keep what their steps keep, interrupted or not. -/
theorem call_keeps (h : CallSteps nodes wrappers P (fun w v => w = v ∧ I w))
    (hi : ∀ r, P r → nodes r = some .iterative → Keeps I ((iterAttr r).run Iterative.reset))
    (hq : ∀ r k, P r → nodes r = some (.sequential k) →
      Keeps I ((seqAttr r).run (Sequential.onIt Iterative.reset)))
    (hT : ∀ r, P r → ∀ w, I w → I (T.world r w)) (str : Val → List Char) :
    ∀ (fuel : Nat) (r : Ref), P r → ∀ arg, Keeps (InStore I) (Alarm.call T str fuel r arg) := by
  intro fuel
  induction fuel with
  | zero => intro r _ arg; exact Keeps.raise _ _
  | succ fuel ih =>
    intro r hr arg
    unfold Alarm.call
    refine guarded_keeps (hT r hr) fun s hs => ?_
    have ih' : ∀ c, P c → ChildRel (fun s t => s = t ∧ InStore I s) (Alarm.call T str fuel c)
        (Alarm.call T str fuel c) := fun c hc arg => (ih c hc arg).rel
    have rng : Node.hasWrapper (nodes r) = true → AttrRel (fun s t => s = t ∧ InStore I s)
        (attr (rngAttr r)) (attr (rngAttr r)) := fun hw m =>
      Keeps.rel (lift_keeps (h.rng r hr hw m).keeps)
    have hself : (fun w v : World R => w = v ∧ I w) s.world s.world := ⟨rfl, hs⟩
    obtain ⟨n1, w1⟩ := h.left s.world s.world r hself hr
    have hcl := h.closed r hr
    have grp : ∀ (src : List Ref) (single : Bool), ∀ s1 t1 : Alarm R,
        (fun s t => s = t ∧ InStore I s) s1 t1 → GroupAt s1 t1
          (sourceGroup (fun g => Alarm.call T str fuel g none) (Alarm.reset T fuel)
            (Alarm.seed T fuel) s.world src single)
          (sourceGroup (fun g => Alarm.call T str fuel g none) (Alarm.reset T fuel)
            (Alarm.seed T fuel) s.world src single) := by
      rintro src single s1 t1 ⟨rfl, _⟩
      exact ⟨rfl, List.forall₂_same.2 fun _ _ => ⟨rfl, rfl, rfl⟩⟩
    rw [run_get_bind, n1, w1]
    cases hn : nodes r with
    | none => exact hs
    | some node =>
      rw [hn] at hcl rng
      cases node with
      | choice k => exact lift_keeps ((h.choice r k hr hn).1 arg).keeps s hs
      | static => exact lift_keeps (h.static r hr hn arg).keeps s hs
      | iterative =>
        dsimp only
        by_cases hd : s.dead r = true
        · rw [if_pos hd]; exact spent_keeps (hi r hr hn) arg s hs
        · rw [if_neg hd]; exact lift_keeps (h.iter r hr hn arg).keeps s hs
      | sequential k =>
        dsimp only
        by_cases hd : s.dead r = true
        · rw [if_pos hd]; exact spent_keeps (hq r k hr hn) arg s hs
        · rw [if_neg hd]; exact lift_keeps (h.seq r k hr hn arg).keeps s hs
      | word l c =>
        exact (Word.call_rel (ih' l (hcl l (by simp [Node.childRefs])))
          (ih' c (hcl c (by simp [Node.childRefs]))) arg).keeps s hs
      | text n wd sp =>
        have hwd := hcl wd (by simp [Node.childRefs])
        have hwr := h.wordRel hwd fuel (h.call str fuel wd hwd)
        refine (Text.call_rel ⟨ih' wd hwd, Keeps.rel (lift_keeps hwr.roac.keeps), ?_⟩
          (ih' n (hcl n (by simp [Node.childRefs]))) (ih' sp (hcl sp (by simp [Node.childRefs]))) arg).keeps s hs
        by_cases hk : ∃ k, nodes wd = some (.choice k)
        · obtain ⟨k, hk⟩ := hk
          rcases (h.choice wd k hwd hk).2.2 with hres | hroac
          · refine Or.inl (Keeps.rel fun s1 hs1 => ?_)
            cases fuel with
            | zero => exact hs1
            | succ fuel =>
              dsimp only
              unfold Alarm.reset
              rw [run_get_bind]
              dsimp only
              rw [(h.left s1.world s1.world wd ⟨rfl, hs1⟩ hwd).1, hk]
              exact guarded_keeps (hT wd hwd) (lift_keeps hres.keeps) s1 hs1
          · refine Or.inr fun s1 r' t e s0 hs => ?_
            obtain ⟨_, hs⟩ := hs
            dsimp only at e
            unfold lift World.roacInfo at e
            dsimp only at e
            rw [PyM.run_get_bind, (h.left s1.world s1.world wd ⟨rfl, hs⟩ hwd).1, hk] at e
            change (match World.onChoice wd Choice.roacInfo s1.world with
              | (res, w) => (res, ({ s1 with world := w } : Alarm R))) = _ at e
            unfold World.onChoice at e
            rw [Choice.roacInfo_of_not (hroac s1.world s1.world ⟨rfl, hs⟩)] at e
            cases e; rfl
        · refine Or.inr fun s1 r' t e s0 hs => ?_
          obtain ⟨_, hs⟩ := hs
          dsimp only at e
          unfold lift World.roacInfo at e
          dsimp only at e
          rw [PyM.run_get_bind, (h.left s1.world s1.world wd ⟨rfl, hs⟩ hwd).1] at e
          rcases hn : nodes wd with _ | node
          · rw [hn] at e; cases e; rfl
          · rw [hn] at e
            cases node with
            | choice k => exact absurd ⟨k, hn⟩ hk
            | _ => cases e; rfl
      | wrapOne x =>
        cases wrappers r with
        | none => exact hs
        | some cb =>
          exact (WrapOne.call_rel (rng rfl) cb (ih' x (hcl x (by simp [Node.childRefs]))) arg).keeps s hs
      | wrapMany xs =>
        cases wrappers r with
        | none => exact hs
        | some cb =>
          refine (WrapMany.call_rel (rng rfl) cb ?_ arg).keeps s hs
          rw [List.forall₂_map_left_iff, List.forall₂_map_right_iff, List.forall₂_same]
          intro kx hkx
          exact ⟨rfl, ih' kx.2 (hcl kx.2 (List.mem_map_of_mem hkx))⟩
      | copyFields src single sep =>
        exact (CopyFields.call_rel str sep (grp src single) arg).keeps s hs
      | basedOn src single =>
        cases wrappers r with
        | none => exact hs
        | some cb => exact (BasedOnFields.call_rel (rng rfl) cb (grp src single) arg).keeps s hs
      | field n e rp g hd =>
        cases arg with
        | some x => exact hs
        | none =>
          exact (Field.call_rel (fun v => Keeps.rel fun s hs =>
              (h.cache r n e rp g hd hr hn v).keeps s.world hs)
            (ih' e (hcl e (by simp [Node.childRefs]))) (ih' rp (hcl rp (by simp [Node.childRefs])))
            (ih' g (hcl g (by simp [Node.childRefs])))).keeps s hs

/-! ### What is kept -/

theorem sound_frame (hT : T.Sound) {w0 : World R} (r : Ref) (hr : P r) (w : World R)
    (h : Frame P w0 w) : Frame P w0 (T.world r w) :=
  h.upd hr (hT _).1 _

theorem iterReset_frame {w0 : World R} {r : Ref} (hr : P r) (hn : (w0.obj r).node = some .iterative) :
    Keeps (Frame P w0) ((iterAttr r).run Iterative.reset) := by
  refine keeps_attr hr (get := (·.iter)) (set := fun b a => { a with iter := b })
    (fun _ => rfl) (fun _ _ => rfl) fun a ha => ?_
  rw [config_iter (ha.trans hn), config_iter (by exact ha.trans hn)]
  rfl

theorem seqReset_frame {w0 : World R} {r : Ref} {k : ItemsKind} (hr : P r)
    (hn : (w0.obj r).node = some (.sequential k)) :
    Keeps (Frame P w0) ((seqAttr r).run (Sequential.onIt Iterative.reset)) := by
  refine keeps_attr hr (get := (·.seq)) (set := fun b a => { a with seq := b })
    (fun _ => rfl) (fun _ _ => rfl) fun a ha => ?_
  rw [config_seq (ha.trans hn), config_seq (k := k) (by exact ha.trans hn)]
  rfl

theorem call_frames (hT : T.Sound) (str : Val → List Char) (fuel : Nat) (r : Ref) (arg : Option Val)
    (P : Ref → Prop) (w0 : World R) (hP : ∀ r, P r → ∀ c ∈ (w0.obj r).children, P c) (hr : P r) :
    Keeps (InStore (Frame P w0)) (Alarm.call T str fuel r arg) :=
  call_keeps (frame_steps P w0 hP) (fun _ hr hn => iterReset_frame hr hn)
    (fun _ _ hr hn => seqReset_frame hr hn) (fun r hr w h => sound_frame hT r hr w h) str fuel r hr arg

/-- No shape and nothing outside `P` has changed, and no seed of the objects in `F`. -/
def ShapeSeeds (P F : Ref → Prop) (w0 w : World R) : Prop :=
  ShapeFrame P w0 w ∧ ∀ f, F f → (w.obj f).rngSeed = (w0.obj f).rngSeed

theorem ShapeSeeds.upd {F : Ref → Prop} {w0 w : World R} (h : ShapeSeeds P F w0 w) {r : Ref} (hr : P r)
    {f : Attrs R → Attrs R} (hf : (f (w.obj r)).shape = (w.obj r).shape)
    (hs : F r → (f (w.obj r)).rngSeed = (w.obj r).rngSeed) (e : Nat) :
    ShapeSeeds P F w0 { w.upd r f with entropy := e } := by
  refine ⟨h.1.upd hr hf e, fun x hx => ?_⟩
  rw [← h.2 x hx]
  change ((w.upd r f).obj x).rngSeed = _
  rw [upd_obj]
  by_cases hxr : x = r
  · subst hxr; rw [if_pos rfl]; exact hs hx
  · rw [if_neg hxr]

theorem config_rngSeed (a : Attrs R) : a.config.rngSeed = a.rngSeed := by
  obtain ⟨node, c, _, _, _, _, _, _, _, _⟩ := a
  have : c.config.rngSeed = c.rngSeed := by unfold ChoiceSt.config; split <;> rfl
  rcases node with _ | (_ | _ | _ | _ | _ | _ | _ | _ | _ | _ | _) <;> first | rfl | exact this

theorem rngSeed_of_config {a b : Attrs R} (h : a.config = b.config) : a.rngSeed = b.rngSeed := by
  rw [← config_rngSeed a, h, config_rngSeed]

theorem sound_shape (hT : T.Sound) {F : Ref → Prop} {w0 : World R} (r : Ref) (hr : P r) (w : World R)
    (h : ShapeSeeds P F w0 w) : ShapeSeeds P F w0 (T.world r w) :=
  h.upd hr (shape_of_config (hT _).1) (fun _ => rngSeed_of_config (hT _).1) _

theorem reset_kept (P F : Ref → Prop) (w0 : World R) (hP : ∀ r, P r → ∀ c ∈ (w0.obj r).children, P c)
    (hF : ∀ f, F f → ∀ r, f ∉ (w0.obj r).children) :
    ResetKept (fun x => (w0.obj x).node) P (ShapeSeeds P F w0) where
  node w r h := h.1.node r
  closed := hP
  setSeed w r c z h hr hc hn :=
    h.upd (hP r hr c hc) (shape_setSeed z (by rw [h.1.node c]; exact hn))
      (fun hf => absurd hc (hF c hf r)) w.entropy
  newRng w r z h hr hn hc := by
    obtain ⟨g, e, h1, _⟩ := newRng_eq r z w
    rw [h1]
    exact h.upd hr (shape_setRng g (by rw [h.1.node r]; exact hn) (by rw [h.1.node r]; exact hc))
      (fun _ => rngSeed_congr rfl rfl rfl) e
  choice w r k h hr hk :=
    h.upd hr (f := fun a => { a with choice := (Choice.reset ((w.obj r).choice, w.entropy)).2.1 })
      (shape_setChoice ((h.1.node r).trans hk) (Choice.reset_keeps_alike _))
      (fun _ => rngSeed_congr rfl rfl (Choice.reset_rngSeed _)) _
  iter w r h hr hk := by
    rw [iter_run]
    exact h.upd hr (f := fun a => { a with iter := (Iterative.reset (w.obj r).iter).2 })
      (shape_setIter _ ((h.1.node r).trans hk)) (fun _ => rngSeed_congr rfl rfl rfl) w.entropy
  seq w r k h hr hk := by
    rw [seq_run]
    exact h.upd hr (f := fun a => { a with
      seq := (Sequential.onIt Iterative.reset (w.obj r).seq).2 })
      (shape_setSeq _ ((h.1.node r).trans hk)) (fun _ => rngSeed_congr rfl rfl rfl) w.entropy
  cache w r n e rp g hd h hr hk := by
    rw [cache_set]
    exact h.upd hr (f := fun a => { a with cache := .none })
      (shape_setCache _ ((h.1.node r).trans hk)) (fun _ => rngSeed_congr rfl rfl rfl) w.entropy

theorem seed_kept' (P : Ref → Prop) (w0 : World R) (hP : ∀ r, P r → ∀ c ∈ (w0.obj r).children, P c) :
    SeedKept (fun x => (w0.obj x).node) P (ShapeSeeds P (fun _ => False) w0) where
  toResetKept := reset_kept P _ w0 hP fun _ h => h.elim
  setOwn w r z h hr hn :=
    h.upd hr (shape_setSeed z (by rw [h.1.node r]; exact hn)) (fun hf => hf.elim) w.entropy

/-- A run that follows another one ends in a store in which `I` holds. -/
theorem sim_store {α : Type} {m : PyM (Alarm R) α} {m' : PyM (World R) α}
    (h : Sim interrupt (Struck Q I) (Follow Q I D) m m') {s : Alarm R}
    (hs : Follow Q I D s s.world) : I (m s).2.world := by
  rcases h s _ hs with ⟨_, h2⟩ | ⟨_, h2⟩
  · rw [h2.1]; exact h2.2.2.2.2
  · exact h2.2.2.2

/-- A run in which no interrupt will come. -/
theorem sim_calm {α : Type} {m : PyM (Alarm R) α} {m' : PyM (World R) α}
    (h : Sim interrupt (Struck False I) (Follow False I D) m m') {s : Alarm R}
    (hs : Follow False I D s s.world) :
    (m s).1 = (m' s.world).1 ∧ (m s).2.world = (m' s.world).2 ∧
      Follow False I D (m s).2 (m s).2.world := by
  rcases h s _ hs with ⟨h1, h2⟩ | ⟨_, h2⟩
  · exact ⟨h1, h2.1, by rw [h2.1]; exact h2⟩
  · exact h2.1.elim

/-! ### Resetting revives generators -/

/-- No interrupt will come, the classes are those of `w0`, and the objects in `D` have living
generators. -/
abbrev Calm (w0 : World R) (D : Ref → Prop) (s : Alarm R) : Prop :=
  Follow False (ShapeSeeds (fun _ => True) (fun _ => False) w0) D s s.world

theorem reset_calm {w0 : World R} (hT : T.Sound) (fuel : Nat) (r : Ref) :
    Sim interrupt (Struck False (ShapeSeeds (fun _ => True) (fun _ => False) w0))
      (Follow False (ShapeSeeds (fun _ => True) (fun _ => False) w0) D) (Alarm.reset T fuel r)
      (World.reset fuel r) :=
  (reset_kept (fun _ => True) (fun _ => False) w0 (fun _ _ _ _ => trivial) fun _ h => h.elim).reset
    (fun r hr w h => sound_shape hT r hr w h) fuel r trivial

theorem Calm.with {w0 : World R} {s : Alarm R} (h : Calm w0 (fun _ => False) s) {D : Ref → Prop}
    (hd : ∀ x, D x → s.dead x = false) : Calm w0 D s := ⟨h.1, h.2.1, h.2.2.1, hd, h.2.2.2.2⟩

theorem Calm.weaken {w0 : World R} {s : Alarm R} (h : Calm w0 D s) : Calm w0 (fun _ => False) s :=
  ⟨h.1, h.2.1, h.2.2.1, fun _ h => h.elim, h.2.2.2.2⟩

theorem guarded_calm {α : Type} {r : Ref} {m : PyM (Alarm R) α} {s s' : Alarm R} {a : α}
    (hs : s.left = none) (hm : (m s).2.left = none) (h : guarded T r m s = (.ok a, s')) :
    m s = (.ok a, s') := by
  have e1 : tick T r s = (.ok (), s) := by unfold tick; rw [hs]
  unfold guarded at h
  rw [bind_ok e1] at h
  obtain ⟨b, s1, h1, h2⟩ := bind_eq_ok h
  rw [h1] at hm
  have e2 : tick T r s1 = (.ok (), s1) := by unfold tick; rw [show s1.left = none from hm]
  rw [bind_ok e2] at h2
  cases h2
  exact h1

theorem Calm.left {w0 : World R} {s : Alarm R} (h : Calm w0 D s) : s.left = none :=
  h.2.2.1.resolve_left id

theorem doReset_revives {w0 : World R} (hT : T.Sound) {fuel : Nat} (l : List Ref)
    (ih : ∀ r (s s' : Alarm R) (x : Except Err Unit), Calm w0 (fun _ => False) s →
      Alarm.reset T fuel r s = (x, s') → x = .ok () ∨ x = .error .attributeError →
      AliveBelow w0 r s')
    (s s' : Alarm R) (hs : Calm w0 (fun _ => False) s)
    (h : Group.doMethod (l.map some) (Alarm.reset T fuel) s = (.ok (), s')) :
    ∀ c ∈ l, AliveBelow w0 c s' :=
  (doMethod_all (I := Calm w0 (fun _ => False)) (Q := AliveBelow w0) l
    (fun c _ u hu => (sim_calm (reset_calm hT fuel c) hu).2.2)
    (fun c _ d _ u hu => by
      have := (sim_calm (reset_calm (D := fun x => Below w0 c x ∧ Node.iterates (w0.obj x).node = true)
        hT fuel d) (hu.1.with fun x hx => hu.2 x hx.1 hx.2)).2.2
      exact ⟨Calm.weaken this, fun x h1 h2 => this.2.2.2.1 x ⟨h1, h2⟩⟩)
    (fun c _ u u' x hu he hx => ih c u u' x hu he hx) s s' hs h).2

theorem AliveBelow.of_children {w0 : World R} {r : Ref} {s : Alarm R}
    (hi : Node.iterates (w0.obj r).node = false)
    (h : ∀ c ∈ (w0.obj r).children, AliveBelow w0 c s) : AliveBelow w0 r s := by
  intro x hx hit
  cases hx with
  | self => rw [hi] at hit; cases hit
  | step hc h' => exact h _ hc x h' hit

theorem mixinReset_revives {w0 : World R} (hT : T.Sound) {fuel : Nat} {r : Ref}
    (hr : Node.isRandom (w0.obj r).node = true) (hch : Node.isChoice (w0.obj r).node = false)
    (ih : ∀ r (s s' : Alarm R) (x : Except Err Unit), Calm w0 (fun _ => False) s →
      Alarm.reset T fuel r s = (x, s') → x = .ok () ∨ x = .error .attributeError →
      AliveBelow w0 r s')
    (s s' : Alarm R) (hs : Calm w0 (fun _ => False) s)
    (h : Alarm.mixinReset T (Alarm.reset T fuel) r s = (.ok (), s')) :
    ∀ c ∈ (w0.obj r).children, AliveBelow w0 c s' := by
  have hk := reset_kept (R := R) (fun _ => True) (fun _ => False) w0 (fun _ _ _ _ => trivial) fun _ h => h.elim
  have hT' : ∀ r, True → ∀ w, ShapeSeeds (fun _ => True) (fun _ => False) w0 w →
      ShapeSeeds (fun _ => True) (fun _ => False) w0 (T.world r w) :=
    fun r hr w h => sound_shape hT r hr w h
  unfold Alarm.mixinReset at h
  rw [run_get_bind] at h
  have hn := hs.2.2.2.2.1.node r
  unfold Attrs.children at h
  rw [hn] at h
  obtain ⟨_, s1, h1, h2⟩ := bind_eq_ok h
  have c1 : Calm w0 (fun _ => False) s1 := by
    have := (sim_calm (hk.setChildSeeds hT' (r := r) trivial (s.world.obj r).seed) hs).2.2
    rw [h1] at this; exact this
  obtain ⟨_, s2, h3, h4⟩ := bind_eq_ok h2
  have c2 : Calm w0 (fun _ => False) s2 := by
    have := (sim_calm (guarded_sim (T := T) (r := r) (hT' r trivial) fun s' w' hs' => lift_simAt
      (m := World.newRng r (s.world.obj r).seed)
      (fun hI => hk.newRng _ r _ hI trivial hr hch) hs') c1).2.2
    rw [h3] at this; exact this
  exact doReset_revives hT _ ih s2 s' c2 h4

/-- A reset without interrupt that comes to its end gives new generators to all emitters below the
object. -/
theorem reset_revives {w0 : World R} (hT : T.Sound) : ∀ (fuel : Nat) (r : Ref) (s s' : Alarm R)
    (x : Except Err Unit), Calm w0 (fun _ => False) s → Alarm.reset T fuel r s = (x, s') →
    x = .ok () ∨ x = .error .attributeError → AliveBelow w0 r s' := by
  intro fuel
  induction fuel with
  | zero =>
    intro r s s' x _ h hx
    cases h
    rcases hx with hx | hx <;> cases hx
  | succ fuel ih =>
    intro r s s' x hs h hx
    have hn := hs.2.2.2.2.1.node r
    by_cases hnone : (w0.obj r).node = none
    · refine AliveBelow.of_children (by rw [hnone]; rfl) fun c hc => ?_
      unfold Attrs.children at hc
      rw [hnone] at hc
      cases hc
    have hx' : x = .ok () := by
      rcases hx with hx | hx
      · exact hx
      · subst hx
        have h1 := (sim_calm (reset_calm hT (fuel + 1) r) hs).1
        rw [h] at h1
        exact absurd h1.symm (World.reset_attributeError (fuel + 1) r s.world (by rw [hn]; exact hnone))
    subst hx'
    have leaf : Node.iterates (w0.obj r).node = false → (w0.obj r).children = [] →
        AliveBelow w0 r s' := fun h1 h2 =>
      AliveBelow.of_children h1 fun c hc => by rw [h2] at hc; cases hc
    unfold Alarm.reset at h
    rw [run_get_bind] at h
    have mix := fun hr hch => mixinReset_revives (w0 := w0) (r := r) hT hr hch ih s
    have iterating : ∀ {m : PyM (World R) Unit}, (∀ w, (m w).1 = .ok ()) →
        (w0.obj r).children = [] → guarded T r (do
          lift m
          revive r) s = (.ok (), s') → AliveBelow w0 r s' := by
      intro m hm hc hg
      have left0 := Calm.left hs
      have h1 : (lift m >>= fun _ => revive r) s =
          (.ok (), { s with world := (m s.world).2, dead := fun x => if x = r then false else s.dead x }) := by
        have : lift m s = (.ok (), { s with world := (m s.world).2 }) := by
          unfold lift
          have := hm s.world
          rcases hms : m s.world with ⟨a, b⟩
          rw [hms] at this
          dsimp only at this ⊢
          rw [this]
        rw [bind_ok this]
        rfl
      have h2 := guarded_calm (Calm.left hs) (by rw [h1]; exact left0) hg
      rw [h1] at h2
      cases h2
      intro x hx _
      cases hx with
      | self => exact if_pos rfl
      | step hc' _ => rw [hc] at hc'; cases hc'
    have twice : Node.isRandom (w0.obj r).node = true → Node.isChoice (w0.obj r).node = false →
        Node.iterates (w0.obj r).node = false → (do
          Alarm.mixinReset T (Alarm.reset T fuel) r
          let a := (← PyM.get).world.obj r
          Alarm.setChildSeeds T a.children a.seed
          Group.doMethod (a.children.map some) (Alarm.reset T fuel)) s = (.ok (), s') →
        AliveBelow w0 r s' := by
      intro hr hch hit h
      have hk := reset_kept (R := R) (fun _ => True) (fun _ => False) w0 (fun _ _ _ _ => trivial)
        fun _ h => h.elim
      have hT' : ∀ r, True → ∀ w, ShapeSeeds (fun _ => True) (fun _ => False) w0 w →
          ShapeSeeds (fun _ => True) (fun _ => False) w0 (T.world r w) :=
        fun r hr w h => sound_shape hT r hr w h
      obtain ⟨_, s1, h1, h2⟩ := bind_eq_ok h
      have c1 : Calm w0 (fun _ => False) s1 := by
        have := (sim_calm (hk.mixinReset hT' (r := r) (f := Alarm.reset T fuel)
          (f' := World.reset fuel) (fun c _ => reset_calm hT fuel c) trivial hr hch) hs).2.2
        rw [h1] at this; exact this
      rw [run_get_bind] at h2
      have hn1 := c1.2.2.2.2.1.node r
      unfold Attrs.children at h2
      rw [hn1] at h2
      obtain ⟨_, s2, h3, h4⟩ := bind_eq_ok h2
      have c2 : Calm w0 (fun _ => False) s2 := by
        have := (sim_calm (hk.setChildSeeds hT' (r := r) trivial (s1.world.obj r).seed) c1).2.2
        rw [h3] at this; exact this
      exact AliveBelow.of_children hit (doReset_revives hT _ ih s2 s' c2 h4)
    dsimp only at h
    rw [hn] at h
    unfold Attrs.children at leaf iterating mix
    rcases hk : (w0.obj r).node with _ | node
    · exact absurd hk hnone
    · rw [hk] at h leaf iterating mix twice
      have up : Node.iterates (some node) = false →
          (∀ c ∈ (w0.obj r).children, AliveBelow w0 c s') → AliveBelow w0 r s' := fun h1 h2 =>
        AliveBelow.of_children (by rw [hk]; exact h1) h2
      unfold Attrs.children at up
      rw [hk] at up
      cases node with
      | choice k => exact leaf rfl rfl
      | static => exact leaf rfl rfl
      | iterative => exact iterating (fun _ => rfl) rfl h
      | sequential k => exact iterating (fun _ => rfl) rfl h
      | word l a => exact twice rfl rfl rfl h
      | text n wd sp => exact twice rfl rfl rfl h
      | wrapOne y => exact up rfl (mix rfl rfl s' hs h)
      | wrapMany y => exact up rfl (mix rfl rfl s' hs h)
      | copyFields a b c => exact leaf rfl rfl
      | basedOn a b => exact leaf rfl rfl
      | field n e rp g hd =>
        have hk' := reset_kept (R := R) (fun _ => True) (fun _ => False) w0 (fun _ _ _ _ => trivial)
          fun _ h => h.elim
        have c0 := (sim_calm (hk'.mixinReset (fun r hr w h => sound_shape hT r hr w h) (r := r)
          (f := Alarm.reset T fuel) (f' := World.reset fuel) (D := fun _ => False)
          (fun c _ => reset_calm hT fuel c) trivial (by rw [hk]; rfl) (by rw [hk]; rfl)) hs).2.2
        have hl : (Field.reset (attr (cacheAttr r)) (Alarm.mixinReset T (Alarm.reset T fuel) r) s).2.left
            = none := by
          unfold Field.reset
          rw [bind_apply]
          rcases hm : Alarm.mixinReset T (Alarm.reset T fuel) r s with ⟨e | u, s1⟩ <;> rw [hm] at c0
          · exact Calm.left c0
          · have left1 := Calm.left c0
            exact left1
        have h1 := guarded_calm (Calm.left hs) hl h
        obtain ⟨_, s1, h2, h3⟩ := bind_eq_ok h1
        cases h3
        exact up rfl (mix rfl rfl s1 hs h2)

end Alarm
end Fauxdoc
