import Verif.Proofs.Interrupt2
import Verif.Conform.Basic
import Verif.Spec.WorldDemo
/-
Interrupting generation, resetting and seeding at any moment, and starting again (C105).
-/
namespace Fauxdoc
open PyM World
variable {K : Type} [Field K] [LinearOrder K] [FloorRing K] {R : Rng K} {T : Tear R}

namespace Alarm
variable {Q : Prop} {P D : Ref → Prop}

theorem call_frame_sim (hT : T.Sound) (str : Val → List Char) (fuel : Nat) {r : Ref} {w0 : World R}
    (hP : ∀ r, P r → ∀ c ∈ (w0.obj r).children, P c) (hr : P r)
    (hD : ∀ x, P x → Node.iterates (w0.obj x).node = true → D x) :
    ChildSim interrupt (Struck Q (Frame P w0)) (Follow Q (Frame P w0) D) (Alarm.call T str fuel r)
      (World.call str fuel r) :=
  call_sim (frame_steps P w0 hP) (fun r hr w h => sound_frame hT r hr w h) hD str fuel r hr

theorem document_frame_sim (hT : T.Sound) (str : Val → List Char) (fuel : Nat) (fields : Dict Ref)
    {w0 : World R} (hP : ∀ r, P r → ∀ c ∈ (w0.obj r).children, P c) (hf : ∀ kf ∈ fields, P kf.2)
    (hD : ∀ x, P x → Node.iterates (w0.obj x).node = true → D x) :
    Sim interrupt (Struck Q (Frame P w0)) (Follow Q (Frame P w0) D)
      (Alarm.document T str fuel fields) (World.document str fuel fields) := by
  unfold Alarm.document World.document
  refine Sim.get_bind fun s w hsw => ?_
  rw [hsw.1]
  exact Schema.loop_sim fields [] (fun kf hkf => ⟨rfl,
    call_frame_sim hT str fuel hP (hf kf hkf) hD none⟩) s w hsw

theorem resetFields_eq (fuel : Nat) (fields : Dict Ref) :
    (Alarm.resetFields T fuel fields : PyM (Alarm R) Unit) =
      Group.doMethod ((fields.map (·.2)).map some) (Alarm.reset T fuel) := by
  unfold Alarm.resetFields Schema.resetFields Group.ofMap
  simp [List.map_map, Function.comp_def]

theorem seedFields_eq (fuel : Nat) (z : Option Int) (fields : Dict Ref) :
    (Alarm.seedFields T fuel z fields : PyM (Alarm R) Unit) =
      Group.doMethod ((fields.map (·.2)).map some) (Alarm.seed T fuel · z) := by
  unfold Alarm.seedFields Schema.seedFields Group.ofMap
  simp [List.map_map, Function.comp_def]

theorem reset_shape_sim (hT : T.Sound) (fuel : Nat) {r : Ref} {w0 : World R} {F : Ref → Prop}
    (hP : ∀ r, P r → ∀ c ∈ (w0.obj r).children, P c) (hr : P r)
    (hF : ∀ f, F f → ∀ r, f ∉ (w0.obj r).children) :
    Sim interrupt (Struck Q (ShapeSeeds P F w0)) (Follow Q (ShapeSeeds P F w0) D)
      (Alarm.reset T fuel r) (World.reset fuel r) :=
  (reset_kept P F w0 hP hF).reset (fun r hr w h => sound_shape hT r hr w h) fuel r hr

theorem resetFields_shape_sim (hT : T.Sound) (fuel : Nat) (fields : Dict Ref) {w0 : World R}
    {F : Ref → Prop} (hP : ∀ r, P r → ∀ c ∈ (w0.obj r).children, P c) (hf : ∀ kf ∈ fields, P kf.2)
    (hF : ∀ f, F f → ∀ r, f ∉ (w0.obj r).children) :
    Sim interrupt (Struck Q (ShapeSeeds P F w0)) (Follow Q (ShapeSeeds P F w0) D)
      (Alarm.resetFields T fuel fields) (World.resetFields fuel fields) := by
  rw [resetFields_eq, World.resetFields_eq]
  refine Group.doMethod_sim interrupt_ne fun r hr => ?_
  obtain ⟨kf, hkf, rfl⟩ := List.mem_map.1 hr
  exact reset_shape_sim hT fuel hP (hf kf hkf) hF

theorem seed_shape_sim (hT : T.Sound) (fuel : Nat) {r : Ref} (z : Option Int) {w0 : World R}
    (hP : ∀ r, P r → ∀ c ∈ (w0.obj r).children, P c) (hr : P r) :
    Sim interrupt (Struck Q (ShapeSeeds P (fun _ => False) w0))
      (Follow Q (ShapeSeeds P (fun _ => False) w0) D)
      (Alarm.seed T fuel r z) (World.seed fuel r z) :=
  (seed_kept' P w0 hP).seed (fun r hr w h => sound_shape hT r hr w h) fuel r z hr

theorem ShapeSeeds.refl (P F : Ref → Prop) (w : World R) : ShapeSeeds P F w w :=
  ⟨.refl P w, fun _ _ => rfl⟩

/-- Following a run, as the theorems below put it. -/
theorem sim_follows {α : Type} {I : World R → Prop} {m : PyM (Alarm R) α} {m' : PyM (World R) α}
    {s : Alarm R} (h : ∀ Q, Sim interrupt (Struck Q I) (Follow Q I fun x => s.dead x = false) m m')
    (hrang : s.rang = false) (hI : I s.world) : Follows s (m s) (m' s.world) I := by
  have hs : Follow (s.left ≠ none) I (fun x => s.dead x = false) s s.world :=
    ⟨rfl, hrang, (Classical.em _).symm, fun _ h => h, hI⟩
  rcases h _ s _ hs with ⟨h1, h2⟩ | ⟨h1, h2⟩
  · exact .inl ⟨h2.2.1, h1, h2.1, h2.2.2.2.1⟩
  · exact .inr ⟨h2.2.1, h1, h2.1, h2.2.2.2⟩

theorem Follows.mono {α : Type} {s : Alarm R} {out : Except Err α × Alarm R}
    {full : Except Err α × World R} {I J : World R → Prop} (h : Follows s out full I)
    (hIJ : ∀ w, I w → J w) : Follows s out full J :=
  h.imp id fun ⟨h1, h2, h3, h4⟩ => ⟨h1, h2, h3, hIJ _ h4⟩

end Alarm

/-! ### An interrupted run -/

/-- **C105 (calls).** Calling any object, with an interrupt due at any moment or never: if the
interrupt does not come during the call, the call does what it would have done; if it comes, the call
raises it, no configuration has changed anywhere, and nothing has changed outside the object and what
is below it. -/
theorem C105_call (hT : T.Sound) (str : Val → List Char) (fuel : Nat) (r : Ref) (arg : Option Val)
    (s : Alarm R) (hrang : s.rang = false) (halive : Alarm.AliveBelow s.world r s) :
    s.Follows (Alarm.call T str fuel r arg s) (World.call str fuel r arg s.world) fun w =>
      SameConfig s.world w ∧ ∀ x, ¬ Below s.world r x → w.obj x = s.world.obj x :=
  (Alarm.sim_follows (fun _ => Alarm.call_frame_sim hT str fuel (w0 := s.world)
    (P := Below s.world r) (fun _ hx _ hc => hx.child hc) (.self r) halive arg) hrang
    (.refl _ _)).mono fun _ h => ⟨h.config, h.frame⟩

/-- **C105 (documents).** The same for calling a schema. -/
theorem C105_document (hT : T.Sound) (str : Val → List Char) (fuel : Nat) (fields : Dict Ref)
    (s : Alarm R) (hrang : s.rang = false)
    (halive : ∀ kf ∈ fields, Alarm.AliveBelow s.world kf.2 s) :
    s.Follows (Alarm.document T str fuel fields s) (World.document str fuel fields s.world) fun w =>
      SameConfig s.world w ∧
        ∀ x, (∀ kf ∈ fields, ¬ Below s.world kf.2 x) → w.obj x = s.world.obj x :=
  (Alarm.sim_follows (fun _ => Alarm.document_frame_sim hT str fuel fields (w0 := s.world)
    (P := fun x => ∃ kf ∈ fields, Below s.world kf.2 x)
    (fun _ ⟨kf, h1, h2⟩ _ hc => ⟨kf, h1, h2.child hc⟩) (fun kf h => ⟨kf, h, .self _⟩)
    fun x ⟨kf, h1, h2⟩ h3 => halive kf h1 x h2 h3) hrang (.refl _ _)).mono fun _ h =>
      ⟨h.config, fun x hx => h.frame x fun ⟨kf, h1, h2⟩ => hx kf h1 h2⟩

/-- **C105 (reset).** The same for resetting, after which seeds may have been passed on. -/
theorem C105_reset (hT : T.Sound) (fuel : Nat) (r : Ref) (s : Alarm R) (hrang : s.rang = false) :
    s.Follows (Alarm.reset T fuel r s) (World.reset fuel r s.world) fun w =>
      (∀ x, (w.obj x).shape = (s.world.obj x).shape) ∧
        ∀ x, ¬ Below s.world r x → w.obj x = s.world.obj x :=
  (Alarm.sim_follows (fun _ => Alarm.reset_shape_sim hT fuel (w0 := s.world) (P := Below s.world r)
    (F := fun _ => False) (fun _ hx _ hc => hx.child hc) (.self r) fun _ h => h.elim) hrang
    (Alarm.ShapeSeeds.refl _ _ _)).mono fun _ h => ⟨h.1.shape, h.1.frame⟩

/-- **C105 (seed).** The same for seeding. -/
theorem C105_seed (hT : T.Sound) (fuel : Nat) (r : Ref) (z : Option Int) (s : Alarm R)
    (hrang : s.rang = false) :
    s.Follows (Alarm.seed T fuel r z s) (World.seed fuel r z s.world) fun w =>
      (∀ x, (w.obj x).shape = (s.world.obj x).shape) ∧
        ∀ x, ¬ Below s.world r x → w.obj x = s.world.obj x :=
  (Alarm.sim_follows (fun _ => Alarm.seed_shape_sim hT fuel z (w0 := s.world) (P := Below s.world r)
    (fun _ hx _ hc => hx.child hc) (.self r)) hrang
    (Alarm.ShapeSeeds.refl _ _ _)).mono fun _ h => ⟨h.1.shape, h.1.frame⟩

/-! ### Starting again -/

namespace Alarm

theorem use_keeps {str : Val → List Char} {s u : Alarm R} (h : Use str s u) :
    (∀ x, (u.world.obj x).shape = (s.world.obj x).shape) ∧
    ∀ f, (∀ r, f ∉ (s.world.obj r).children) →
      (u.world.obj f).rngSeed = (s.world.obj f).rngSeed := by
  have ofFrame : ∀ w, Frame (fun _ => True) s.world w →
      (∀ x, (w.obj x).shape = (s.world.obj x).shape) ∧
      ∀ f, (∀ r, f ∉ (s.world.obj r).children) → (w.obj f).rngSeed = (s.world.obj f).rngSeed :=
    fun w h => ⟨fun x => shape_of_config (h.config x), fun f _ => rngSeed_of_config (h.config f)⟩
  have start : ∀ n, Follow True (ShapeSeeds (fun _ => True)
      (fun f => ∀ r, f ∉ (s.world.obj r).children) s.world) (fun _ => False) (s.set n) (s.set n).world :=
    fun n => ⟨rfl, rfl, .inl trivial, fun _ h => h.elim, ShapeSeeds.refl _ _ _⟩
  have ofShape : ∀ w, ShapeSeeds (fun _ => True) (fun f => ∀ r, f ∉ (s.world.obj r).children) s.world w →
      (∀ x, (w.obj x).shape = (s.world.obj x).shape) ∧
      ∀ f, (∀ r, f ∉ (s.world.obj r).children) → (w.obj f).rngSeed = (s.world.obj f).rngSeed :=
    fun w h => ⟨h.1.shape, h.2⟩
  cases h with
  | call T hT n fuel r arg =>
    exact ofFrame _ (call_frames hT str fuel r arg (fun _ => True) s.world (fun _ _ _ _ => trivial)
      trivial (s.set n) (.refl _ _))
  | document T hT n fuel fields =>
    have h : Rel (fun v v' => v = v' ∧ InStore (Frame (fun _ => True) s.world) v)
        (Schema.loop (fun r => ((s.set n).world.obj r).hide) (fun r => Alarm.call T str fuel r none) []
          fields)
        (Schema.loop (fun r => ((s.set n).world.obj r).hide) (fun r => Alarm.call T str fuel r none) []
          fields) :=
      Schema.loop_rel fields [] fun kf hkf => ⟨rfl, (call_frames hT str fuel kf.2 none (fun _ => True)
        s.world (fun _ _ _ _ => trivial) trivial).rel⟩
    exact ofFrame _ (h (s.set n) (s.set n) ⟨rfl, .refl _ _⟩).2.2
  | reset T hT n fuel r =>
    exact ofShape _ (sim_store (reset_shape_sim hT fuel (fun _ _ _ _ => trivial) trivial
      fun f h => h) (start n))
  | resetFields T hT n fuel fields =>
    exact ofShape _ (sim_store (resetFields_shape_sim hT fuel fields (fun _ _ _ _ => trivial)
      (fun _ _ => trivial) fun f h => h) (start n))

theorem children_of_shape {w v : World R} (h : ∀ x, (v.obj x).shape = (w.obj x).shape) (x : Ref) :
    (v.obj x).children = (w.obj x).children := by
  unfold Attrs.children
  rw [node_of_shape (h x)]

theorem history_keeps {str : Val → List Char} {s u : Alarm R} (h : History str s u) :
    (∀ x, (u.world.obj x).shape = (s.world.obj x).shape) ∧
    ∀ f, (∀ r, f ∉ (s.world.obj r).children) →
      (u.world.obj f).rngSeed = (s.world.obj f).rngSeed := by
  induction h with
  | start => exact ⟨fun _ => rfl, fun _ _ => rfl⟩
  | use _ h' ih =>
    obtain ⟨h1, h2⟩ := ih
    obtain ⟨h3, h4⟩ := use_keeps h'
    refine ⟨fun x => (h3 x).trans (h1 x), fun f hf => (h4 f fun r => ?_).trans (h2 f hf)⟩
    rw [children_of_shape h1 r]; exact hf r

theorem longHistory_shape {str : Val → List Char} {s u : Alarm R} (h : LongHistory str s u) :
    ∀ x, (u.world.obj x).shape = (s.world.obj x).shape := by
  induction h with
  | start => exact fun _ => rfl
  | use _ h' ih => exact fun x => ((use_keeps h').1 x).trans (ih x)
  | @seed u _ T hT n fuel r z ih =>
    refine fun x => Eq.trans ?_ (ih x)
    exact (sim_store (Q := True) (D := fun _ => False) (s := u.set n)
      (seed_shape_sim (P := fun _ => True) (w0 := u.world) hT fuel z
        (fun _ _ _ _ => trivial) trivial) ⟨rfl, rfl, .inl trivial, fun _ h => h.elim,
          ShapeSeeds.refl _ _ _⟩).1.shape x
  | @seedFields u _ T hT n fuel z fields ih =>
    refine fun x => Eq.trans ?_ (ih x)
    have : Sim interrupt (Struck True (ShapeSeeds (fun _ => True) (fun _ => False) u.world))
        (Follow True (ShapeSeeds (fun _ => True) (fun _ => False) u.world) (fun _ => False))
        (Alarm.seedFields T fuel z fields) (World.seedFields fuel z fields) := by
      rw [seedFields_eq, World.seedFields_eq]
      exact Group.doMethod_sim interrupt_ne fun r _ =>
        seed_shape_sim hT fuel z (fun _ _ _ _ => trivial) trivial
    exact (sim_store (s := u.set n) this ⟨rfl, rfl, .inl trivial, fun _ h => h.elim,
      ShapeSeeds.refl _ _ _⟩).1.shape x

/-- A reset of all fields that nobody interrupts. -/
theorem resetFields_calm (hT : T.Sound) (fuel : Nat) (fields : Dict Ref) (s : Alarm R) :
    (Alarm.resetFields T fuel fields (s.set none)).1 = (World.resetFields fuel fields s.world).1 ∧
    (Alarm.resetFields T fuel fields (s.set none)).2.world =
      (World.resetFields fuel fields s.world).2 ∧
    ((Alarm.resetFields T fuel fields (s.set none)).1 = .ok () →
      ∀ kf ∈ fields, AliveBelow s.world kf.2 (Alarm.resetFields T fuel fields (s.set none)).2) := by
  have hs : Calm s.world (fun _ => False) (s.set none) :=
    ⟨rfl, rfl, .inr rfl, fun _ h => h.elim, ShapeSeeds.refl _ _ _⟩
  obtain ⟨h1, h2, _⟩ := sim_calm (resetFields_shape_sim hT fuel fields (w0 := s.world)
    (fun _ _ _ _ => trivial) (fun _ _ => trivial) fun _ h => h.elim) hs
  refine ⟨h1, h2, fun hok kf hkf => ?_⟩
  refine doReset_revives (w0 := s.world) hT (fields.map (·.2)) (reset_revives hT fuel) (s.set none) _ hs ?_ _
    (List.mem_map_of_mem hkf)
  rw [resetFields_eq] at hok ⊢
  exact Prod.ext hok rfl

/-- Documents made without interrupts. -/
theorem documents_calm (hT : T.Sound) (str : Val → List Char) (fuel : Nat) (fields : Dict Ref)
    (w0 : World R) (k : Nat) : ∀ s : Alarm R, Frame (fun _ => True) w0 s.world →
    (∀ kf ∈ fields, AliveBelow w0 kf.2 s) →
    Alarm.documents T str fuel fields k s = World.documents str fuel fields k s.world := by
  induction k with
  | zero => intro s _ _; rfl
  | succ k ih =>
    intro s h hal
    obtain ⟨h1, h2, h3⟩ := sim_calm (s := s.set none) (document_frame_sim (T := T) hT str fuel fields
      (w0 := s.world) (P := fun x => ∃ kf ∈ fields, Below w0 kf.2 x)
      (D := fun x => ∃ kf ∈ fields, Below w0 kf.2 x ∧ Node.iterates (w0.obj x).node = true)
      (fun r ⟨kf, hk, hb⟩ c hc => ⟨kf, hk, hb.child (by
        rw [← children_of_shape (fun x => shape_of_config (h.config x)) r]; exact hc)⟩)
      (fun kf hkf => ⟨kf, hkf, .self _⟩)
      fun x ⟨kf, hk, hb⟩ hit => ⟨kf, hk, hb, by
        rw [← node_of_shape (shape_of_config (h.config x))]; exact hit⟩)
      ⟨rfl, rfl, .inr rfl, fun x ⟨kf, hk, hb, hit⟩ => hal kf hk x hb hit, .refl _ _⟩
    have h4 := ih _ (show Frame (fun _ => True) w0 _ from
      ⟨h3.2.2.2.2.next.trans h.next, fun x => (h3.2.2.2.2.config x).trans (h.config x),
        fun x hx => absurd trivial hx⟩) fun kf hk x hb hit => h3.2.2.2.1 x ⟨kf, hk, hb, hit⟩
    unfold Alarm.documents World.documents
    rw [h1, h4, h2]
    rfl

theorem below_shape {w v : World R} (h : ∀ x, (v.obj x).shape = (w.obj x).shape) {r x : Ref} :
    Below v r x ↔ Below w r x := Below.congr fun x => node_of_shape (h x)

/-- Resetting after anything that leaves shapes and the seeds of the fields alone. -/
theorem recover_of (hT : T.Sound) (str : Val → List Char) (fuel : Nat) (fields : Dict Ref)
    (w : World R) (s : Alarm R) (hshape : ∀ x, (s.world.obj x).shape = (w.obj x).shape)
    (hran : ∀ kf ∈ fields, (w.obj kf.2).random = true)
    (hseed : ∀ kf ∈ fields, ∃ z : Int,
      (w.obj kf.2).rngSeed = some z ∧ (s.world.obj kf.2).rngSeed = some z)
    (hsrc : SourcesIn w fields) :
    (Alarm.resetFields T fuel fields (s.set none)).1 = (World.resetFields fuel fields w).1 ∧
    ((World.resetFields fuel fields w).1 = .ok () → ∀ fuel' k,
      Alarm.documents T str fuel' fields k (Alarm.resetFields T fuel fields (s.set none)).2 =
        World.documents str fuel' fields k (World.resetFields fuel fields w).2) := by
  obtain ⟨h1, h2, h3⟩ := resetFields_calm (T := T) hT fuel fields s
  obtain ⟨h4, h5⟩ := C54_alike str fuel fields w s.world (fun _ _ x _ => (hshape x).symm) hran hseed hsrc
  refine ⟨h1.trans h4.symm, fun hok fuel' k => ?_⟩
  have hal := h3 (by rw [h1, ← h4]; exact hok)
  rw [h5 hok fuel' k, ← h2]
  refine documents_calm hT str fuel' fields _ k _ (.refl _ _) fun kf hk x hb hit => ?_
  have hsh : ∀ x, ((Alarm.resetFields T fuel fields (s.set none)).2.world.obj x).shape =
      (s.world.obj x).shape := fun x =>
    (sim_store (Q := True) (D := fun _ => False) (s := s.set none)
      (resetFields_shape_sim (P := fun _ => True) (F := fun _ => False) (w0 := s.world) hT fuel fields
        (fun _ _ _ _ => trivial) (fun _ _ => trivial) fun _ h => h.elim)
      ⟨rfl, rfl, .inl trivial, fun _ h => h.elim, ShapeSeeds.refl _ _ _⟩).1.shape x
  exact hal kf hk x ((below_shape hsh).1 hb) (by rw [← node_of_shape (hsh x)]; exact hit)

end Alarm

/-- **C105 (starting again).** If the fields of a schema have seeds and none is used as an emitter,
then after any calls, documents and resets, each interrupted at any moment or not at all, resetting
the fields has the same outcome as if nothing had happened, and if it succeeds the schema gives the
same documents as if nothing had happened. -/
theorem C105_recover (hT : T.Sound) (str : Val → List Char) (fuel : Nat) (fields : Dict Ref)
    (s u : Alarm R) (hist : Alarm.History str s u)
    (hran : ∀ kf ∈ fields, (s.world.obj kf.2).random = true)
    (hseed : ∀ kf ∈ fields, (s.world.obj kf.2).rngSeed ≠ none)
    (hroot : ∀ kf ∈ fields, ∀ r, kf.2 ∉ (s.world.obj r).children)
    (hsrc : SourcesIn s.world fields) :
    (Alarm.resetFields T fuel fields (u.set none)).1 = (World.resetFields fuel fields s.world).1 ∧
    ((World.resetFields fuel fields s.world).1 = .ok () → ∀ fuel' k,
      Alarm.documents T str fuel' fields k (Alarm.resetFields T fuel fields (u.set none)).2 =
        World.documents str fuel' fields k (World.resetFields fuel fields s.world).2) := by
  obtain ⟨h1, h2⟩ := Alarm.history_keeps hist
  refine Alarm.recover_of hT str fuel fields s.world u h1 hran (fun kf hkf => ?_) hsrc
  rcases hs : (s.world.obj kf.2).rngSeed with _ | z
  · exact absurd hs (hseed kf hkf)
  · exact ⟨z, rfl, (h2 kf.2 (hroot kf hkf)).trans hs⟩

namespace Alarm

theorem seedFields_rngSeed (fuel : Nat) (z : Option Int) (fields : Dict Ref) (w : World R)
    (hok : (World.seedFields fuel z fields w).1 = .ok ()) (kf : String × Ref) (hkf : kf ∈ fields)
    (hran : (w.obj kf.2).random = true) :
    ((World.seedFields fuel z fields w).2.obj kf.2).rngSeed = z := by
  rw [World.seedFields_eq] at hok ⊢
  obtain ⟨h1, h2⟩ := doSeed_fresh (nodes := fun x => (w.obj x).node) (P := fun _ => True) (s := z)
    (fun _ _ _ _ => trivial) (seed_fresh (fun _ _ _ _ => trivial) fuel) (l := fields.map (·.2))
    (fun _ _ => trivial) w _ ⟨fun _ _ => rfl, fun _ h => h.elim, fun _ h => h.elim⟩
    (Prod.ext hok rfl)
  refine seeded_rngSeed (h2 _ (List.mem_map_of_mem hkf) _ (.self _)) ?_
  rw [h1.node _ trivial]
  exact hran

theorem seedFields_calm (hT : T.Sound) (fuel : Nat) (z : Option Int) (fields : Dict Ref)
    (s : Alarm R) :
    (Alarm.seedFields T fuel z fields (s.set none)).1 = (World.seedFields fuel z fields s.world).1 ∧
    (Alarm.seedFields T fuel z fields (s.set none)).2.world =
      (World.seedFields fuel z fields s.world).2 ∧
    ∀ x, ((Alarm.seedFields T fuel z fields (s.set none)).2.world.obj x).shape =
      (s.world.obj x).shape := by
  have : Sim interrupt (Struck False (ShapeSeeds (fun _ => True) (fun _ => False) s.world))
      (Follow False (ShapeSeeds (fun _ => True) (fun _ => False) s.world) (fun _ => False))
      (Alarm.seedFields T fuel z fields) (World.seedFields fuel z fields) := by
    rw [seedFields_eq, World.seedFields_eq]
    exact Group.doMethod_sim interrupt_ne fun r _ =>
      seed_shape_sim hT fuel z (fun _ _ _ _ => trivial) trivial
  obtain ⟨h1, h2, h3⟩ := sim_calm (s := s.set none) this
    ⟨rfl, rfl, .inr rfl, fun _ h => h.elim, ShapeSeeds.refl _ _ _⟩
  exact ⟨h1, h2, h3.2.2.2.2.1.shape⟩

end Alarm

/-- **C105 (seeding again).** After anything at all, seeding included and everything interrupted at
any moment or not at all, `seed_fields(z)` and then `reset_fields()`, where the seeding succeeds, has
the same outcome and gives the same documents as if nothing had happened before. -/
theorem C105_reseed (hT : T.Sound) (str : Val → List Char) (fuel : Nat) (fields : Dict Ref) (z : Int)
    (s u : Alarm R) (hist : Alarm.LongHistory str s u)
    (hran : ∀ kf ∈ fields, (s.world.obj kf.2).random = true) (hsrc : SourcesIn s.world fields)
    (hok : (World.seedFields fuel (some z) fields s.world).1 = .ok ())
    (hok' : (Alarm.seedFields T fuel (some z) fields (u.set none)).1 = .ok ()) :
    (Alarm.resetFields T fuel fields
      ((Alarm.seedFields T fuel (some z) fields (u.set none)).2.set none)).1 =
      (World.resetFields fuel fields (World.seedFields fuel (some z) fields s.world).2).1 ∧
    ((World.resetFields fuel fields (World.seedFields fuel (some z) fields s.world).2).1 = .ok () →
      ∀ fuel' k,
      Alarm.documents T str fuel' fields k (Alarm.resetFields T fuel fields
        ((Alarm.seedFields T fuel (some z) fields (u.set none)).2.set none)).2 =
      World.documents str fuel' fields k
        (World.resetFields fuel fields (World.seedFields fuel (some z) fields s.world).2).2) := by
  obtain ⟨h1, h2, h3⟩ := Alarm.seedFields_calm (T := T) hT fuel (some z) fields u
  have h0 := Alarm.longHistory_shape hist
  have hs : ∀ x, ((World.seedFields fuel (some z) fields s.world).2.obj x).shape =
      (s.world.obj x).shape := by
    obtain ⟨_, g2, g3⟩ := Alarm.seedFields_calm (T := T) hT fuel (some z) fields s
    rw [← g2]; exact g3
  have hran' : ∀ kf ∈ fields, (u.world.obj kf.2).random = true := fun kf hkf => by
    rw [Attrs.random_eq, node_of_shape (h0 _)]; exact hran kf hkf
  refine Alarm.recover_of hT str fuel fields _ _ (fun x => ((h3 x).trans (h0 x)).trans (hs x).symm)
    (fun kf hkf => ?_) (fun kf hkf => ⟨z, ?_, ?_⟩) ?_
  · rw [Attrs.random_eq, node_of_shape (hs _)]; exact hran kf hkf
  · exact Alarm.seedFields_rngSeed fuel _ fields _ hok kf hkf (hran kf hkf)
  · rw [h2]
    exact Alarm.seedFields_rngSeed fuel _ fields _ (h1 ▸ hok') kf hkf (hran' kf hkf)
  · intro kf hkf x hx g hg
    have hg' : g ∈ (s.world.obj x).sources := by
      unfold Attrs.sources at hg ⊢
      rwa [node_of_shape (hs x)] at hg
    obtain ⟨kf', h4, h5⟩ := hsrc kf hkf x ((Alarm.below_shape hs).1 hx) g hg'
    exact ⟨kf', h4, (Alarm.below_shape hs).2 h5⟩

/-! ### The fields' last values -/

/-- A field's call that raises has not assigned the last value. -/
theorem Field.call_error {σ : Type} {J : σ → Prop} {L : Attr σ Val} {em rep gate : Child σ}
    (hg : Keeps J (gate none)) (hr : Keeps J (rep none)) (he : ∀ a, Keeps J (em a)) (s : σ) (hs : J s)
    {e : Err} (h : (Field.call L em rep gate s).1 = .error e) : J (Field.call L em rep gate s).2 := by
  unfold Field.call at h ⊢
  rw [bind_apply] at h ⊢
  have h1 := hg s hs
  rcases e1 : gate none s with ⟨e' | g, s1⟩ <;> rw [e1] at h1 h
  · exact h1
  dsimp only at h ⊢
  split at h
  · rename_i ht
    rw [if_pos ht]
    rw [bind_apply] at h ⊢
    have h2 := hr s1 h1
    rcases e2 : rep none s1 with ⟨e' | n, s2⟩ <;> rw [e2] at h2 h
    · exact h2
    dsimp only at h ⊢
    rw [bind_apply] at h ⊢
    have h3 := he (some n) s2 h2
    rcases e3 : em (some n) s2 with ⟨e' | v, s3⟩ <;> rw [e3] at h3 h
    · exact h3
    · cases h
  · cases h

theorem Field.call_cache {σ : Type} {L : Attr σ Val} {em rep gate : Child σ} {s s' : σ} {v : Val}
    (h : Field.call L em rep gate s = (.ok v, s')) : L.get s' = v := by
  unfold Field.call at h
  obtain ⟨g, s1, _, h⟩ := bind_eq_ok h
  split at h
  · obtain ⟨n, s2, _, h⟩ := bind_eq_ok h
    obtain ⟨x, s3, _, h⟩ := bind_eq_ok h
    cases h
    exact L.get_set _ _
  · cases h
    exact L.get_set _ _

namespace Alarm

theorem guarded_congr {α : Type} {r : Ref} {m m' : PyM (Alarm R) α} {s : Alarm R}
    (h : ∀ u : Alarm R, u.world = s.world → u.dead = s.dead → m u = m' u) : guarded T r m s = guarded T r m' s := by
  unfold guarded
  rw [bind_apply, bind_apply]
  unfold tick
  rcases hl : s.left with _ | (_ | n)
  · dsimp only; rw [bind_apply, bind_apply, h s rfl rfl]
  · rfl
  · dsimp only; rw [bind_apply, bind_apply, h { s with left := some n } rfl rfl]

/-- Where an interrupt strikes a method. -/
theorem guarded_struck {α : Type} {r : Ref} {m : PyM (Alarm R) α} {s : Alarm R}
    (h : (guarded T r m s).2.rang = true) (hs : s.rang = false) :
    guarded T r m s = (.error interrupt, s.strike T r) ∨
    ∃ u : Alarm R, u.world = s.world ∧ u.rang = false ∧ u.dead = s.dead ∧
      ((∃ e, m u = (.error e, (guarded T r m s).2)) ∨
       ∃ a v, m u = (.ok a, v) ∧
        (guarded T r m s = (.error interrupt, v.strike T r) ∨ (v.rang = true ∧
          (guarded T r m s).2.world = v.world))) := by
  unfold guarded at h ⊢
  rw [bind_apply] at h ⊢
  have after : ∀ u : Alarm R, u.world = s.world → u.rang = false → u.dead = s.dead →
      ((m >>= fun a => tick T r >>= fun _ => Pure.pure a) u).2.rang = true →
      ((∃ e, m u = (.error e, ((m >>= fun a => tick T r >>= fun _ => Pure.pure a) u).2)) ∨
       ∃ a v, m u = (.ok a, v) ∧
        ((m >>= fun a => tick T r >>= fun _ => Pure.pure a) u = (.error interrupt, v.strike T r) ∨
          (v.rang = true ∧
            ((m >>= fun a => tick T r >>= fun _ => Pure.pure a) u).2.world = v.world))) := by
    intro u _ _ _ hr
    rw [bind_apply] at hr ⊢
    rcases hm : m u with ⟨e | a, v⟩ <;> rw [hm] at hr
    · exact .inl ⟨e, rfl⟩
    · refine .inr ⟨a, v, rfl, ?_⟩
      dsimp only at hr ⊢
      rw [bind_apply] at hr ⊢
      unfold tick at hr ⊢
      rcases hl : v.left with _ | (_ | n) <;> rw [hl] at hr
      · exact .inr ⟨hr, rfl⟩
      · exact .inl rfl
      · exact .inr ⟨hr, rfl⟩
  unfold tick at h ⊢
  rcases hl : s.left with _ | (_ | n) <;> rw [hl] at h
  · exact .inr ⟨s, rfl, hs, rfl, after s rfl hs rfl h⟩
  · exact .inl rfl
  · exact .inr ⟨{ s with left := some n }, rfl, hs, rfl, after _ rfl hs rfl h⟩

/-- An interrupted call of a field leaves the last value as it was, or as the call would have
left it. -/
theorem field_struck (hT : T.Sound) (str : Val → List Char) (fuel : Nat) (f : Ref) (s : Alarm R)
    (hrang : s.rang = false) (halive : AliveBelow s.world f s)
    (hfield : (s.world.obj f).isField = true)
    (hself : ∀ c ∈ (s.world.obj f).children, ¬ Below s.world c f)
    (h : (Alarm.call T str fuel f none s).2.rang = true) :
    ((Alarm.call T str fuel f none s).2.world.obj f).cache = (s.world.obj f).cache ∨
      (World.call str fuel f none s.world).1 =
        .ok ((Alarm.call T str fuel f none s).2.world.obj f).cache := by
  have strikes : ∀ u : Alarm R, ((u.strike T f).world.obj f).cache = (u.world.obj f).cache := by
    intro u
    change ((u.world.upd f T.attrs).obj f).cache = _
    rw [upd_obj, if_pos rfl]
    exact (hT _).2
  cases fuel with
  | zero =>
    change s.rang = true at h
    rw [hrang] at h; cases h
  | succ fuel =>
    obtain ⟨nm, e, rp, g, hd, hn⟩ : ∃ nm e rp g hd, (s.world.obj f).node = some (.field nm e rp g hd) := by
      unfold Attrs.isField at hfield
      split at hfield
      · exact ⟨_, _, _, _, _, ‹_›⟩
      · cases hfield
    have hc : (s.world.obj f).children = [e, rp, g] := by unfold Attrs.children; rw [hn]; rfl
    rw [hc] at hself
    have hW : World.call str (fuel + 1) f none s.world = Field.call (cacheAttr f)
        (World.call str fuel e) (World.call str fuel rp) (World.call str fuel g) s.world := by
      conv_lhs => unfold World.call
      rw [run_get_bind, hn]
    rw [hW]
    have hA : Alarm.call T str (fuel + 1) f none s = guarded T f (Field.call (attr (cacheAttr f))
        (Alarm.call T str fuel e) (Alarm.call T str fuel rp) (Alarm.call T str fuel g)) s := by
      conv_lhs => unfold Alarm.call
      exact guarded_congr fun u hu _ => by rw [run_get_bind, hu, hn]
    rw [hA] at h ⊢
    have hin : ∀ c ∈ [e, rp, g], ∀ x, Below s.world c x → Below s.world f x := fun c hc' x hx =>
      .step (by rw [hc]; exact hc') hx
    have hP : ∀ x, (∃ c ∈ [e, rp, g], Below s.world c x) → ∀ d ∈ (s.world.obj x).children,
        ∃ c ∈ [e, rp, g], Below s.world c d := fun x ⟨c, h1, h2⟩ d hd => ⟨c, h1, h2.child hd⟩
    rcases guarded_struck h hrang with h1 | ⟨u, u1, u2, u3, h1⟩
    · rw [h1]
      exact .inl (strikes s)
    · rcases h1 with ⟨er, h1⟩ | ⟨v, t, h1, h2⟩
      · left
        have hk : ∀ c ∈ [e, rp, g], ∀ a, Keeps (InStore (Frame (fun x => ∃ c ∈ [e, rp, g],
            Below s.world c x) s.world)) (Alarm.call T str fuel c a) := fun c hc a =>
          call_frames hT str fuel c a _ s.world hP ⟨c, hc, .self c⟩
        have := Field.call_error (L := attr (cacheAttr f)) (hk g (by simp) none)
          (hk rp (by simp) none) (fun a => hk e (by simp) a) u
          (show Frame _ _ u.world by rw [u1]; exact .refl _ _) (congrArg Prod.fst h1)
        rw [h1] at this
        rw [this.frame f fun ⟨c, h3, h4⟩ => hself c h3 h4]
      · right
        have hP' : ∀ x, Below s.world f x → ∀ d ∈ (s.world.obj x).children, Below s.world f d :=
          fun x hx d hd => hx.child hd
        have hs := fun c (hc : c ∈ [e, rp, g]) => call_frame_sim (Q := True) (T := T)
          (D := fun x => Below s.world f x ∧ Node.iterates (s.world.obj x).node = true) hT str fuel
          (w0 := s.world) (P := Below s.world f) hP' (hin c hc c (.self c)) (fun x h1 h2 => ⟨h1, h2⟩)
        have hfs := Field.call_sim (ε := interrupt) (c := attr (cacheAttr f)) (c' := cacheAttr f)
          (fun v _ w hsw => attr_set_simAt (fun hI =>
            ((frame_steps (Below s.world f) s.world hP').cache f nm e rp g hd (.self f) hn v).keeps w hI)
            hsw)
          (hs e (by simp)) (hs rp (by simp)) (hs g (by simp)) u s.world
          ⟨u1, u2, .inl trivial, fun x hx => by rw [u3]; exact halive x hx.1 hx.2, .refl _ _⟩
        have hcache : (t.world.obj f).cache = v := Field.call_cache h1
        have hw : ((guarded T f (Field.call (attr (cacheAttr f)) (Alarm.call T str fuel e)
            (Alarm.call T str fuel rp) (Alarm.call T str fuel g)) s).2.world.obj f).cache = v := by
          rcases h2 with h2 | ⟨_, h2⟩
          · rw [h2]; exact (strikes t).trans hcache
          · rw [h2]; exact hcache
        rw [hw]
        rcases hfs with ⟨h3, _⟩ | ⟨h3, _⟩
        · rw [← h3, h1]
        · rw [h1] at h3; cases h3

theorem loop_struck (hT : T.Sound) (str : Val → List Char) (fuel : Nat) {w0 : World R}
    {hide : Ref → Bool} {P : Ref → Prop} (hP : ∀ r, P r → ∀ c ∈ (w0.obj r).children, P c)
    (hD : ∀ x, P x → Node.iterates (w0.obj x).node = true → D x) : ∀ (fields : Dict Ref)
    (doc : Dict Val) (s : Alarm R) (w : World R), (∀ kf ∈ fields, P kf.2) →
    Follow True (Frame P w0) D s w →
    (Schema.loop hide (fun r => Alarm.call T str fuel r none) doc fields s).2.rang = true →
    ∃ done k f rest doc' u w', fields = done ++ (k, f) :: rest ∧
      Schema.loop hide (fun r => World.call str fuel r none) doc done w = (.ok doc', w') ∧
      Follow True (Frame P w0) D u w' ∧
      (Schema.loop hide (fun r => Alarm.call T str fuel r none) doc fields s).2 =
        (Alarm.call T str fuel f none u).2 := by
  intro fields
  induction fields with
  | nil =>
    intro doc s w _ hs h
    change s.rang = true at h
    rw [hs.2.1] at h; cases h
  | cons kf fs ih =>
    obtain ⟨k, f⟩ := kf
    intro doc s w hf hs h
    have hsim := call_frame_sim (Q := True) (T := T) hT str fuel hP (hf (k, f) (by simp)) hD none s w hs
    have unf : Schema.loop hide (fun r => Alarm.call T str fuel r none) doc ((k, f) :: fs) s =
        (Alarm.call T str fuel f none >>= fun v => if hide f then
          Schema.loop hide (fun r => Alarm.call T str fuel r none) doc fs
          else Schema.loop hide (fun r => Alarm.call T str fuel r none) (doc.set k v) fs) s := rfl
    unfold PyM.SimAt at hsim
    rw [unf, bind_apply] at h ⊢
    rcases hc : Alarm.call T str fuel f none s with ⟨e | v, s1⟩ <;> rw [hc] at h hsim
    · refine ⟨[], k, f, fs, doc, s, w, rfl, rfl, hs, ?_⟩
      rw [hc]
    · rcases hsim with ⟨h1, h2⟩ | ⟨h1, _⟩
      · rcases hw : World.call str fuel f none w with ⟨e | v', w1⟩ <;> rw [hw] at h1 h2
        · cases h1
        cases h1
        have step : ∀ doc1, (Schema.loop hide (fun r => Alarm.call T str fuel r none) doc1 fs s1).2.rang
              = true →
            (∀ done, Schema.loop hide (fun r => World.call str fuel r none) doc ((k, f) :: done) w =
              Schema.loop hide (fun r => World.call str fuel r none) doc1 done w1) →
            ∃ done k' f' rest doc' u w', (k, f) :: fs = done ++ (k', f') :: rest ∧
              Schema.loop hide (fun r => World.call str fuel r none) doc done w = (.ok doc', w') ∧
              Follow True (Frame P w0) D u w' ∧
              (Schema.loop hide (fun r => Alarm.call T str fuel r none) doc1 fs s1).2 =
                (Alarm.call T str fuel f' none u).2 := by
          intro doc1 hr hl
          obtain ⟨done, k', f', rest, doc', u, w', i1, i2, i3, i4⟩ :=
            ih doc1 s1 w1 (fun kf hkf => hf kf (by simp [hkf])) h2 hr
          exact ⟨(k, f) :: done, k', f', rest, doc', u, w', by rw [i1]; rfl, (hl done).trans i2, i3, i4⟩
        have hl : ∀ done, Schema.loop hide (fun r => World.call str fuel r none) doc ((k, f) :: done) w =
            Schema.loop hide (fun r => World.call str fuel r none)
              (if hide f then doc else doc.set k v) done w1 := by
          intro done
          conv_lhs => unfold Schema.loop
          rw [bind_apply, hw]
          dsimp only
          split <;> rfl
        dsimp only at h ⊢
        by_cases hh : hide f = true
        · rw [if_pos hh] at h hl ⊢
          exact step _ h hl
        · rw [if_neg hh] at h hl ⊢
          exact step _ h hl
      · cases h1

end Alarm

/-- **C105 (last values).** When an interrupt ends the making of a document, some fields were done and
one was under way.  All objects outside the latter are as if only the fields before it had been
called; and its own last value is as before its call or as the call would have left it. -/
theorem C105_previous (hT : T.Sound) (str : Val → List Char) (fuel : Nat) (fields : Dict Ref)
    (s : Alarm R) (hrang : s.rang = false)
    (halive : ∀ kf ∈ fields, Alarm.AliveBelow s.world kf.2 s)
    (hfield : ∀ kf ∈ fields, (s.world.obj kf.2).isField = true)
    (hself : ∀ kf ∈ fields, ∀ c ∈ (s.world.obj kf.2).children, ¬ Below s.world c kf.2)
    (h : (Alarm.document T str fuel fields s).2.rang = true) :
    ∃ done k f rest doc w, fields = done ++ (k, f) :: rest ∧
      World.document str fuel done s.world = (.ok doc, w) ∧
      (∀ x, ¬ Below s.world f x →
        (Alarm.document T str fuel fields s).2.world.obj x = w.obj x) ∧
      (((Alarm.document T str fuel fields s).2.world.obj f).cache = (w.obj f).cache ∨
        (World.call str fuel f none w).1 =
          .ok ((Alarm.document T str fuel fields s).2.world.obj f).cache) := by
  have e1 : Alarm.document T str fuel fields s = Schema.loop (fun r => (s.world.obj r).hide)
      (fun r => Alarm.call T str fuel r none) [] fields s := rfl
  rw [e1] at h ⊢
  obtain ⟨done, k, f, rest, doc, u, w, h1, h2, h3, h4⟩ := Alarm.loop_struck (w0 := s.world)
    (P := fun x => ∃ kf ∈ fields, Below s.world kf.2 x)
    (D := fun x => ∃ kf ∈ fields, Below s.world kf.2 x ∧ Node.iterates (s.world.obj x).node = true)
    hT str fuel (fun x ⟨kf, i1, i2⟩ c hc => ⟨kf, i1, i2.child hc⟩)
    (fun x ⟨kf, i1, i2⟩ i3 => ⟨kf, i1, i2, i3⟩) fields [] s s.world
    (fun kf hkf => ⟨kf, hkf, .self _⟩)
    ⟨rfl, hrang, .inl trivial, fun x ⟨kf, i1, i2, i3⟩ => halive kf i1 x i2 i3, .refl _ _⟩ h
  rw [h4] at h ⊢
  obtain ⟨rfl, g2, _, g4, g5⟩ := h3
  have hkf : (k, f) ∈ fields := by rw [h1]; simp
  have hn : ∀ x, (u.world.obj x).node = (s.world.obj x).node := fun x =>
    node_of_shape (shape_of_config (g5.config x))
  have hal : Alarm.AliveBelow u.world f u := fun x hb hit =>
    g4 x ⟨(k, f), hkf, (Below.congr hn).1 hb, by rw [← hn x]; exact hit⟩
  refine ⟨done, k, f, rest, doc, u.world, h1, h2, fun x hx => ?_, ?_⟩
  · rcases C105_call hT str fuel f none u g2 hal with h5 | h5
    · rw [h5.1] at h; cases h
    · exact h5.2.2.2.2 x fun hb => hx ((Below.congr hn).1 hb)
  · refine Alarm.field_struck hT str fuel f u g2 hal ?_ ?_ h
    · unfold Attrs.isField
      rw [hn f]
      exact hfield _ hkf
    · intro c hc hb
      refine hself _ hkf c ?_ ((Below.congr hn).1 hb)
      unfold Attrs.children at hc ⊢
      rwa [hn f] at hc

/-! ### Finished generators -/

/-- **C105 (finished generators).** If an interrupt has finished the generator of an `Iterative` or
`Sequential` emitter, calling it raises `StopIteration`, and asking it for `n` values gives an empty
list (for `n` = 1 it raises `StopIteration` too) until it is reset.  Negative numbers and arguments that
are no numbers are a `ValueError`, as always. -/
theorem C105_finished (str : Val → List Char) (fuel : Nat) (r : Ref) (s : Alarm R)
    (hleft : s.left = none) (hnode : Node.iterates (s.world.obj r).node = true)
    (hdead : s.dead r = true) :
    Alarm.call T str (fuel + 1) r none s = (.error .stopIteration, s) ∧
    Alarm.call T str (fuel + 1) r (some (.int 1)) s = (.error .stopIteration, s) ∧
    (∀ n : Int, 0 ≤ n → n ≠ 1 →
      (Alarm.call T str (fuel + 1) r (some (.int n)) s).1 = .ok (.list [])) ∧
    (∀ n : Int, n < 0 →
      Alarm.call T str (fuel + 1) r (some (.int n)) s = (.error .valueError, s)) ∧
    ∀ v : Val, v ≠ .none → v.asInt = none →
      Alarm.call T str (fuel + 1) r (some v) s = (.error .valueError, s) := by
  have ht : ∀ (u : Alarm R), u.left = none → Alarm.tick T r u = (.ok (), u) := fun u hu => by
    unfold Alarm.tick; rw [hu]
  have key : ∀ arg, ∃ b m, (∀ w : World R, (m w).1 = .ok ()) ∧
      Alarm.call T str (fuel + 1) r arg s = Alarm.guarded T r (Alarm.spent r b m arg) s := by
    intro arg
    rcases hn : (s.world.obj r).node with _ | node
    · rw [hn] at hnode; cases hnode
    · rw [hn] at hnode
      cases node <;> try (cases hnode)
      · refine ⟨(s.world.obj r).iter.resetAfterCall, (iterAttr r).run Iterative.reset, fun _ => rfl, ?_⟩
        conv_lhs => unfold Alarm.call
        exact Alarm.guarded_congr fun u hu hd => by
          rw [run_get_bind, hu, hn]
          dsimp only
          rw [hd, if_pos hdead]
      · refine ⟨(s.world.obj r).seq.it.resetAfterCall,
          (seqAttr r).run (Sequential.onIt Iterative.reset), fun _ => rfl, ?_⟩
        conv_lhs => unfold Alarm.call
        exact Alarm.guarded_congr fun u hu hd => by
          rw [run_get_bind, hu, hn]
          dsimp only
          rw [hd, if_pos hdead]
  refine ⟨?_, ?_, fun n h0 h1 => ?_, fun n h0 => ?_, fun v hv hi => ?_⟩
  · obtain ⟨b, m, _, hk⟩ := key none
    rw [hk]
    unfold Alarm.guarded
    rw [bind_ok (ht s hleft)]
    rfl
  · obtain ⟨b, m, _, hk⟩ := key (some (.int 1))
    rw [hk]
    unfold Alarm.guarded
    rw [bind_ok (ht s hleft)]
    rfl
  · obtain ⟨b, m, hm, hk⟩ := key (some (.int n))
    rw [hk]
    unfold Alarm.guarded
    rw [bind_ok (ht s hleft)]
    have : ∃ u : Alarm R, u.left = none ∧ Alarm.spent r b m (some (.int n)) s = (.ok (.list []), u) := by
      unfold Alarm.spent emitterCallOr
      dsimp only [Val.asInt]
      rw [if_neg h1, if_neg (by omega)]
      cases b
      · exact ⟨s, hleft, rfl⟩
      · refine ⟨{ s with world := (m s.world).2, dead := fun x => if x = r then false else s.dead x },
          hleft, ?_⟩
        rw [if_pos rfl]
        have h3 : Alarm.lift m s = (.ok (), { s with world := (m s.world).2 }) := by
          unfold Alarm.lift
          have := hm s.world
          rcases hms : m s.world with ⟨a, c⟩
          rw [hms] at this
          dsimp only at this ⊢
          rw [this]
        rw [bind_apply, bind_ok h3]
        rfl
    obtain ⟨u, hu, h2⟩ := this
    rw [bind_ok h2, bind_ok (ht u hu)]
    rfl
  · obtain ⟨b, m, _, hk⟩ := key (some (.int n))
    rw [hk]
    unfold Alarm.guarded
    rw [bind_ok (ht s hleft)]
    have : Alarm.spent r b m (some (.int n)) s = (.error .valueError, s) := by
      unfold Alarm.spent emitterCallOr
      dsimp only [Val.asInt]
      rw [if_neg (by omega), if_pos h0]
      rfl
    rw [bind_err this]
  · obtain ⟨b, m, _, hk⟩ := key (some v)
    rw [hk]
    unfold Alarm.guarded
    rw [bind_ok (ht s hleft)]
    have : Alarm.spent r b m (some v) s = (.error .valueError, s) := by
      unfold Alarm.spent emitterCallOr
      cases v <;> first | exact absurd rfl hv | rfl | skip
      · rename_i b; cases b <;> cases hi
      · cases hi
    rw [bind_err this]

/-- **C105 (revival).** A reset that nobody interrupts gives new generators to all emitters below the
object. -/
theorem C105_revive (hT : T.Sound) (fuel : Nat) (r : Ref) (s : Alarm R)
    (hok : (Alarm.reset T fuel r (s.set none)).1 = .ok ()) :
    Alarm.AliveBelow s.world r (Alarm.reset T fuel r (s.set none)).2 :=
  Alarm.reset_revives (w0 := s.world) hT fuel r (s.set none) _ (.ok ())
    ⟨rfl, rfl, .inr rfl, fun _ h => h.elim, Alarm.ShapeSeeds.refl _ _ _⟩ (Prod.ext hok rfl) (.inl rfl)

namespace Alarm

theorem tick_dead (x r : Ref) : Keeps (fun s : Alarm R => s.dead x = true) (tick T r) := by
  intro s hs
  unfold tick
  rcases s.left with _ | (_ | n)
  · exact hs
  · change (if x = r then s.dead r || T.kills else s.dead x) = true
    split
    · rename_i h; subst h; rw [hs]; rfl
    · exact hs
  · exact hs

theorem guarded_dead {α : Type} (x r : Ref) {m : PyM (Alarm R) α}
    (hm : Keeps (fun s : Alarm R => s.dead x = true) m) :
    Keeps (fun s : Alarm R => s.dead x = true) (guarded T r m) :=
  (tick_dead x r).bind fun _ => hm.bind fun _ => (tick_dead x r).bind fun _ => Keeps.pure _ _

theorem lift_dead {α : Type} (x : Ref) (m : PyM (World R) α) :
    Keeps (fun s : Alarm R => s.dead x = true) (lift m) := fun _ hs => hs

theorem mixinSeed_dead (x r : Ref) (z : Option Int) :
    Keeps (fun s : Alarm R => s.dead x = true) (mixinSeed T r z) :=
  (guarded_dead x r (lift_dead x _)).bind fun _ => guarded_dead x r (lift_dead x _)

theorem doSeed_dead (x : Ref) {l : List Ref} {f : Ref → PyM (Alarm R) Unit}
    (h : ∀ c, Keeps (fun s : Alarm R => s.dead x = true) (f c)) :
    Keeps (fun s : Alarm R => s.dead x = true) (Group.doMethod (l.map some) f) :=
  (Group.doMethod_rel fun c _ => (h c).rel).keeps

theorem mixinChildSeed_dead (x r : Ref) (z : Option Int) {f : Ref → Option Int → PyM (Alarm R) Unit}
    (h : ∀ c z, Keeps (fun s : Alarm R => s.dead x = true) (f c z)) :
    Keeps (fun s : Alarm R => s.dead x = true) (mixinChildSeed T f r z) := by
  intro s hs
  unfold mixinChildSeed
  rw [run_get_bind]
  refine (Keeps.bind (doSeed_dead x fun c => h c z) fun _ => ?_) s hs
  exact (Rel.ignoring (mixinSeed_dead x r z).rel).keeps

end Alarm

/-- **C105 (seeding does not revive).** `seed`, interrupted or not, leaves finished generators
finished. -/
theorem C105_seed_finished (fuel : Nat) (r : Ref) (z : Option Int) (s : Alarm R) (x : Ref)
    (h : s.dead x = true) : (Alarm.seed T fuel r z s).2.dead x = true := by
  suffices ∀ fuel r z, Keeps (fun s : Alarm R => s.dead x = true) (Alarm.seed T fuel r z) from
    this fuel r z s h
  intro fuel
  induction fuel with
  | zero => intro r z; exact Keeps.raise _ _
  | succ fuel ih =>
    intro r z s hs
    unfold Alarm.seed
    rw [run_get_bind]
    dsimp only
    have mix := (Alarm.mixinChildSeed_dead (T := T) x r z (f := Alarm.seed T fuel) ih)
    have twice : Keeps (fun s : Alarm R => s.dead x = true) (do
        Alarm.mixinChildSeed T (Alarm.seed T fuel) r z
        let a := (← PyM.get).world.obj r
        Group.doMethod (a.children.map some) (Alarm.seed T fuel · a.seed)) :=
      mix.bind fun _ s hs => by
        rw [run_get_bind]
        exact Alarm.doSeed_dead x (fun c => ih c _) s hs
    rcases (s.world.obj r).node with _ | node
    · exact hs
    · cases node with
      | choice => exact Alarm.guarded_dead x r (Alarm.lift_dead x _) s hs
      | static => exact hs
      | iterative => exact hs
      | sequential => exact hs
      | copyFields => exact hs
      | word => exact twice s hs
      | text => exact twice s hs
      | wrapOne => exact mix s hs
      | wrapMany => exact mix s hs
      | field => exact mix s hs
      | basedOn => exact Alarm.mixinSeed_dead x r z s hs

/-! ### Examples -/

/-- An interrupt that leaves attributes as they are and finishes the generator it strikes. -/
def demoTear : Tear demoRng := ⟨id, id, true⟩
example : demoTear.Sound := fun _ => ⟨rfl, rfl⟩

/-- The demo schema with an interrupt due. -/
def demoAlarm (n : Nat) : Alarm demoRng := ⟨demoWorld', some n, false, fun _ => false⟩

/-- An interrupt that comes too late does nothing. -/
example : (Alarm.document demoTear demoStr 5 demoFields (demoAlarm 1000)).1 =
    (World.document demoStr 5 demoFields demoWorld').1 ∧
    (Alarm.document demoTear demoStr 5 demoFields (demoAlarm 1000)).2.rang = false := by
  decide +kernel
/-- One that comes while the counter of the field `n` runs finishes its generator: from then on the
schema raises `StopIteration`, ... -/
example : (Alarm.document demoTear demoStr 5 demoFields (demoAlarm 5)).1 = .error interrupt ∧
    (Alarm.document demoTear demoStr 5 demoFields (demoAlarm 5)).2.dead 0 = true ∧
    Alarm.documents demoTear demoStr 5 demoFields 2
      (Alarm.document demoTear demoStr 5 demoFields (demoAlarm 5)).2 =
      [.error .stopIteration, .error .stopIteration] := by decide +kernel
/-- ... and after resetting it gives the documents that it would have given anyway. -/
example : Alarm.documents demoTear demoStr 5 demoFields 2
      (Alarm.resetFields demoTear 5 demoFields
        ((Alarm.document demoTear demoStr 5 demoFields (demoAlarm 5)).2.set none)).2 =
    World.documents demoStr 5 demoFields 2 (World.resetFields 5 demoFields demoWorld').2 := by
  decide +kernel
/-- An interrupt while `tags` is under way: `n` has its new last value, `tags` its old one, and the
value of `n` belongs to no document. -/
example : (Alarm.document demoTear demoStr 5 demoFields (demoAlarm 12)).1 = .error interrupt ∧
    ((Alarm.document demoTear demoStr 5 demoFields (demoAlarm 12)).2.world.obj 3).cache = .int 2 ∧
    ((Alarm.document demoTear demoStr 5 demoFields (demoAlarm 12)).2.world.obj 7).cache =
      (demoWorld'.obj 7).cache := by decide +kernel
/-- An interrupt at the very end of the call of `tags`, after its last value was assigned. -/
example : ∃ n < 40, (Alarm.document demoTear demoStr 5 demoFields (demoAlarm n)).2.rang = true ∧
    (World.call demoStr 5 7 none (World.document demoStr 5 [("n", 3)] demoWorld').2).1 =
      .ok ((Alarm.document demoTear demoStr 5 demoFields (demoAlarm n)).2.world.obj 7).cache := by
  decide +kernel
/-- The hypotheses of the theorems hold of the demo schema. -/
example : (∀ kf ∈ demoFields, (demoWorld'.obj kf.2).isField = true ∧
      (demoWorld'.obj kf.2).random = true ∧ (demoWorld'.obj kf.2).rngSeed ≠ none) ∧
    ∀ kf ∈ demoFields, Alarm.AliveBelow demoWorld' kf.2 (demoAlarm 5) :=
  ⟨by decide +kernel, fun _ _ _ _ _ => rfl⟩
example : ∀ kf ∈ demoFields, ∀ r, kf.2 ∉ (demoWorld'.obj r).children := by
  have h1 : ∀ kf ∈ demoFields, ∀ r < 20, kf.2 ∉ (demoWorld'.obj r).children := by decide +kernel
  intro kf hkf r
  by_cases hr : r < 20
  · exact h1 kf hkf r hr
  · have hb : demoWorld'.obj r = World.blank := if_neg hr
    rw [hb]
    intro h
    cases h
example : (World.seedFields 5 (some 9) demoFields demoWorld').1 = .ok () ∧
    (Alarm.seedFields demoTear 5 (some 9) demoFields ((demoAlarm 5).set none)).1 = .ok () := by
  decide +kernel
/-- An interrupted `seed_fields` leaves some fields with the old seed and some with the new one, ... -/
example : ∃ n < 40, (Alarm.seedFields demoTear 5 (some 9) demoFields (demoAlarm n)).1 = .error interrupt ∧
    ((Alarm.seedFields demoTear 5 (some 9) demoFields (demoAlarm n)).2.world.obj 3).rngSeed = some 9 ∧
    ((Alarm.seedFields demoTear 5 (some 9) demoFields (demoAlarm n)).2.world.obj 19).rngSeed = some 7 := by
  decide +kernel
/-- ... so that resetting alone does not give the documents of the old seeds. -/
example : ∃ n < 40, (Alarm.seedFields demoTear 5 (some 9) demoFields (demoAlarm n)).2.rang = true ∧
    Alarm.documents demoTear demoStr 5 demoFields 3
      (Alarm.resetFields demoTear 5 demoFields
        ((Alarm.seedFields demoTear 5 (some 9) demoFields (demoAlarm n)).2.set none)).2 ≠
    World.documents demoStr 5 demoFields 3 (World.resetFields 5 demoFields demoWorld').2 := by
  decide +kernel

end Fauxdoc
