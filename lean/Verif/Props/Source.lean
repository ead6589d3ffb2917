import Verif.Props.Assign
import Verif.Props.Group
import Verif.Spec.Program
import Verif.Spec.Build
/-
C69: `reset_source` and `seed_source`.
-/
set_option linter.unusedSectionVars false
namespace Fauxdoc
open PyM World
variable {K : Type} [Field K] [LinearOrder K] [FloorRing K] {R : Rng K}

/-- `do_method` over converted members. -/
theorem Group.doMethod_map {σ ι κ : Type} (f : ι → κ) (run : κ → PyM σ Unit) (l : List ι) :
    Group.doMethod ((l.map f).map some) run = Group.doMethod (l.map some) (fun i => run (f i)) := by
  induction l with
  | nil => rfl
  | cons a l ih =>
    unfold Group.doMethod at ih ⊢
    simp only [List.map_cons, PyM.forEach, ih]

/-- `r` is a `CopyFields` or `BasedOnFields` emitter. -/
def World.ReadsFields (w : World R) (r : Ref) : Prop :=
  (∃ src single sep, (w.obj r).node = some (.copyFields src single sep)) ∨
    ∃ src single, (w.obj r).node = some (.basedOn src single)

/-- **C69 (reset_source).** The source fields are reset one after the other. -/
theorem C69_reset_source (str : Val → List Char) (fuel : Nat) (r : Ref) (w w' : World R)
    (o : Except Err Unit) (h : w.ReadsFields r) :
    resetSource str fuel r w = (o, w') ↔
      Group.Sweep (reset fuel) ((w.obj r).sources.map some) w o w' := by
  rw [← Group.C58_do_method]
  unfold resetSource
  rw [PyM.run_get_bind]
  rcases h with ⟨src, single, sep, h⟩ | ⟨src, single, h⟩ <;>
  · rw [h]
    dsimp only
    unfold SourceGroup.resetSource sourceGroup
    dsimp only
    rw [Group.doMethod_map]
    unfold Attrs.sources
    rw [h]
    rfl

/-- **C69 (seed_source).** The source fields of a `BasedOnFields` emitter are seeded one after the
other. -/
theorem C69_seed_source (str : Val → List Char) (fuel : Nat) (r : Ref) (s : Option Int)
    (w w' : World R) (o : Except Err Unit) {src : List Ref} {single : Bool}
    (h : (w.obj r).node = some (.basedOn src single)) :
    seedSource str fuel r s w = (o, w') ↔ Group.Sweep (seed fuel · s) (src.map some) w o w' := by
  rw [← Group.C58_do_method]
  unfold seedSource
  rw [PyM.run_get_bind, h]
  dsimp only
  unfold SourceGroup.seedSource sourceGroup
  dsimp only
  rw [Group.doMethod_map]

/-- Other objects have no `reset_source`. -/
theorem resetSource_other (str : Val → List Char) (fuel : Nat) (r : Ref) (w : World R)
    (h : ¬ w.ReadsFields r) : resetSource str fuel r w = (.error .attributeError, w) := by
  unfold resetSource
  rw [PyM.run_get_bind]
  rcases hn : (w.obj r).node with _ | n
  · rfl
  · cases n
    case copyFields => exact absurd (.inl ⟨_, _, _, hn⟩) h
    case basedOn => exact absurd (.inr ⟨_, _, hn⟩) h
    all_goals rfl

/-- Only `BasedOnFields` has `seed_source`. -/
theorem seedSource_other (str : Val → List Char) (fuel : Nat) (r : Ref) (s : Option Int) (w : World R)
    (h : ¬ ∃ src single, (w.obj r).node = some (.basedOn src single)) :
    seedSource str fuel r s w = (.error .attributeError, w) := by
  unfold seedSource
  rw [PyM.run_get_bind]
  rcases hn : (w.obj r).node with _ | n
  · rfl
  · cases n
    case basedOn => exact absurd ⟨_, _, hn⟩ h
    all_goals rfl

theorem sweep_frame {run : Ref → PyM (World R) Unit} {P : Ref → Prop}
    (hrun : ∀ g w, (∀ r, P r → ∀ c ∈ (w.obj r).children, P c) → P g → ShapeFrame P w (run g w).2)
    {gs : List Ref} {w w' : World R} {o : Except Err Unit}
    (h : Group.Sweep run (gs.map some) w o w') (hg : ∀ g ∈ gs, P g)
    (hP : ∀ r, P r → ∀ c ∈ (w.obj r).children, P c) : ShapeFrame P w w' := by
  induction gs generalizing w with
  | nil => cases h; exact .refl _ _
  | cons g gs ih =>
    have hf := hrun g w hP (hg g (by simp))
    have hP' : ∀ r, P r → ∀ c ∈ ((run g w).2.obj r).children, P c := by
      intro r hr c hc
      refine hP r hr c ?_
      unfold Attrs.children at hc ⊢
      rwa [hf.node r] at hc
    cases h with
    | ran hi h => rw [hi] at hf hP'; exact hf.trans (ih h (fun g hg' => hg g (by simp [hg'])) hP')
    | skipped hi h => rw [hi] at hf hP'; exact hf.trans (ih h (fun g hg' => hg g (by simp [hg'])) hP')
    | stopped hi he => rw [hi] at hf; exact hf

/-- **C69 (only the sources).** `reset_source` and `seed_source` change only the source fields and what
is below them, in particular not the emitter itself; they change no configuration. -/
theorem C69_frame (str : Val → List Char) (fuel : Nat) (r : Ref) (w : World R) :
    (∀ x, (∀ g ∈ (w.obj r).sources, ¬ Below w g x) →
      (resetSource str fuel r w).2.obj x = w.obj x ∧
      ∀ s, (seedSource str fuel r s w).2.obj x = w.obj x) ∧
    ∀ x, ((resetSource str fuel r w).2.obj x).shape = (w.obj x).shape ∧
      ∀ s, ((seedSource str fuel r s w).2.obj x).shape = (w.obj x).shape := by
  have hP : ∀ x, (∃ g ∈ (w.obj r).sources, Below w g x) → ∀ c ∈ (w.obj x).children,
      ∃ g ∈ (w.obj r).sources, Below w g c := fun x ⟨g, h1, h2⟩ c hc => ⟨g, h1, h2.child hc⟩
  have h1 : ShapeFrame (fun x => ∃ g ∈ (w.obj r).sources, Below w g x) w
      (resetSource str fuel r w).2 := by
    by_cases h : w.ReadsFields r
    · exact sweep_frame (fun g w h1 h2 => reset_frame fuel g _ w h1 h2)
        ((C69_reset_source str fuel r w _ _ h).1 rfl) (fun g hg => ⟨g, hg, .self g⟩) hP
    · rw [resetSource_other str fuel r w h]
      exact .refl _ _
  have h2 : ∀ s, ShapeFrame (fun x => ∃ g ∈ (w.obj r).sources, Below w g x) w
      (seedSource str fuel r s w).2 := by
    intro s
    by_cases h : ∃ src single, (w.obj r).node = some (.basedOn src single)
    · obtain ⟨src, single, h⟩ := h
      have hs : (w.obj r).sources = src := by unfold Attrs.sources; rw [h]; rfl
      exact sweep_frame (fun g w h1 h2 => seed_frame fuel g s _ w h1 h2)
        ((C69_seed_source str fuel r s w _ _ h).1 rfl)
        (fun g hg => ⟨g, hs ▸ hg, .self g⟩) hP
    · rw [seedSource_other str fuel r s w h]
      exact .refl _ _
  refine ⟨fun x hx => ?_, fun x => ⟨h1.shape x, fun s => (h2 s).shape x⟩⟩
  have hx' : ¬ ∃ g ∈ (w.obj r).sources, Below w g x := fun ⟨g, h3, h4⟩ => hx g h3 h4
  exact ⟨h1.frame x hx', fun s => (h2 s).frame x hx'⟩

/-- **C69 (not the sources).** Calling, resetting and seeding the emitter itself change nothing but the
emitter: source fields have to be reset and seeded with the methods above. -/
theorem C69_own (str : Val → List Char) (fuel : Nat) (r : Ref) (w : World R) (h : w.ReadsFields r)
    (x : Ref) (hx : x ≠ r) :
    (∀ arg, (World.call str fuel r arg w).2.obj x = w.obj x) ∧
    (World.reset fuel r w).2.obj x = w.obj x ∧
    ∀ s, (World.seed fuel r s w).2.obj x = w.obj x := by
  have hc : (w.obj r).children = [] := by
    unfold Attrs.children
    rcases h with ⟨_, _, _, h⟩ | ⟨_, _, h⟩ <;> rw [h] <;> rfl
  have hb : ¬ Below w r x := fun hb => by
    cases hb with
    | self => exact hx rfl
    | step h _ => rw [hc] at h; cases h
  exact ⟨fun arg => C57_only_below str fuel r x arg w hb,
    (World.reset_frame fuel r (Below w r) w (fun _ hr _ hc => hr.child hc) (.self r)).frame x hb,
    fun s => (seed_frame fuel r s (Below w r) w (fun _ hr _ hc => hr.child hc) (.self r)).frame x hb⟩

theorem sweep_nodes {run : Ref → PyM (World R) Unit}
    (hrun : ∀ g w x, ((run g w).2.obj x).node = (w.obj x).node)
    {g : Ref} {w w' : World R} {o : Except Err Unit} (h : run g w = (o, w')) {a x : Ref} :
    Below w' a x ↔ Below w a x :=
  World.Below.congr fun y => by have := hrun g w y; rwa [h] at this

/-- **C69 (seeded).** If `seed_source(s)` succeeds, every source field and everything below it has the
seed `s` and a generator freshly seeded with it. -/
theorem C69_seeded (str : Val → List Char) (fuel : Nat) (r : Ref) (s : Option Int) (w : World R)
    (hok : (seedSource str fuel r s w).1 = .ok ()) :
    ∀ g ∈ (w.obj r).sources, ∀ x, Below w g x → ((seedSource str fuel r s w).2.obj x).Seeded s := by
  by_cases h : ∃ src single, (w.obj r).node = some (.basedOn src single)
  swap
  · intro g _
    rw [seedSource_other str fuel r s w h] at hok
    cases hok
  obtain ⟨src, single, h⟩ := h
  have hs : (w.obj r).sources = src := by unfold Attrs.sources; rw [h]; rfl
  rw [hs]
  have hnode : ∀ g (w : World R) x, ((seed fuel g s w).2.obj x).node = (w.obj x).node := fun g w x =>
    (seed_frame fuel g s (fun _ => True) w (fun _ _ _ _ => trivial) trivial).node x
  have key : ∀ (gs : List Ref) (w w' : World R) (D : Ref → Prop),
      Group.Sweep (seed fuel · s) (gs.map some) w (.ok ()) w' →
      (∀ x, D x → (w.obj x).Seeded s) →
      ∀ x, (D x ∨ ∃ g ∈ gs, Below w g x) → (w'.obj x).Seeded s := by
    intro gs
    induction gs with
    | nil =>
      intro w w' D h hD x hx
      cases h
      exact hx.elim (hD x) fun ⟨g, hg, _⟩ => absurd hg (by simp)
    | cons g gs ih =>
      intro w w' D h hD x hx
      have step : ∀ (o : Except Err Unit) (w1 : World R), seed fuel g s w = (o, w1) →
          (o = .ok () ∨ o = .error .attributeError) →
          Group.Sweep (seed fuel · s) (gs.map some) w1 (.ok ()) w' → (w'.obj x).Seeded s := by
        intro o w1 hi ho h
        refine ih w1 w' (fun x => D x ∨ Below w g x) h (fun y hy => ?_) x ?_
        · by_cases hb : Below w g y
          · exact World.seed_fresh (nodes := fun y => (w.obj y).node) (P := fun _ => True)
              (fun _ _ _ _ => trivial) fuel g trivial w w1 o
              ⟨fun _ _ => rfl, fun _ h => h.elim, fun _ h => h.elim⟩ hi ho y
              ((World.BelowN.iff w g y).2 hb)
          · have := (seed_frame fuel g s (Below w g) w (fun _ hr _ hc => hr.child hc) (.self g)).frame y hb
            rw [hi] at this
            rw [this]
            exact hD y (hy.resolve_right hb)
        · rcases hx with hx | ⟨g', hg', hx⟩
          · exact .inl (.inl hx)
          · rcases List.mem_cons.1 hg' with rfl | hg'
            · exact .inl (.inr hx)
            · exact .inr ⟨g', hg', (sweep_nodes (run := (seed fuel · s)) hnode hi).2 hx⟩
      cases h with
      | ran hi h => exact step _ _ hi (.inl rfl) h
      | skipped hi h => exact step _ _ hi (.inr rfl) h
  intro g hg x hx
  have h1 := (C69_seed_source str fuel r s w _ _ h).1 (Prod.ext hok rfl)
  exact key src w _ (fun _ => False) h1 (fun _ h => h.elim) x (.inr ⟨g, hg, hx⟩)

/-- **C69 (rewound).** If `reset_source()` succeeds and no source field is below another, everything
below the source fields is rewound (the fields have no last value), and has the seed of a source field
it is below, with a freshly seeded generator. -/
theorem C69_rewound (str : Val → List Char) (fuel : Nat) (r : Ref) (w : World R)
    (hok : (resetSource str fuel r w).1 = .ok ())
    (hran : ∀ g ∈ (w.obj r).sources, (w.obj g).random = true)
    (hroot : ∀ g ∈ (w.obj r).sources, ∀ g' ∈ (w.obj r).sources, Below w g' g → g' = g) :
    ∀ x, (∃ g ∈ (w.obj r).sources, Below w g x) →
      ((resetSource str fuel r w).2.obj x).Rewound ∧
      ∃ g ∈ (w.obj r).sources, Below w g x ∧
        ((resetSource str fuel r w).2.obj x).Seeded (w.obj g).rngSeed := by
  by_cases h : w.ReadsFields r
  swap
  · rw [resetSource_other str fuel r w h] at hok
    cases hok
  have hnode : ∀ g (w : World R) x, ((reset fuel g w).2.obj x).node = (w.obj x).node := fun g w x =>
    World.reset_node fuel g x w
  have h1 := (C69_reset_source str fuel r w _ _ h).1 (Prod.ext hok rfl)
  have key : ∀ (gs : List Ref) (v v' : World R) (D : List Ref),
      (∀ g ∈ D ++ gs, g ∈ (w.obj r).sources) →
      Group.Sweep (reset fuel) (gs.map some) v (.ok ()) v' →
      (∀ a x, Below v a x ↔ Below w a x) → (∀ g ∈ (w.obj r).sources, (v.obj g).random = true) →
      (∀ g ∈ (w.obj r).sources, (v.obj g).rngSeed = (w.obj g).rngSeed) →
      (∀ x, (∃ g ∈ D, Below w g x) → (v.obj x).Rewound ∧ ∃ g ∈ D, Below w g x ∧
        (v.obj x).Seeded (w.obj g).rngSeed) →
      ∀ x, (∃ g ∈ D ++ gs, Below w g x) → (v'.obj x).Rewound ∧ ∃ g ∈ D ++ gs, Below w g x ∧
        (v'.obj x).Seeded (w.obj g).rngSeed := by
    intro gs
    induction gs with
    | nil =>
      intro v v' D _ h _ _ _ hD x hx
      cases h
      simpa using hD x (by simpa using hx)
    | cons g gs ih =>
      intro v v' D hsub h hb hr hs hD x hx
      have hg : g ∈ (w.obj r).sources := hsub g (by simp)
      have step : ∀ (v1 : World R), reset fuel g v = (.ok (), v1) →
          Group.Sweep (reset fuel) (gs.map some) v1 (.ok ()) v' →
          (v'.obj x).Rewound ∧ ∃ g' ∈ D ++ g :: gs, Below w g' x ∧
            (v'.obj x).Seeded (w.obj g').rngSeed := by
        intro v1 hi h
        have hfr := reset_frame fuel g (Below v g) v (fun _ hr _ hc => hr.child hc) (.self g)
        rw [hi] at hfr
        have e : D ++ g :: gs = (D ++ [g]) ++ gs := by simp
        rw [e] at hsub hx ⊢
        refine ih v1 v' (D ++ [g]) hsub h
          (fun a x => (sweep_nodes (run := reset fuel) hnode hi).trans (hb a x)) ?_ ?_ ?_ x hx
        · intro g' hg'
          have := hr g' hg'
          unfold Attrs.random at this ⊢
          rwa [hfr.node g']
        · intro g' hg'
          by_cases hgg : Below v g g'
          · have : g = g' := hroot g' hg' g hg ((hb _ _).1 hgg)
            subst this
            have := World.reset_seed fuel g v (hr g hg)
            rw [hi] at this
            rw [this]
            exact hs g hg
          · rw [hfr.frame g' hgg]
            exact hs g' hg'
        · intro y hy
          by_cases hgy : Below v g y
          · have := C53_reset fuel g v (hr g hg) (by rw [hi]) y hgy
            rw [hi, hs g hg] at this
            exact ⟨this.2, g, by simp, (hb _ _).1 hgy, this.1⟩
          · rw [hfr.frame y hgy]
            have hgy' : ¬ Below w g y := fun h => hgy ((hb _ _).2 h)
            obtain ⟨g', h2, h3⟩ := hy
            have h2 : g' ∈ D := by
              rcases List.mem_append.1 h2 with h2 | h2
              · exact h2
              · rw [List.mem_singleton.1 h2] at h3
                exact absurd h3 hgy'
            obtain ⟨h4, g'', h5, h6⟩ := hD y ⟨g', h2, h3⟩
            exact ⟨h4, g'', by simp [h5], h6⟩
      cases h with
      | ran hi h => exact step _ hi h
      | skipped hi h =>
        refine absurd (congrArg Prod.fst hi) (World.reset_attributeError fuel g v fun hn => ?_)
        have := hr g hg
        unfold Attrs.random at this
        rw [hn] at this
        cases this
  exact fun x hx => key (w.obj r).sources w _ [] (by simp) h1 (fun _ _ => Iff.rfl) hran
    (fun _ _ => rfl) (by simp) x (by simpa using hx)

theorem sweep_steps {run : Ref → PyM (World R) Unit} {T : World R → World R → Prop}
    (hrun : ∀ a g w, T a w → T a (run g w).2) {gs : List Ref} {a w w' : World R}
    {o : Except Err Unit} (h : Group.Sweep run (gs.map some) w o w') (ha : T a w) : T a w' := by
  induction gs generalizing w with
  | nil => cases h; exact ha
  | cons g gs ih =>
    have := hrun a g w ha
    cases h with
    | ran hi h => rw [hi] at this; exact ih h this
    | skipped hi h => rw [hi] at this; exact ih h this
    | stopped hi he => rw [hi] at this; exact this

/-- **C69 (programs).** Whatever holds after any sequence of uses (C54) or uses and seedings (C55) holds
after `reset_source` and `seed_source`, and whatever holds for every program (C29, C60, C61, C62, C63)
holds for programs that use them. -/
theorem C69_history (str : Val → List Char) (fuel : Nat) (r : Ref) (w : World R) :
    History str w (resetSource str fuel r w).2 ∧
    (∀ s, LongHistory str w (seedSource str fuel r s w).2) ∧
    (Steps str w (resetSource str fuel r w).2 ∧ ∀ s, Steps str w (seedSource str fuel r s w).2) ∧
    ∀ V, Built V str w →
      Built V str (resetSource str fuel r w).2 ∧ ∀ s, Built V str (seedSource str fuel r s w).2 := by
  have hr : ∀ (T : World R → World R → Prop), (∀ a, T a a) →
      (∀ a g w, T a w → T a (World.reset fuel g w).2) → T w (resetSource str fuel r w).2 := by
    intro T h0 h1
    by_cases h : w.ReadsFields r
    · exact sweep_steps h1 ((C69_reset_source str fuel r w _ _ h).1 rfl) (h0 w)
    · rw [resetSource_other str fuel r w h]; exact h0 w
  have hs : ∀ (T : World R → World R → Prop) (s : Option Int), (∀ a, T a a) →
      (∀ a g w, T a w → T a (World.seed fuel g s w).2) → T w (seedSource str fuel r s w).2 := by
    intro T s h0 h1
    by_cases h : ∃ src single, (w.obj r).node = some (.basedOn src single)
    · obtain ⟨src, single, h⟩ := h
      exact sweep_steps (run := (World.seed fuel · s)) h1
        ((C69_seed_source str fuel r s w _ _ h).1 rfl) (h0 w)
    · rw [seedSource_other str fuel r s w h]; exact h0 w
  exact ⟨hr _ (fun _ => .start) fun _ g _ h => .use h (.reset fuel g),
    fun s => hs _ s (fun _ => .start) fun _ g _ h => .use h (.seed fuel g s),
    ⟨hr _ (fun _ => .start) fun _ g _ h => .step h (.reset fuel g),
      fun s => hs _ s (fun _ => .start) fun _ g _ h => .step h (.seed fuel g s)⟩,
    fun V hb => ⟨hr (fun a w => Built V str a → Built V str w) (fun _ h => h)
        (fun _ g _ h ha => .reset (h ha) fuel g) hb,
      fun s => hs (fun a w => Built V str a → Built V str w) s (fun _ h => h)
        (fun _ g _ h ha => .seed (h ha) fuel g s) hb⟩⟩

/-! ### Examples -/

/-- Reference 12 is the emitter that joins the fields `n` (3) and `kind` (11); 16 is based on `n`. -/
example : (demoWorld.obj 12).sources = [3, 11] ∧ (demoWorld.obj 16).sources = [3] := by decide +kernel
example : demoWorld.ReadsFields 12 := .inl ⟨[3, 11], false, some ['-'], by decide +kernel⟩
/-- After a document the field `n` has a last value; resetting the emitter does not change that,
`reset_source` does. -/
example :
    let w := (World.document demoStr 5 demoFields demoWorld).2
    (w.obj 3).cache = .int 2 ∧ ((World.reset 5 12 w).2.obj 3).cache = .int 2 ∧
    (resetSource demoStr 5 12 w).1 = .ok () ∧
    ((resetSource demoStr 5 12 w).2.obj 3).cache = .none := by decide +kernel
/-- The sources are fields with seeds of their own; none is below the other. -/
example : ∀ g ∈ (demoWorld.obj 12).sources, (demoWorld.obj g).random = true := by decide +kernel
example : ∀ g ∈ (demoWorld.obj 12).sources, ∀ g' ∈ (demoWorld.obj 12).sources,
    Below demoWorld g' g → g' = g := by
  have hs : (demoWorld.obj 12).sources = [3, 11] := by decide +kernel
  rw [hs]
  have h3 : ∀ x, Below demoWorld 3 x → x ∈ [3, 0, 1, 2] := fun x hx =>
    hx.mem _ (by decide +kernel) (by decide)
  have h11 : ∀ x, Below demoWorld 11 x → x ∈ [11, 8, 9, 10] := fun x hx =>
    hx.mem _ (by decide +kernel) (by decide)
  intro g hg g' hg' hb
  simp only [List.mem_cons, List.not_mem_nil, or_false] at hg hg'
  rcases hg with rfl | rfl <;> rcases hg' with rfl | rfl
  · rfl
  · exact absurd (h11 3 hb) (by decide)
  · exact absurd (h3 11 hb) (by decide)
  · rfl
/-- `seed_source(9)` of the emitter based on `n`. -/
example : (seedSource demoStr 5 16 (some 9) demoWorld).1 = .ok () ∧
    ((seedSource demoStr 5 16 (some 9) demoWorld).2.obj 3).rngSeed = some 9 ∧
    ((seedSource demoStr 5 16 (some 9) demoWorld).2.obj 16).rngSeed = some 7 := by decide +kernel

end Fauxdoc
