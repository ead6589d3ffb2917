import Verif.Spec.Interrupt
import Verif.Proofs.ClassSim
import Verif.Proofs.World8
/-
Interrupted runs follow uninterrupted ones up to the interrupt.
-/
set_option linter.unusedSectionVars false
namespace Fauxdoc
open PyM
variable {K : Type} [Field K] [LinearOrder K] [FloorRing K] {R : Rng K}

/-- The store after an interrupt struck `r`. -/
def Tear.world (T : Tear R) (r : Ref) (w : World R) : World R :=
  { w.upd r T.attrs with entropy := T.entropy w.entropy }

namespace Alarm
variable {T : Tear R} {Q : Prop} {I : World R → Prop} {D P : Ref → Prop}

/-- No interrupt has come (and if not `Q`, none will come), the store is `w` and satisfies `I`, and
the objects in `D` have living generators. -/
def Follow (Q : Prop) (I : World R → Prop) (D : Ref → Prop) (s : Alarm R) (w : World R) : Prop :=
  s.world = w ∧ s.rang = false ∧ (Q ∨ s.left = none) ∧ (∀ x, D x → s.dead x = false) ∧ I w

/-- The interrupt has come; the store satisfies `I`. -/
def Struck (Q : Prop) (I : World R → Prop) (s : Alarm R) : Prop :=
  Q ∧ s.rang = true ∧ s.left = none ∧ I s.world

theorem tick_cases (T : Tear R) (r : Ref) (s : Alarm R) :
    (∃ l, tick T r s = (.ok (), { s with left := l }) ∧ (s.left = none → l = none)) ∨
    (s.left = some 0 ∧ tick T r s = (.error interrupt, s.strike T r)) := by
  unfold tick
  rcases hl : s.left with _ | _ | n
  · exact .inl ⟨none, by simp [← hl], fun _ => rfl⟩
  · exact .inr ⟨rfl, rfl⟩
  · exact .inl ⟨some n, rfl, fun h => by cases h⟩

theorem Follow.tick {s : Alarm R} {w : World R} (h : Follow Q I D s w) {l : Option Nat}
    (hl : s.left = none → l = none) : Follow Q I D { s with left := l } w :=
  ⟨h.1, h.2.1, h.2.2.1.imp id hl, h.2.2.2.1, h.2.2.2.2⟩

theorem Follow.strike {r : Ref} {s : Alarm R} {w : World R} (h : Follow Q I D s w)
    (hT : I w → I (T.world r w)) (hl : s.left = some 0) : Struck Q I (s.strike T r) := by
  obtain ⟨rfl, h2, h3, h4, h5⟩ := h
  exact ⟨h3.resolve_right (by rw [hl]; exact fun h => by cases h), rfl, rfl, hT h5⟩

/-- Looking at the clock around a method. -/
theorem guarded_simAt {α : Type} {r : Ref} {m : PyM (Alarm R) α} {m' : PyM (World R) α}
    (hT : ∀ w, I w → I (T.world r w)) {s : Alarm R} {w : World R} (h : Follow Q I D s w)
    (hm : ∀ s, Follow Q I D s w → SimAt interrupt (Struck Q I) (Follow Q I D) m m' s w) :
    SimAt interrupt (Struck Q I) (Follow Q I D) (guarded T r m) m' s w := by
  unfold SimAt guarded
  rw [bind_apply]
  rcases tick_cases T r s with ⟨l, h1, h2⟩ | ⟨h1, h2⟩
  · rw [h1]
    dsimp only
    rw [bind_apply]
    rcases hm _ (h.tick h2) with ⟨h3, h4⟩ | ⟨h3, h4⟩
    · rcases hms : m { s with left := l } with ⟨e | a, s'⟩
      · rw [hms] at h3 h4
        exact .inl ⟨h3, h4⟩
      · rw [hms] at h3 h4
        dsimp only
        rw [bind_apply]
        rcases tick_cases T r s' with ⟨l', h5, h6⟩ | ⟨h5, h6⟩
        · rw [h5]
          exact .inl ⟨h3, h4.tick h6⟩
        · rw [h6]
          exact .inr ⟨rfl, h4.strike (hT _) h5⟩
    · rcases hms : m { s with left := l } with ⟨e | a, s'⟩
      · rw [hms] at h3 h4
        exact .inr ⟨h3, h4⟩
      · rw [hms] at h3
        cases h3
  · rw [h2]
    exact .inr ⟨rfl, h.strike (hT _) h1⟩

theorem guarded_sim {α : Type} {r : Ref} {m : PyM (Alarm R) α} {m' : PyM (World R) α}
    (hT : ∀ w, I w → I (T.world r w))
    (hm : Sim interrupt (Struck Q I) (Follow Q I D) m m') :
    Sim interrupt (Struck Q I) (Follow Q I D) (guarded T r m) m' :=
  fun _ _ h => guarded_simAt hT h fun s hs => hm s _ hs

theorem lift_simAt {α : Type} {m : PyM (World R) α} {s : Alarm R} {w : World R}
    (hm : I w → I (m w).2) (h : Follow Q I D s w) :
    SimAt interrupt (Struck Q I) (Follow Q I D) (lift m) m s w := by
  obtain ⟨rfl, h2, h3, h4, h5⟩ := h
  exact .inl ⟨rfl, rfl, h2, h3, h4, hm h5⟩

theorem lift_sim {α : Type} {m : PyM (World R) α} (hm : Keeps I m) :
    Sim interrupt (Struck Q I) (Follow Q I D) (lift m) m := fun _ w h => lift_simAt (hm w) h

theorem attr_sim {β : Type} {L : Attr (World R) β} (hL : ∀ m : PyM β Val, Keeps I (L.run m)) :
    AttrSim interrupt (Struck Q I) (Follow Q I D) (attr L) L := fun m => lift_sim (hL m)

theorem attr_set_simAt {β : Type} {L : Attr (World R) β} {x : β} {s : Alarm R} {w : World R}
    (hL : I w → I (L.set x w)) (h : Follow Q I D s w) :
    SimAt interrupt (Struck Q I) (Follow Q I D) (PyM.modify ((attr L).set x))
      (PyM.modify (L.set x)) s w := by
  obtain ⟨rfl, h2, h3, h4, h5⟩ := h
  exact .inl ⟨rfl, rfl, h2, h3, h4, hL h5⟩

theorem revive_simAt {r : Ref} {s : Alarm R} {w : World R} (h : Follow Q I D s w) :
    SimAt interrupt (Struck Q I) (Follow Q I D) (revive r) (pure ()) s w := by
  refine .inl ⟨rfl, h.1, h.2.1, h.2.2.1, fun x hx => ?_, h.2.2.2.2⟩
  change (if x = r then false else s.dead x) = false
  split
  · rfl
  · exact h.2.2.2.1 x hx

theorem interrupt_ne : interrupt ≠ .attributeError := by intro h; cases h

/-! ### Resetting -/

/-- The steps that resetting the objects in `P` consists of keep `I`; `nodes` are the classes of all
objects. -/
structure ResetKept (nodes : Ref → Option Node) (P : Ref → Prop) (I : World R → Prop) : Prop where
  node : ∀ w r, I w → (w.obj r).node = nodes r
  closed : ∀ r, P r → ∀ c ∈ Node.childRefs (nodes r), P c
  setSeed : ∀ w r c z, I w → P r → c ∈ Node.childRefs (nodes r) → Node.isRandom (nodes c) = true →
    I (w.upd c (Attrs.setSeed z))
  newRng : ∀ w r z, I w → P r → Node.isRandom (nodes r) = true → Node.isChoice (nodes r) = false →
    I (World.newRng r z w).2
  choice : ∀ w r k, I w → P r → nodes r = some (.choice k) → I (World.onChoice r Choice.reset w).2
  iter : ∀ w r, I w → P r → nodes r = some .iterative → I ((World.iterAttr r).run Iterative.reset w).2
  seq : ∀ w r k, I w → P r → nodes r = some (.sequential k) →
    I ((World.seqAttr r).run (Sequential.onIt Iterative.reset) w).2
  cache : ∀ w r n e rp g h, I w → P r → nodes r = some (.field n e rp g h) →
    I ((World.cacheAttr r).set .none w)

variable {nodes : Ref → Option Node}

theorem ResetKept.setChildSeeds (h : ResetKept nodes P I) (hT : ∀ r, P r → ∀ w, I w → I (T.world r w))
    {r : Ref} (hr : P r) (z : Option Int) :
    Sim interrupt (Struck Q I) (Follow Q I D) (setChildSeeds T (Node.childRefs (nodes r)) z)
      (World.setChildSeeds (Node.childRefs (nodes r)) z) := by
  refine Sim.forEach fun m hm => ?_
  obtain ⟨c, hc, rfl⟩ := List.mem_map.1 hm
  refine Sim.get_bind fun s w hsw => ?_
  have e := hsw.1
  have hn := h.node w c hsw.2.2.2.2
  subst e
  by_cases hb : (s.world.obj c).random = true
  · rw [if_pos hb, if_pos hb]
    refine guarded_simAt (hT c (h.closed r hr c hc)) hsw fun s' hs' => ?_
    exact lift_simAt (fun hI => h.setSeed _ r c z hI hr hc (by rw [← hn]; exact hb)) hs'
  · rw [if_neg hb, if_neg hb]; exact .inl ⟨rfl, hsw⟩

theorem ResetKept.mixinReset (h : ResetKept nodes P I) (hT : ∀ r, P r → ∀ w, I w → I (T.world r w))
    {f : Ref → PyM (Alarm R) Unit} {f' : Ref → PyM (World R) Unit}
    (hf : ∀ c, P c → Sim interrupt (Struck Q I) (Follow Q I D) (f c) (f' c)) {r : Ref} (hr : P r)
    (hran : Node.isRandom (nodes r) = true) (hch : Node.isChoice (nodes r) = false) :
    Sim interrupt (Struck Q I) (Follow Q I D) (mixinReset T f r) (World.mixinReset f' r) := by
  refine Sim.get_bind fun s w hsw => ?_
  have e := hsw.1
  subst e
  dsimp only [Attrs.children]
  rw [h.node _ r hsw.2.2.2.2]
  refine (h.setChildSeeds hT hr _).bind (fun _ => ?_) s _ hsw
  refine (guarded_sim (hT r hr) fun s' w' hs' => lift_simAt (fun hI => h.newRng _ r _ hI hr hran hch) hs').bind
    fun _ => ?_
  exact Group.doMethod_sim interrupt_ne fun c hc => hf c (h.closed r hr c hc)

/-- Interrupted resetting. -/
theorem ResetKept.reset (h : ResetKept nodes P I) (hT : ∀ r, P r → ∀ w, I w → I (T.world r w)) :
    ∀ (fuel : Nat) (r : Ref), P r →
      Sim interrupt (Struck Q I) (Follow Q I D) (reset T fuel r) (World.reset fuel r) := by
  intro fuel
  induction fuel with
  | zero => intro r _; exact Sim.raise _ _ _ _
  | succ fuel ih =>
    intro r hr
    unfold Alarm.reset World.reset
    refine Sim.get_bind fun s w hsw => ?_
    have e := hsw.1
    subst e
    have mix := fun hran hch => h.mixinReset (Q := Q) (D := D) hT ih hr hran hch
    have twice : Node.isRandom (nodes r) = true → Node.isChoice (nodes r) = false →
        Sim interrupt (Struck Q I) (Follow Q I D) (do
          Alarm.mixinReset T (Alarm.reset T fuel) r
          let a := (← PyM.get).world.obj r
          Alarm.setChildSeeds T a.children a.seed
          Group.doMethod (a.children.map some) (Alarm.reset T fuel))
        (do
          World.mixinReset (World.reset fuel) r
          let a := (← PyM.get).obj r
          World.setChildSeeds a.children a.seed
          Group.doMethod (a.children.map some) (World.reset fuel)) := by
      intro hran hch
      refine (mix hran hch).bind fun _ => Sim.get_bind fun s w hsw => ?_
      have e := hsw.1
      subst e
      dsimp only [Attrs.children]
      rw [h.node _ r hsw.2.2.2.2]
      exact ((h.setChildSeeds hT hr _).bind fun _ => Group.doMethod_sim interrupt_ne fun c hc =>
        ih c (h.closed r hr c hc)) s _ hsw
    dsimp only
    rw [h.node _ r hsw.2.2.2.2]
    rcases hn : nodes r with _ | node
    · exact .inl ⟨rfl, hsw⟩
    · rw [hn] at mix twice
      cases node with
      | choice k =>
        exact guarded_simAt (hT r hr) hsw fun s' hs' =>
          lift_simAt (fun hI => h.choice _ r k hI hr hn) hs'
      | static => exact .inl ⟨rfl, hsw⟩
      | iterative =>
        refine guarded_simAt (hT r hr) hsw fun s' hs' => ?_
        have := SimAt.bind (k := fun _ => revive r) (k' := fun _ => pure ())
          (lift_simAt (fun hI => h.iter _ r hI hr hn) hs')
          (fun _ s1 w1 _ _ h1 => revive_simAt h1) (fun _ _ h => h)
        exact this
      | sequential k =>
        refine guarded_simAt (hT r hr) hsw fun s' hs' => ?_
        have := SimAt.bind (k := fun _ => revive r) (k' := fun _ => pure ())
          (lift_simAt (fun hI => h.seq _ r k hI hr hn) hs')
          (fun _ s1 w1 _ _ h1 => revive_simAt h1) (fun _ _ h => h)
        exact this
      | word l a => exact twice rfl rfl s _ hsw
      | text n wd sp => exact twice rfl rfl s _ hsw
      | wrapOne x => exact mix rfl rfl s _ hsw
      | wrapMany x => exact mix rfl rfl s _ hsw
      | copyFields a b c => exact .inl ⟨rfl, hsw⟩
      | basedOn a b =>
        exact guarded_simAt (hT r hr) hsw fun s' hs' =>
          lift_simAt (fun hI => h.newRng _ r _ hI hr (by rw [hn]; rfl) (by rw [hn]; rfl)) hs'
      | field n e rp g hd =>
        refine guarded_simAt (hT r hr) hsw fun s' hs' => ?_
        exact (mix rfl rfl s' _ hs').bind (fun _ s1 w1 _ _ h1 =>
          attr_set_simAt (fun hI => h.cache _ r n e rp g hd hI hr hn) h1) fun _ _ h => h

/-! ### Seeding -/

/-- The steps that seeding the objects in `P` consists of keep `I`. -/
structure SeedKept (nodes : Ref → Option Node) (P : Ref → Prop) (I : World R → Prop) : Prop extends
    ResetKept nodes P I where
  setOwn : ∀ w r z, I w → P r → Node.isRandom (nodes r) = true → I (w.upd r (Attrs.setSeed z))

theorem SeedKept.mixinSeed (h : SeedKept nodes P I) (hT : ∀ r, P r → ∀ w, I w → I (T.world r w))
    {r : Ref} (hr : P r) (hran : Node.isRandom (nodes r) = true)
    (hch : Node.isChoice (nodes r) = false) (z : Option Int) :
    Sim interrupt (Struck Q I) (Follow Q I D) (mixinSeed T r z) (World.mixinSeed r z) := by
  refine Sim.bind (guarded_sim (hT r hr) fun s w hsw => lift_simAt (fun hI => ?_) hsw) fun _ => ?_
  · have := h.setOwn w r z hI hr hran
    unfold World.upd at this
    rw [World.setSeed_not_choice (by rw [h.node w r hI]; exact hch)] at this
    exact this
  · exact guarded_sim (hT r hr) fun s w hsw =>
      lift_simAt (fun hI => h.newRng _ r _ hI hr hran hch) hsw

theorem SeedKept.mixinChildSeed (h : SeedKept nodes P I)
    (hT : ∀ r, P r → ∀ w, I w → I (T.world r w))
    {f : Ref → Option Int → PyM (Alarm R) Unit} {f' : Ref → Option Int → PyM (World R) Unit}
    (hf : ∀ c z, P c → Sim interrupt (Struck Q I) (Follow Q I D) (f c z) (f' c z)) {r : Ref} (hr : P r)
    (hran : Node.isRandom (nodes r) = true) (hch : Node.isChoice (nodes r) = false) (z : Option Int) :
    Sim interrupt (Struck Q I) (Follow Q I D) (mixinChildSeed T f r z)
      (World.mixinChildSeed f' r z) := by
  refine Sim.get_bind fun s w hsw => ?_
  have e := hsw.1
  subst e
  dsimp only [Attrs.children]
  rw [h.node _ r hsw.2.2.2.2]
  exact ((Group.doMethod_sim interrupt_ne fun c hc => hf c z (h.closed r hr c hc)).bind fun _ =>
    Sim.ignoring interrupt_ne (h.mixinSeed hT hr hran hch z)) s _ hsw

/-- Interrupted seeding. -/
theorem SeedKept.seed (h : SeedKept nodes P I) (hT : ∀ r, P r → ∀ w, I w → I (T.world r w)) :
    ∀ (fuel : Nat) (r : Ref) (z : Option Int), P r →
      Sim interrupt (Struck Q I) (Follow Q I D) (seed T fuel r z) (World.seed fuel r z) := by
  intro fuel
  induction fuel with
  | zero => intro r _ _; exact Sim.raise _ _ _ _
  | succ fuel ih =>
    intro r z hr
    unfold Alarm.seed World.seed
    refine Sim.get_bind fun s w hsw => ?_
    have e := hsw.1
    subst e
    have mix := fun hran hch => h.mixinChildSeed (Q := Q) (D := D) hT ih hr hran hch z
    have twice : Node.isRandom (nodes r) = true → Node.isChoice (nodes r) = false →
        Sim interrupt (Struck Q I) (Follow Q I D) (do
          Alarm.mixinChildSeed T (Alarm.seed T fuel) r z
          let a := (← PyM.get).world.obj r
          Group.doMethod (a.children.map some) (Alarm.seed T fuel · a.seed))
        (do
          World.mixinChildSeed (World.seed fuel) r z
          let a := (← PyM.get).obj r
          Group.doMethod (a.children.map some) (World.seed fuel · a.seed)) := by
      intro hran hch
      refine (mix hran hch).bind fun _ => Sim.get_bind fun s w hsw => ?_
      have e := hsw.1
      subst e
      dsimp only [Attrs.children]
      rw [h.node _ r hsw.2.2.2.2]
      exact Group.doMethod_sim interrupt_ne (fun c hc => ih c _ (h.closed r hr c hc)) s _ hsw
    dsimp only
    rw [h.node _ r hsw.2.2.2.2]
    rcases hn : nodes r with _ | node
    · exact .inl ⟨rfl, hsw⟩
    · rw [hn] at mix twice
      cases node with
      | choice k =>
        refine guarded_simAt (hT r hr) hsw fun s' hs' => lift_simAt (fun hI => ?_) hs'
        have hk := (h.node _ r hI).trans hn
        rw [World.onChoice_seed r hk]
        exact h.choice _ r k (h.setOwn _ r z hI hr (by rw [hn]; rfl)) hr hn
      | static => exact .inl ⟨rfl, hsw⟩
      | iterative => exact .inl ⟨rfl, hsw⟩
      | sequential k => exact .inl ⟨rfl, hsw⟩
      | word l a => exact twice rfl rfl s _ hsw
      | text n wd sp => exact twice rfl rfl s _ hsw
      | wrapOne x => exact mix rfl rfl s _ hsw
      | wrapMany x => exact mix rfl rfl s _ hsw
      | copyFields a b c => exact .inl ⟨rfl, hsw⟩
      | basedOn a b => exact h.mixinSeed hT hr (by rw [hn]; rfl) (by rw [hn]; rfl) z s _ hsw
      | field n e rp g hd => exact mix rfl rfl s _ hsw

/-! ### Calling -/

variable {wrappers : Ref → Option (Callback R.G)}

theorem source_at {c : Ref → PyM (Alarm R) Val} {c' : Ref → PyM (World R) Val}
    {rs : Ref → PyM (Alarm R) Unit} {rs' : Ref → PyM (World R) Unit}
    {sd : Ref → Option Int → PyM (Alarm R) Unit} {sd' : Ref → Option Int → PyM (World R) Unit}
    {w : World R} {src : List Ref} {single : Bool} {s : Alarm R} {t : World R}
    (h : s.world = t) :
    GroupAt s t (sourceGroup c rs sd w src single) (World.sourceGroup c' rs' sd' w src single) where
  single := rfl
  fields := by
    unfold sourceGroup World.sourceGroup
    dsimp only
    rw [List.forall₂_map_left_iff, List.forall₂_map_right_iff, List.forall₂_same]
    intro g _
    rw [← h]
    exact ⟨rfl, rfl, rfl⟩

/-- Interrupted calls. -/
theorem call_sim (h : World.CallSteps nodes wrappers P (fun w v => w = v ∧ I w))
    (hT : ∀ r, P r → ∀ w, I w → I (T.world r w))
    (hD : ∀ r, P r → Node.iterates (nodes r) = true → D r) (str : Val → List Char) :
    ∀ (fuel : Nat) (r : Ref), P r →
      ChildSim interrupt (Struck Q I) (Follow Q I D) (call T str fuel r) (World.call str fuel r) := by
  intro fuel
  induction fuel with
  | zero => intro r _ arg; exact Sim.raise _ _ _ _
  | succ fuel ih =>
    intro r hr arg
    unfold Alarm.call World.call
    refine guarded_sim (hT r hr) (Sim.get_bind fun s w hsw => ?_)
    have e := hsw.1
    subst e
    have hself : (fun w v : World R => w = v ∧ I w) s.world s.world := ⟨rfl, hsw.2.2.2.2⟩
    obtain ⟨n1, w1⟩ := h.left s.world s.world r hself hr
    have hcl := h.closed r hr
    dsimp only
    rw [n1, w1]
    cases hn : nodes r with
    | none => exact .inl ⟨rfl, hsw⟩
    | some node =>
      rw [hn] at hcl
      cases node with
      | choice k => exact lift_sim ((h.choice r k hr hn).1 arg).keeps s _ hsw
      | static => exact lift_sim (h.static r hr hn arg).keeps s _ hsw
      | iterative =>
        dsimp only
        rw [if_neg (by rw [hsw.2.2.2.1 r (hD r hr (by rw [hn]; rfl))]; decide)]
        exact lift_sim (h.iter r hr hn arg).keeps s _ hsw
      | sequential k =>
        dsimp only
        rw [if_neg (by rw [hsw.2.2.2.1 r (hD r hr (by rw [hn]; rfl))]; decide)]
        exact lift_sim (h.seq r k hr hn arg).keeps s _ hsw
      | word l c =>
        exact Word.call_sim (ih l (hcl l (by simp [Node.childRefs])))
          (ih c (hcl c (by simp [Node.childRefs]))) arg s _ hsw
      | text n wd sp =>
        have hwd := hcl wd (by simp [Node.childRefs])
        have hwr := h.wordRel hwd fuel (h.call str fuel wd hwd)
        refine Text.call_sim ⟨ih wd hwd, lift_sim hwr.roac.keeps, ?_⟩
          (ih n (hcl n (by simp [Node.childRefs]))) (ih sp (hcl sp (by simp [Node.childRefs]))) arg s _ hsw
        by_cases hk : ∃ k, nodes wd = some (.choice k)
        · obtain ⟨k, hk⟩ := hk
          rcases (h.choice wd k hwd hk).2.2 with hres | hroac
          · refine Or.inl ?_
            cases fuel with
            | zero => exact Sim.raise _ _ _ _
            | succ fuel =>
              dsimp only
              unfold Alarm.reset World.reset
              refine Sim.get_bind fun s w hsw => ?_
              have e := hsw.1
              subst e
              dsimp only
              rw [(h.left s.world s.world wd ⟨rfl, hsw.2.2.2.2⟩ hwd).1, hk]
              exact guarded_sim (hT wd hwd) (lift_sim hres.keeps) s _ hsw
          · refine Or.inr fun s1 r' t e s0 hs => ?_
            have e0 := hs.1
            subst e0
            dsimp only at e
            unfold lift World.roacInfo at e
            dsimp only at e
            rw [PyM.run_get_bind, (h.left s1.world s1.world wd ⟨rfl, hs.2.2.2.2⟩ hwd).1, hk] at e
            change (match World.onChoice wd Choice.roacInfo s1.world with
              | (res, w) => (res, ({ s1 with world := w } : Alarm R))) = _ at e
            unfold World.onChoice at e
            rw [Choice.roacInfo_of_not (hroac s1.world s1.world ⟨rfl, hs.2.2.2.2⟩)] at e
            cases e; rfl
        · refine Or.inr fun s1 r' t e s0 hs => ?_
          have e0 := hs.1
          subst e0
          dsimp only at e
          unfold lift World.roacInfo at e
          dsimp only at e
          rw [PyM.run_get_bind, (h.left s1.world s1.world wd ⟨rfl, hs.2.2.2.2⟩ hwd).1] at e
          rcases hn : nodes wd with _ | node
          · rw [hn] at e; cases e; rfl
          · rw [hn] at e
            cases node with
            | choice k => exact absurd ⟨k, hn⟩ hk
            | _ => cases e; rfl
      | wrapOne x =>
        cases wrappers r with
        | none => exact .inl ⟨rfl, hsw⟩
        | some cb =>
          exact WrapOne.call_sim (attr_sim fun m => (h.rng r hr (by rw [hn]; rfl) m).keeps) cb
            (ih x (hcl x (by simp [Node.childRefs]))) arg s _ hsw
      | wrapMany xs =>
        cases wrappers r with
        | none => exact .inl ⟨rfl, hsw⟩
        | some cb =>
          refine WrapMany.call_sim (attr_sim fun m => (h.rng r hr (by rw [hn]; rfl) m).keeps) cb ?_
            arg s _ hsw
          rw [List.forall₂_map_left_iff, List.forall₂_map_right_iff, List.forall₂_same]
          intro kx hkx
          exact ⟨rfl, ih kx.2 (hcl kx.2 (List.mem_map_of_mem hkx))⟩
      | copyFields src single sep =>
        exact CopyFields.call_sim str sep (fun _ _ hst => source_at hst.1) arg s _ hsw
      | basedOn src single =>
        cases wrappers r with
        | none => exact .inl ⟨rfl, hsw⟩
        | some cb =>
          exact BasedOnFields.call_sim (attr_sim fun m => (h.rng r hr (by rw [hn]; rfl) m).keeps) cb
            (fun _ _ hst => source_at hst.1) arg s _ hsw
      | field n e rp g hd =>
        cases arg with
        | some x => exact .inl ⟨rfl, hsw⟩
        | none =>
          exact Field.call_sim (fun v s w hsw => attr_set_simAt
              (fun hI => (h.cache r n e rp g hd hr hn v).keeps w hI) hsw)
            (ih e (hcl e (by simp [Node.childRefs]))) (ih rp (hcl rp (by simp [Node.childRefs])))
            (ih g (hcl g (by simp [Node.childRefs]))) s _ hsw

end Alarm
end Fauxdoc
