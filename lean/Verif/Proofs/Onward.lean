import Verif.Spec.Onward
import Verif.Proofs.World2
/-
Drawing goes onward: the generators of all `Choice` objects during a call.
-/
set_option linter.unusedSectionVars false
namespace Fauxdoc
open PyM
variable {K : Type} [Field K] [LinearOrder K] [FloorRing K] {R : Rng K}

theorem Rng.Onward.trans {g h k : R.G} (h1 : R.Onward g h) (h2 : R.Onward h k) : R.Onward g k := by
  induction h2 with
  | here => exact h1
  | random _ ih => exact .random ih
  | randbelow n _ ih => exact .randbelow n ih
  | sample n k _ ih => exact .sample n k ih

/-! ### The algorithms of `random` and `mathtools` -/

theorem Rng.rand_onward (g : R.G) : Keeps (R.Onward g) R.rand := fun _ h => .random h

theorem Rng.rands_onward (g : R.G) (n : Nat) : Keeps (R.Onward g) (R.rands n) := by
  induction n with
  | zero => exact Keeps.pure _ _
  | succ n ih => exact (R.rand_onward g).bind fun _ => ih.bind fun _ => Keeps.pure _ _

theorem Rng.choice_onward (g : R.G) (n : Nat) : Keeps (R.Onward g) (R.choice n) := by
  intro h hh
  unfold Rng.choice
  split
  · exact hh
  · exact .randbelow n hh

theorem Rng.samplePos_onward (g : R.G) (n : Nat) (k : Int) : Keeps (R.Onward g) (R.samplePos n k) := by
  intro h hh
  unfold Rng.samplePos
  split
  · exact .sample n _ hh
  · exact hh

theorem Rng.choicesCum_onward (g : R.G) (n : Nat) (cum : List K) (k : Int) :
    Keeps (R.Onward g) (R.choicesCum n cum k) := by
  unfold Rng.choicesCum
  split
  · exact Keeps.raise _ _
  · split
    · exact Keeps.raise _ _
    · split
      · exact Keeps.raise _ _
      · exact (R.rands_onward g _).bind fun _ => Keeps.pure _ _

theorem Rng.choicesUniform_onward (g : R.G) (n : Nat) (k : Int) :
    Keeps (R.Onward g) (R.choicesUniform n k) := by
  unfold Rng.choicesUniform
  split
  · exact (R.rand_onward g).bind fun _ => Keeps.raise _ _
  · exact (R.rands_onward g _).bind fun _ => Keeps.pure _ _

theorem lowK_onward (g : R.G) (n : Nat) (k : Int) (fuel : Nat) :
    ∀ ws sample, Keeps (R.Onward g) (lowK R n k fuel ws sample) := by
  induction fuel with
  | zero => intro _ _; exact Keeps.raise _ _
  | succ fuel ih =>
    intro ws sample
    unfold lowK
    dsimp only
    split
    · exact Keeps.pure _ _
    · exact (R.choicesCum_onward g _ _ _).bind fun _ => ih _ _

theorem highKScores_onward (g : R.G) (ws : List K) : Keeps (R.Onward g) (highKScores R ws) := by
  induction ws with
  | nil => exact Keeps.pure _ _
  | cons w ws ih =>
    unfold highKScores
    refine (R.rand_onward g).bind fun u => ?_
    split
    · exact Keeps.raise _ _
    · split
      · exact Keeps.raise _ _
      · exact ih.bind fun _ => Keeps.pure _ _

theorem weightedShuffle_onward (g : R.G) (n : Nat) (ws : List K) (k : Option Int) :
    Keeps (R.Onward g) (weightedShuffle R n ws k) := by
  unfold weightedShuffle
  dsimp only
  split
  · exact Keeps.raise _ _
  · split
    · exact lowK_onward g _ _ _ _ _
    · exact (highKScores_onward g _).bind fun _ => Keeps.pure _ _

/-! ### `Choice` -/

namespace Choice

theorem onRng_onward {α β : Type} (g : R.G) {m : PyM R.G β} (hm : Keeps (R.Onward g) m) :
    Keeps (fun s : ChoiceSt α R × Nat => R.Onward g s.1.rng) (onRng m) := fun s hs => hm s.1.rng hs

theorem self_onward {α β : Type} (g : R.G) {k : ChoiceSt α R → ChoiceM α R β}
    (hk : ∀ c, Keeps (fun s : ChoiceSt α R × Nat => R.Onward g s.1.rng) (k c)) :
    Keeps (fun s : ChoiceSt α R × Nat => R.Onward g s.1.rng) (self >>= k) := fun s hs => hk s.1 s hs

variable {α : Type} [PyHash α]

theorem withReplacement_onward (g : R.G) (n : Int) :
    Keeps (fun s : ChoiceSt α R × Nat => R.Onward g s.1.rng) (withReplacement n) := by
  unfold withReplacement
  refine self_onward g fun c => ?_
  split
  · exact Keeps.pure _ _
  · split
    · exact (onRng_onward g (R.choice_onward g _)).bind fun _ => Keeps.pure _ _
    · split
      · exact (onRng_onward g (R.choicesUniform_onward g _ _)).bind fun _ => Keeps.pure _ _
      · exact (onRng_onward g (R.choicesCum_onward g _ _ _)).bind fun _ => Keeps.pure _ _

theorem shuffledIndex_onward (g : R.G) :
    Keeps (fun s : ChoiceSt α R × Nat => R.Onward g s.1.rng) shuffledIndex := by
  unfold shuffledIndex
  refine self_onward g fun c => ?_
  split
  · exact Keeps.pure _ _
  · exact Keeps.raise _ _

theorem withoutReplacement_onward (g : R.G) (n : Int) :
    Keeps (fun s : ChoiceSt α R × Nat => R.Onward g s.1.rng) (withoutReplacement n) := by
  unfold withoutReplacement
  refine self_onward g fun c => ?_
  split
  · unfold raiseUniquenessViolation
    refine self_onward g fun c => ?_
    split
    · exact (shuffledIndex_onward g).bind fun _ => Keeps.raise _ _
    · exact Keeps.raise _ _
  · split
    · refine (shuffledIndex_onward g).bind fun i => ?_
      have hu : ∀ j k : Int, Keeps (fun s : ChoiceSt α R × Nat => R.Onward g s.1.rng)
          (upd fun c => { c with shuffledIndex := some j, numUniqueItems := c.numUniqueItems - k }) :=
        fun _ _ _ hs => hs
      dsimp only
      split
      · exact (Keeps.lift _ _).bind fun _ => (Keeps.pure _ _).bind fun _ =>
          (hu _ _).bind fun _ => Keeps.pure _ _
      · exact (Keeps.pure _ _).bind fun _ => (hu _ _).bind fun _ => Keeps.pure _ _
    · split
      · exact (onRng_onward g (R.samplePos_onward g _ _)).bind fun _ => Keeps.pure _ _
      · exact (onRng_onward g (weightedShuffle_onward g _ _ _)).bind fun _ => Keeps.pure _ _

theorem emit_onward (g : R.G) : Keeps (fun s : ChoiceSt α R × Nat => R.Onward g s.1.rng) emit := by
  unfold emit
  refine self_onward g fun c => ?_
  split
  · exact (withoutReplacement_onward g 1).bind fun _ => Keeps.lift _ _
  · exact (withReplacement_onward g 1).bind fun _ => Keeps.lift _ _

theorem emitMany_onward (g : R.G) (n : Int) :
    Keeps (fun s : ChoiceSt α R × Nat => R.Onward g s.1.rng) (emitMany n) := by
  unfold emitMany
  refine self_onward g fun c => ?_
  split
  · exact withoutReplacement_onward g n
  · exact withReplacement_onward g n

theorem child_onward (g : R.G) (arg : Option Val) :
    Keeps (fun s : ChoiceSt Val R × Nat => R.Onward g s.1.rng) (child arg) := by
  refine emitterCallOr_keeps (fun v => ?_) (emit_onward g) (fun n => emitMany_onward g n) arg
  unfold emitBad
  refine self_onward g fun c => ?_
  split
  · split
    · exact Keeps.raise _ _
    · exact (onRng_onward g (R.choicesCum_onward g _ _ _)).bind fun _ => Keeps.raise _ _
  · exact Keeps.raise _ _

end Choice

/-! ### Calls -/

namespace World

/-- No configuration has changed, and the generators of the `Choice` objects have moved onward. -/
def Drawn (P : Ref → Prop) (w0 w : World R) : Prop := Frame P w0 w ∧ Onward w0 w

theorem onward_upd {w0 w : World R} (h : Onward w0 w) {r : Ref} {f : Attrs R → Attrs R}
    (hf : ∀ k, (w0.obj r).node = some (.choice k) →
      R.Onward (w.obj r).choice.rng (f (w.obj r)).choice.rng) (e : Nat) :
    Onward w0 { w.upd r f with entropy := e } := by
  intro x k hx
  unfold World.upd
  by_cases hxr : x = r
  · subst hxr
    simp only [if_true]
    exact (h x k hx).trans (hf k hx)
  · simp only [if_neg hxr]
    exact h x k hx

theorem onward_onChoice {w0 : World R} {β : Type} {r : Ref} {m : ChoiceM Val R β}
    (hm : ∀ g, Keeps (fun s : ChoiceSt Val R × Nat => R.Onward g s.1.rng) m) :
    Keeps (Onward w0) (onChoice r m) := by
  intro w h
  unfold onChoice
  have := hm (w.obj r).choice.rng ((w.obj r).choice, w.entropy) .here
  rcases hms : m ((w.obj r).choice, w.entropy) with ⟨res, c, e⟩
  rw [hms] at this
  exact onward_upd h (f := fun a => { a with choice := c }) (fun _ _ => this) e

theorem onward_attr {w0 : World R} {β γ : Type} {r : Ref} {L : Attr (World R) β}
    {set : β → Attrs R → Attrs R} (hs : ∀ b w, L.set b w = w.upd r (set b))
    (hc : ∀ b a, (set b a).choice = a.choice) (m : PyM β γ) : Keeps (Onward w0) (L.run m) := by
  intro w h
  rw [(L.run_state m w).2, hs]
  exact onward_upd h (fun _ _ => by rw [hc]; exact .here) w.entropy

theorem drawn_and {P : Ref → Prop} {w0 : World R} {β : Type} {m : PyM (World R) β}
    (h1 : Keeps (Frame P w0) m) (h2 : Keeps (Onward w0) m) : Keeps (Drawn P w0) m :=
  fun w h => ⟨h1 w h.1, h2 w h.2⟩

/-- The words of a `Text` come from the generator in one go unless they can be used up. -/
theorem drawn_words {P : Ref → Prop} {w0 : World R} {wd : Ref} (fuel : Nat)
    (hroac : ∀ k, (w0.obj wd).node = some (.choice k) → (w0.obj wd).choice.roac = false)
    {c : Child (World R)} (hc : ∀ arg, Keeps (Drawn P w0) (c arg)) :
    WordRel (fun w v => w = v ∧ Drawn P w0 w) ⟨c, reset fuel wd, roacInfo wd⟩
      ⟨c, reset fuel wd, roacInfo wd⟩ := by
  have hnone : ∀ w, Drawn P w0 w → roacInfo wd w = (.ok none, w) := by
    intro w h
    have hn := h.1.node wd
    unfold roacInfo
    rw [run_get_bind]
    rcases hx : (w.obj wd).node with _ | node
    · rfl
    · cases node with
      | choice k =>
        have hro : (w.obj wd).choice.roac = false := by
          have := congrArg (fun a => a.choice.roac) (h.1.config wd)
          rw [config_choice hx, config_choice (hn.symm.trans hx)] at this
          have key : ∀ c : ChoiceSt Val R, c.config.roac = c.roac := fun c => by
            unfold ChoiceSt.config; split <;> rfl
          dsimp only at this
          rw [key, key] at this
          exact this.trans (hroac k (hn.symm.trans hx))
        change onChoice wd Choice.roacInfo w = _
        unfold onChoice
        rw [Choice.roacInfo_of_not hro]
        dsimp only
        congr 1
        unfold World.upd
        congr 1
        funext x
        dsimp only
        split
        · next h => rw [h]
        · rfl
      | _ => rfl
  refine ⟨fun arg => (hc arg).rel, Keeps.rel fun w h => ?_, Or.inr ?_⟩
  · dsimp only
    rw [hnone w h]; exact h
  · rintro s r t e s0 ⟨rfl, hs⟩
    dsimp only at e
    rw [hnone s hs] at e
    cases e; rfl

theorem call_drawn (str : Val → List Char) {P : Ref → Prop} {w0 : World R}
    (hP : ∀ r, P r → ∀ c ∈ (w0.obj r).children, P c)
    (hT : ∀ q n wd s k, P q → (w0.obj q).node = some (.text n wd s) →
      (w0.obj wd).node = some (.choice k) → (w0.obj wd).choice.roac = false) :
    ∀ (fuel : Nat) (r : Ref), P r → ∀ arg, Keeps (Drawn P w0) (World.call str fuel r arg) := by
  have h := frame_steps P w0 hP
  intro fuel
  induction fuel with
  | zero => intro r _ arg; exact Keeps.raise _ _
  | succ fuel ih =>
    intro r hr arg w hw
    have ih' : ∀ c, P c → ChildRel (fun w v => w = v ∧ Drawn P w0 w) (World.call str fuel c)
        (World.call str fuel c) := fun c hc arg => (ih c hc arg).rel
    have rng : Node.hasWrapper (w0.obj r).node = true →
        AttrRel (fun w v => w = v ∧ Drawn P w0 w) (rngAttr r) (rngAttr r) := fun hw m =>
      Keeps.rel (drawn_and (h.rng r hr hw m).keeps
        (onward_attr (set := fun b a => { a with rng := b }) (fun _ _ => rfl) (fun _ _ => rfl) m))
    have grp : ∀ (src : List Ref) (single : Bool), ∀ s1 t1 : World R,
        (fun w v => w = v ∧ Drawn P w0 w) s1 t1 → GroupAt s1 t1
          (sourceGroup (fun g => World.call str fuel g none) (World.reset fuel)
            (World.seed fuel) w src single)
          (sourceGroup (fun g => World.call str fuel g none) (World.reset fuel)
            (World.seed fuel) w src single) := by
      rintro src single s1 t1 ⟨rfl, _⟩
      exact ⟨rfl, List.forall₂_same.2 fun _ _ => ⟨rfl, rfl, rfl⟩⟩
    have hcl : ∀ c ∈ Node.childRefs (w0.obj r).node, P c := hP r hr
    unfold World.call
    rw [run_get_bind, hw.1.node r, hw.1.wrapper r]
    cases hn : (w0.obj r).node with
    | none => exact hw
    | some node =>
      rw [hn] at hcl rng
      cases node with
      | choice k =>
        exact drawn_and ((h.choice r k hr hn).1 arg).keeps
          (onward_onChoice fun g => Choice.child_onward g arg) w hw
      | static =>
        refine drawn_and (h.static r hr hn arg).keeps (emitterCall_keeps ?_ (fun n => ?_) arg) w hw <;>
          exact onward_attr (set := fun b a => { a with static := b }) (fun _ _ => rfl) (fun _ _ => rfl) _
      | iterative =>
        refine drawn_and (h.iter r hr hn arg).keeps
          (emitterCallOr_keeps (fun _ => Keeps.raise _ _) ?_ (fun n => ?_) arg) w hw <;>
          exact onward_attr (set := fun b a => { a with iter := b }) (fun _ _ => rfl) (fun _ _ => rfl) _
      | sequential k =>
        refine drawn_and (h.seq r k hr hn arg).keeps
          (emitterCallOr_keeps (fun _ => Keeps.raise _ _) ?_ (fun n => ?_) arg) w hw <;>
          exact onward_attr (set := fun b a => { a with seq := b }) (fun _ _ => rfl) (fun _ _ => rfl) _
      | word l c =>
        exact (Word.call_rel (ih' l (hcl l (by simp [Node.childRefs])))
          (ih' c (hcl c (by simp [Node.childRefs]))) arg).keeps w hw
      | text n wd sp =>
        exact (Text.call_rel (drawn_words fuel (fun k hk => hT r n wd sp k hr hn hk)
          (ih wd (hcl wd (by simp [Node.childRefs]))))
          (ih' n (hcl n (by simp [Node.childRefs]))) (ih' sp (hcl sp (by simp [Node.childRefs])))
          arg).keeps w hw
      | wrapOne s =>
        cases (w0.obj r).wrapper with
        | none => exact hw
        | some cb =>
          exact (WrapOne.call_rel (rng rfl) cb (ih' s (hcl s (by simp [Node.childRefs]))) arg).keeps w hw
      | wrapMany ss =>
        cases (w0.obj r).wrapper with
        | none => exact hw
        | some cb =>
          refine (WrapMany.call_rel (rng rfl) cb ?_ arg).keeps w hw
          rw [List.forall₂_map_left_iff, List.forall₂_map_right_iff, List.forall₂_same]
          intro ks hks
          exact ⟨rfl, ih' ks.2 (hcl ks.2 (List.mem_map_of_mem hks))⟩
      | copyFields src single sep =>
        exact (CopyFields.call_rel str sep (grp src single) arg).keeps w hw
      | basedOn src single =>
        cases (w0.obj r).wrapper with
        | none => exact hw
        | some cb => exact (BasedOnFields.call_rel (rng rfl) cb (grp src single) arg).keeps w hw
      | field n e rp g hd =>
        cases arg with
        | some x => exact hw
        | none =>
          refine (Field.call_rel (fun x => Keeps.rel (drawn_and (h.cache r n e rp g hd hr hn x).keeps ?_))
            (ih' e (hcl e (by simp [Node.childRefs]))) (ih' rp (hcl rp (by simp [Node.childRefs])))
            (ih' g (hcl g (by simp [Node.childRefs])))).keeps w hw
          intro w hw
          exact onward_upd hw (f := fun a => { a with cache := x }) (fun _ _ => .here) w.entropy

end World
end Fauxdoc
