import Verif.Proofs.World
import Verif.Proofs.ChoiceBad
/-
Calls in the object store change no configuration and no object that is not below the called one.
-/
set_option linter.unusedSectionVars false
namespace Fauxdoc
open PyM
variable {K : Type} [Field K] [LinearOrder K] [FloorRing K] {R : Rng K}

/-! ### What single objects do -/

namespace Choice
variable {α : Type} [PyHash α]

theorem CallEffect.config {c d : ChoiceSt α R} (h : CallEffect c d) : d.config = c.config := by
  cases h with
  | norepl i n hr => unfold ChoiceSt.config; simp [hr]
  | repl g hr => unfold ChoiceSt.config; simp [hr]

theorem CallEffect.refl (c : ChoiceSt α R) : CallEffect c c := by
  cases h : c.replace with
  | false => exact .norepl c.shuffledIndex c.numUniqueItems h
  | true => exact .repl c.rng h

/-- What a call in any form does to the state. -/
theorem child_effect (arg : Option Val) (s : ChoiceSt Val R × Nat) :
    CallEffect s.1 (child arg s).2.1 ∧ (child arg s).2.2 = s.2 := by
  have hbind : ∀ {β : Type} (m : ChoiceM Val R β) (f : β → Val),
      ((m >>= fun b => pure (f b)) s).2 = (m s).2 := by
    intro β m f
    rw [PyM.bind_apply]
    rcases m s with ⟨_ | _, _⟩ <;> rfl
  have key : ∀ v : Val, (emitterCallOr emitBad emit emitMany (some v) : ChoiceM Val R Val) s =
      (match v.asInt with
        | none => emitBad v
        | some n => if n = 1 then (do return Val.list [← emit])
          else (do return Val.list (← emitMany n)) : ChoiceM Val R Val) s →
      CallEffect s.1 (child (some v) s).2.1 ∧ (child (some v) s).2.2 = s.2 := by
    intro v e
    unfold child
    rw [e]
    cases v.asInt with
    | none =>
      obtain ⟨e, _, h, _⟩ := emitBad_run v s.1
      dsimp only
      rw [h s.2]
      exact ⟨.refl _, rfl⟩
    | some n =>
      dsimp only
      by_cases hn : n = 1
      · rw [if_pos hn, hbind]; exact emit_effect s
      · rw [if_neg hn, hbind]
        have := call_effect (some n) s
        unfold call at this
        simpa only [if_neg hn] using this
  cases arg with
  | none => exact emit_effect s
  | some v =>
    cases v with
    | none => exact emit_effect s
    | bool b => exact key _ rfl
    | int i => exact key _ rfl
    | str x => exact key _ rfl
    | list l => exact key _ rfl
    | tuple l => exact key _ rfl
    | other n => exact key _ rfl

theorem ShuffleEffect.config {c d : ChoiceSt α R} {r : Except Err PUnit} (h : ShuffleEffect c r d)
    (hr : c.replace = false) : d.config = c.config := by
  cases h with
  | done g l hl => unfold ChoiceSt.config; simp [hr]
  | failed x g => unfold ChoiceSt.config; simp [hr]

theorem reset_config (s : ChoiceSt α R × Nat) : (reset s).2.1.config = s.1.config := by
  obtain ⟨g, e, _, h⟩ := reset_run s
  rw [h]
  cases hr : s.1.replace with
  | true => unfold ChoiceSt.config; simp [hr]
  | false =>
    rw [if_neg (by simp)]
    obtain ⟨r, c', h1, h2⟩ := globalShuffle_effect (({ s.1 with rng := g } : ChoiceSt α R), e)
    have hs : ({ s.1 with replace := false, rng := g } : ChoiceSt α R) = { s.1 with rng := g } := by
      rw [← hr]
    rw [h1]
    have := h2.config hr
    rw [this]
    unfold ChoiceSt.config; simp [hr]

theorem roacInfo_state (s : ChoiceSt Val R × Nat) : (roacInfo s).2 = s := by
  unfold roacInfo
  rw [self_bind]
  by_cases hro : s.1.roac = true
  · rw [if_pos hro, PyM.bind_apply]
    have := numUniqueValues_state s
    rcases hq : numUniqueValues s with ⟨x | n, s'⟩ <;> rw [hq] at this <;> exact this
  · rw [if_neg hro]; rfl

end Choice

theorem Attr.run_state {σ G α : Type} (L : Attr σ G) (m : PyM G α) (s : σ) :
    (L.run m s).1 = (m (L.get s)).1 ∧ (L.run m s).2 = L.set (m (L.get s)).2 s := ⟨rfl, rfl⟩

namespace Iterative
variable {α : Type} [PyHash α]

/-- Only the position changes. -/
def SameBut (s t : IterSt α) : Prop := { t with cur := Src.fin [] } = { s with cur := Src.fin [] }

theorem nextItem_but (s : IterSt α) : SameBut s (nextItem s).2 := by
  unfold nextItem SameBut
  rcases s.cur.next with _ | ⟨a, r⟩
  · rcases s.factory.src.next with _ | ⟨a, r⟩ <;> rfl
  · rfl

theorem SameBut.trans {s t u : IterSt α} (h : SameBut s t) (h' : SameBut t u) : SameBut s u :=
  Eq.trans h' h

theorem keeps_but {β : Type} {m : PyM (IterSt α) β} (h : ∀ s, SameBut s (m s).2) (s0 : IterSt α) :
    Keeps (SameBut s0) m := fun s hs => hs.trans (h s)

theorem takeItems_but (n : Nat) (s0 : IterSt α) : Keeps (SameBut s0) (takeItems (α := α) n) := by
  induction n with
  | zero => exact Keeps.pure _ _
  | succ n ih =>
    exact (keeps_but nextItem_but s0).bind fun _ => ih.bind fun _ => Keeps.pure _ _

theorem afterCall_but (s : IterSt α) : SameBut s (afterCall s).2 := by
  unfold afterCall
  rw [PyM.run_get_bind]
  by_cases h : s.resetAfterCall = true
  · rw [if_pos h]; rfl
  · rw [if_neg h]; rfl

theorem emit_but (s : IterSt α) : SameBut s (emit s).2 :=
  ((keeps_but nextItem_but s).bind fun _ => (keeps_but afterCall_but s).bind fun _ =>
    Keeps.pure _ _) s rfl

theorem emitMany_but (n : Int) (s : IterSt α) : SameBut s (emitMany n s).2 := by
  unfold emitMany
  by_cases h : n < 0
  · rw [if_pos h]; rfl
  · rw [if_neg h]
    exact ((takeItems_but _ s).bind fun _ => (keeps_but afterCall_but s).bind fun _ =>
      Keeps.pure _ _) s rfl

end Iterative

/-- A call in any form preserves what `emit` and `emit_many` preserve. -/
theorem emitterCallOr_keeps {σ : Type} {I : σ → Prop} {b : Val → PyM σ Val} {e : PyM σ Val}
    {m : Int → PyM σ (List Val)} (hb : ∀ v, Keeps I (b v)) (he : Keeps I e)
    (hm : ∀ n, Keeps I (m n)) (arg : Option Val) : Keeps I (emitterCallOr b e m arg) :=
  (emitterCallOr_rel (fun v => (hb v).rel) he.rel (fun n => (hm n).rel) arg).keeps

theorem emitterCall_keeps {σ : Type} {I : σ → Prop} {e : PyM σ Val} {m : Int → PyM σ (List Val)}
    (he : Keeps I e) (hm : ∀ n, Keeps I (m n)) (arg : Option Val) :
    Keeps I (emitterCall e m arg) :=
  emitterCallOr_keeps (fun _ => Keeps.raise _ _) he hm arg

/-! ### Configuration and frame -/

namespace World

/-- Compared with `w0`, no configuration and no object outside `P` has changed. -/
structure Frame (P : Ref → Prop) (w0 w : World R) : Prop where
  next : w.next = w0.next
  config : ∀ x, (w.obj x).config = (w0.obj x).config
  frame : ∀ x, ¬ P x → w.obj x = w0.obj x

theorem Frame.refl (P : Ref → Prop) (w : World R) : Frame P w w := ⟨rfl, fun _ => rfl, fun _ _ => rfl⟩

theorem Frame.upd {P : Ref → Prop} {w0 w : World R} (h : Frame P w0 w) {r : Ref} (hr : P r)
    {f : Attrs R → Attrs R} (hf : (f (w.obj r)).config = (w.obj r).config) (e : Nat) :
    Frame P w0 { w.upd r f with entropy := e } where
  next := h.next
  config x := by
    unfold World.upd
    by_cases hx : x = r
    · subst hx; simp only [if_true]; rw [hf, h.config]
    · simp only [hx, if_false]; exact h.config x
  frame x hx := by
    unfold World.upd
    have : x ≠ r := fun e => hx (e ▸ hr)
    simp only [this, if_false]
    exact h.frame x hx

theorem config_node (a : Attrs R) : a.config.node = a.node := by
  unfold Attrs.config; split <;> rfl

theorem config_wrapper (a : Attrs R) : a.config.wrapper = a.wrapper := by
  unfold Attrs.config; split <;> rfl

theorem Frame.node {P : Ref → Prop} {w0 w : World R} (h : Frame P w0 w) (x : Ref) :
    (w.obj x).node = (w0.obj x).node := by
  rw [← config_node, h.config x, config_node]

theorem Frame.wrapper {P : Ref → Prop} {w0 w : World R} (h : Frame P w0 w) (x : Ref) :
    (w.obj x).wrapper = (w0.obj x).wrapper := by
  rw [← config_wrapper, h.config x, config_wrapper]

theorem config_choice {a : Attrs R} {k : ItemsKind} (h : a.node = some (.choice k)) :
    a.config = { a with choice := a.choice.config } := by
  unfold Attrs.config; rw [h]

theorem config_iter {a : Attrs R} (h : a.node = some .iterative) :
    a.config = { a with iter := { a.iter with cur := .fin [] } } := by
  unfold Attrs.config; rw [h]

theorem config_seq {a : Attrs R} {k : ItemsKind} (h : a.node = some (.sequential k)) :
    a.config = { a with seq := { a.seq with it := { a.seq.it with cur := .fin [] } } } := by
  unfold Attrs.config; rw [h]

theorem config_wrap {a : Attrs R} (h : Node.hasWrapper a.node = true) :
    a.config = { a with rng := R.ofSeed 0 } := by
  obtain ⟨node, _, _, _, _, _, _, _, _, _⟩ := a
  rcases node with _ | (_ | _) <;> first | rfl | cases h

theorem config_field {a : Attrs R} {n : String} {e rp g : Ref} {hd : Bool}
    (h : a.node = some (.field n e rp g hd)) : a.config = { a with cache := .none } := by
  unfold Attrs.config; rw [h]

theorem keeps_onChoice {β : Type} {P : Ref → Prop} {w0 : World R} {r : Ref} (hr : P r)
    {k : ItemsKind} (hk : (w0.obj r).node = some (.choice k)) {m : ChoiceM Val R β} (hm : ∀ s, (m s).2.1.config = s.1.config) :
    Keeps (Frame P w0) (onChoice r m) := by
  intro w h
  unfold onChoice
  have := hm ((w.obj r).choice, w.entropy)
  rcases hms : m ((w.obj r).choice, w.entropy) with ⟨res, c, e⟩
  rw [hms] at this
  refine h.upd hr (f := fun a => { a with choice := c }) ?_ e
  have hn := (h.node r).trans hk
  rw [config_choice hn, config_choice (k := k) (by exact hn)]
  dsimp only at this ⊢
  rw [this]

theorem keeps_attr {β γ : Type} {P : Ref → Prop} {w0 : World R} {r : Ref} (hr : P r)
    {L : Attr (World R) β} {get : Attrs R → β} {set : β → Attrs R → Attrs R}
    (hg : ∀ w, L.get w = get (w.obj r)) (hs : ∀ b w, L.set b w = w.upd r (set b)) {m : PyM β γ}
    (hm : ∀ a, a.node = (w0.obj r).node → (set (m (get a)).2 a).config = a.config) : Keeps (Frame P w0) (L.run m) := by
  intro w h
  rw [(L.run_state m w).2, hs, hg]
  have := h.upd hr (f := set (m (get (w.obj r))).2) (hm (w.obj r) (h.node r)) w.entropy
  exact this

theorem keeps_attr_set {β : Type} {P : Ref → Prop} {w0 : World R} {r : Ref} (hr : P r)
    {L : Attr (World R) β} {set : β → Attrs R → Attrs R}
    (hs : ∀ b w, L.set b w = w.upd r (set b)) {b : β}
    (hm : ∀ a, a.node = (w0.obj r).node → (set b a).config = a.config) :
    Keeps (Frame P w0) (PyM.modify (L.set b)) := by
  intro w h
  rw [PyM.modify_apply, hs]
  exact h.upd hr (f := set b) (hm _ (h.node r)) w.entropy

theorem frame_steps (P : Ref → Prop) (w0 : World R)
    (hP : ∀ r, P r → ∀ c ∈ (w0.obj r).children, P c) :
    CallSteps (fun r => (w0.obj r).node) (fun r => (w0.obj r).wrapper) P
      (fun w v => w = v ∧ Frame P w0 w) where
  left := by rintro w v r ⟨rfl, h⟩ _; exact ⟨h.node r, h.wrapper r⟩
  right := by rintro w v r ⟨rfl, h⟩ _; exact ⟨h.node r, h.wrapper r⟩
  closed := hP
  source := by rintro w v r ⟨rfl, h⟩ _ g _; exact ⟨rfl, rfl, rfl⟩
  choice r k hr hk :=
    ⟨fun arg => (keeps_onChoice hr hk fun s => (Choice.child_effect arg s).1.config).rel,
      (keeps_onChoice hr hk fun s => by rw [Choice.roacInfo_state]).rel,
      .inl (keeps_onChoice hr hk Choice.reset_config).rel⟩
  static r hr _ arg := by
    refine (emitterCall_keeps ?_ (fun n => ?_) arg).rel
    · exact keeps_attr hr (get := (·.static)) (set := fun b a => { a with static := b })
        (fun _ => rfl) (fun _ _ => rfl) fun a _ => rfl
    · exact keeps_attr hr (get := (·.static)) (set := fun b a => { a with static := b })
        (fun _ => rfl) (fun _ _ => rfl) fun a _ => rfl
  iter r hr hk arg := by
    refine (emitterCallOr_keeps (fun _ => Keeps.raise _ _) ?_ (fun n => ?_) arg).rel
    · refine keeps_attr hr (get := (·.iter)) (set := fun b a => { a with iter := b })
        (fun _ => rfl) (fun _ _ => rfl) fun a ha => ?_
      have := Iterative.emit_but a.iter
      rw [config_iter (ha.trans hk), config_iter (by exact ha.trans hk)]
      unfold Iterative.SameBut at this
      dsimp only; rw [this]
    · refine keeps_attr hr (get := (·.iter)) (set := fun b a => { a with iter := b })
        (fun _ => rfl) (fun _ _ => rfl) fun a ha => ?_
      have := Iterative.emitMany_but n a.iter
      rw [config_iter (ha.trans hk), config_iter (by exact ha.trans hk)]
      unfold Iterative.SameBut at this
      dsimp only; rw [this]
  seq r k hr hk arg := by
    refine (emitterCallOr_keeps (fun _ => Keeps.raise _ _) ?_ (fun n => ?_) arg).rel
    · refine keeps_attr hr (get := (·.seq)) (set := fun b a => { a with seq := b })
        (fun _ => rfl) (fun _ _ => rfl) fun a ha => ?_
      have := Iterative.emit_but a.seq.it
      rw [config_seq (ha.trans hk), config_seq (k := k) (by exact ha.trans hk)]
      unfold Sequential.onIt; unfold Iterative.SameBut at this
      dsimp only; rw [this]
    · refine keeps_attr hr (get := (·.seq)) (set := fun b a => { a with seq := b })
        (fun _ => rfl) (fun _ _ => rfl) fun a ha => ?_
      have := Iterative.emitMany_but n a.seq.it
      rw [config_seq (ha.trans hk), config_seq (k := k) (by exact ha.trans hk)]
      unfold Sequential.onIt; unfold Iterative.SameBut at this
      dsimp only; rw [this]
  rng r hr hk m := by
    refine (keeps_attr hr (get := (·.rng)) (set := fun b a => { a with rng := b })
        (fun _ => rfl) (fun _ _ => rfl) fun a ha => ?_).rel
    rw [config_wrap (by rw [ha]; exact hk), config_wrap (by rw [show Attrs.node _ = a.node from rfl, ha]; exact hk)]
  cache r n e rp g hd hr hk x := by
    refine (keeps_attr_set hr (set := fun b a => { a with cache := b }) (fun _ _ => rfl)
      fun a ha => ?_).rel
    rw [config_field (ha.trans hk), config_field (n := n) (e := e) (rp := rp) (g := g) (hd := hd)
      (by exact ha.trans hk)]

/-- A call changes no configuration and nothing outside a set that contains the called object and
the emitters below it. -/
theorem call_frame (str : Val → List Char) (fuel : Nat) (r : Ref) (arg : Option Val)
    (P : Ref → Prop) (w0 : World R) (hP : ∀ r, P r → ∀ c ∈ (w0.obj r).children, P c) (hr : P r) :
    Keeps (Frame P w0) (call str fuel r arg) :=
  ((frame_steps P w0 hP).call str fuel r hr arg).keeps

end World
end Fauxdoc
