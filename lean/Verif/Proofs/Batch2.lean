import Verif.Spec.Batch
import Verif.Props.World
import Verif.Proofs.World7
/-
Calls of emitters that have nothing in common can be exchanged.
-/
set_option linter.unusedSectionVars false
namespace Fauxdoc
open PyM
variable {K : Type} [Field K] [LinearOrder K] [FloorRing K] {R : Rng K}

namespace World

/-- Two stores in which the objects in `D` are the same, with classes `nodes` and functions
`wrappers`; the `Choice`s in `P` have no `replace_only_after_call`. -/
structure SameIn (nodes : Ref → Option Node) (wrappers : Ref → Option (Callback R.G)) (P D : Ref → Prop)
    (e1 e2 : Nat) (w v : World R) : Prop where
  node : ∀ x, D x → (w.obj x).node = nodes x
  wrapper : ∀ x, D x → (w.obj x).wrapper = wrappers x
  same : ∀ x, D x → w.obj x = v.obj x
  roac : ∀ x k, P x → nodes x = some (.choice k) → (w.obj x).choice.roac = false
  left : w.entropy = e1
  right : v.entropy = e2

variable {nodes : Ref → Option Node} {wrappers : Ref → Option (Callback R.G)} {P D : Ref → Prop}
  {e1 e2 : Nat}

theorem SameIn.upd {w v : World R} (h : SameIn nodes wrappers P D e1 e2 w v) (r : Ref)
    {f g : Attrs R → Attrs R} (hn : (f (w.obj r)).node = (w.obj r).node)
    (hw : (f (w.obj r)).wrapper = (w.obj r).wrapper) (hX : D r → f (w.obj r) = g (v.obj r))
    (hs : (f (w.obj r)).choice.roac = (w.obj r).choice.roac) {e e' : Nat} (he : e = e1)
    (he' : e' = e2) :
    SameIn nodes wrappers P D e1 e2 { w.upd r f with entropy := e } { v.upd r g with entropy := e' } where
  node x hx := by
    change ((w.upd r f).obj x).node = _
    rw [upd_obj]
    by_cases hxr : x = r
    · subst hxr; rw [if_pos rfl, hn]; exact h.node x hx
    · rw [if_neg hxr]; exact h.node x hx
  wrapper x hx := by
    change ((w.upd r f).obj x).wrapper = _
    rw [upd_obj]
    by_cases hxr : x = r
    · subst hxr; rw [if_pos rfl, hw]; exact h.wrapper x hx
    · rw [if_neg hxr]; exact h.wrapper x hx
  same x hxx := by
    change (w.upd r f).obj x = (v.upd r g).obj x
    rw [upd_obj, upd_obj]
    by_cases hxr : x = r
    · subst hxr; rw [if_pos rfl, if_pos rfl]; exact hX hxx
    · rw [if_neg hxr, if_neg hxr]; exact h.same x hxx
  roac x k hxx hk := by
    change ((w.upd r f).obj x).choice.roac = false
    rw [upd_obj]
    by_cases hxr : x = r
    · subst hxr; rw [if_pos rfl, hs]; exact h.roac x k hxx hk
    · rw [if_neg hxr]; exact h.roac x k hxx hk
  left := he
  right := he'

theorem sameIn_onChoice {β : Type} {r : Ref} (hr : D r) {m : ChoiceM Val R β}
    (hm : Rel (fun s t : ChoiceSt Val R × Nat => s.1 = t.1) m m)
    (hs : ∀ s, (m s).2.1.roac = s.1.roac) (he : ∀ s, (m s).2.2 = s.2) :
    Rel (SameIn nodes wrappers P D e1 e2) (onChoice r m) (onChoice r m) := by
  intro w v h
  obtain ⟨h1, h2⟩ := hm ((w.obj r).choice, w.entropy) ((v.obj r).choice, v.entropy)
    (by rw [h.same r hr])
  refine ⟨h1, ?_⟩
  exact h.upd r (f := fun a => { a with choice := (m ((w.obj r).choice, w.entropy)).2.1 })
    (g := fun a => { a with choice := (m ((v.obj r).choice, v.entropy)).2.1 }) rfl rfl
    (fun _ => by rw [h2, h.same r hr]) (hs _) ((he _).trans h.left) ((he _).trans h.right)

theorem sameIn_attr {β γ : Type} {r : Ref} (hr : D r) {L : Attr (World R) β} {get : Attrs R → β}
    {set : β → Attrs R → Attrs R} (hg : ∀ w, L.get w = get (w.obj r))
    (hs : ∀ b w, L.set b w = w.upd r (set b)) (hn : ∀ b a, (set b a).node = a.node)
    (hw : ∀ b a, (set b a).wrapper = a.wrapper) (hc : ∀ b a, (set b a).choice = a.choice)
    (m : PyM β γ) : Rel (SameIn nodes wrappers P D e1 e2) (L.run m) (L.run m) := by
  intro w v h
  have e : L.get w = L.get v := by rw [hg, hg, h.same r hr]
  rw [(L.run_state m w).1, (L.run_state m v).1, (L.run_state m w).2, (L.run_state m v).2, e, hs, hs]
  exact ⟨rfl, h.upd r (hn _ _) (hw _ _) (fun _ => by rw [h.same r hr]) (by rw [hc])
    (e := w.entropy) (e' := v.entropy) h.left h.right⟩

theorem callEffect_roac {α : Type} {c d : ChoiceSt α R} (h : Choice.CallEffect c d) :
    d.roac = c.roac := by
  cases h <;> rfl

/-- Calls of the objects in `P` look at nothing outside `D`, and never ask for OS entropy. -/
theorem sameIn_steps (nodes : Ref → Option Node) (wrappers : Ref → Option (Callback R.G))
    (P D : Ref → Prop) (e1 e2 : Nat) (hPD : ∀ r, P r → D r)
    (hP : ∀ r, P r → ∀ c ∈ Node.childRefs (nodes r), P c)
    (hD : ∀ r, D r → ∀ c ∈ Node.childRefs (nodes r), D c)
    (hsrc : ∀ r, D r → ∀ g ∈ Node.sourceRefs (nodes r), D g) :
    CallSteps nodes wrappers P (SameIn nodes wrappers P D e1 e2) where
  left w v r h hr := ⟨h.node r (hPD r hr), h.wrapper r (hPD r hr)⟩
  right w v r h hr := by
    rw [← h.same r (hPD r hr)]; exact ⟨h.node r (hPD r hr), h.wrapper r (hPD r hr)⟩
  closed := hP
  source w v r h hr g hg := by
    have hDg := hsrc r (hPD r hr) g hg
    have e := h.same g hDg
    refine ⟨by rw [e], by rw [e], ?_⟩
    unfold multiValued
    rw [e]
    rcases hk : (v.obj g).node with _ | node
    · rfl
    · cases node with
      | field n em rp gt hd =>
        have : D rp := hD g hDg rp (by rw [← h.node g hDg, e, hk]; simp [Node.childRefs])
        dsimp only
        rw [h.same rp this]
      | _ => rfl
  choice r k hr hk :=
    ⟨fun arg => sameIn_onChoice (hPD r hr) (Choice.child_entropy arg)
        (fun s => callEffect_roac (Choice.child_effect arg s).1)
        fun s => (Choice.child_effect arg s).2,
      sameIn_onChoice (hPD r hr) Choice.roacInfo_entropy (fun s => by rw [Choice.roacInfo_state])
        (fun s => by rw [Choice.roacInfo_state]),
      .inr fun w v h => h.roac r k hr hk⟩
  static r hr _ arg := by
    refine emitterCall_rel ?_ (fun n => ?_) arg <;>
    exact sameIn_attr (hPD r hr) (get := (·.static)) (set := fun b a => { a with static := b })
        (fun _ => rfl) (fun _ _ => rfl) (fun _ _ => rfl) (fun _ _ => rfl) (fun _ _ => rfl) _
  iter r hr _ arg := by
    refine emitterCallOr_rel (fun _ => Rel.raise _ _) ?_ (fun n => ?_) arg <;>
    exact sameIn_attr (hPD r hr) (get := (·.iter)) (set := fun b a => { a with iter := b })
        (fun _ => rfl) (fun _ _ => rfl) (fun _ _ => rfl) (fun _ _ => rfl) (fun _ _ => rfl) _
  seq r k hr _ arg := by
    refine emitterCallOr_rel (fun _ => Rel.raise _ _) ?_ (fun n => ?_) arg <;>
    exact sameIn_attr (hPD r hr) (get := (·.seq)) (set := fun b a => { a with seq := b })
        (fun _ => rfl) (fun _ _ => rfl) (fun _ _ => rfl) (fun _ _ => rfl) (fun _ _ => rfl) _
  rng r hr _ m := sameIn_attr (hPD r hr) (get := (·.rng)) (set := fun b a => { a with rng := b })
        (fun _ => rfl) (fun _ _ => rfl) (fun _ _ => rfl) (fun _ _ => rfl) (fun _ _ => rfl) _
  cache r n e rp g hd hr hk x := by
    intro w v h
    rw [PyM.modify_apply, PyM.modify_apply, cache_set, cache_set]
    exact ⟨rfl, h.upd r (f := fun a => { a with cache := x }) (g := fun a => { a with cache := x })
      rfl rfl (fun _ => by rw [h.same r (hPD r hr)]) rfl (e := w.entropy) (e' := v.entropy)
      h.left h.right⟩

/-! ### Exchanging -/

/-- The store `w` has the same objects as `w0` with the same parts and settings. -/
structure Like (w0 w : World R) : Prop where
  node : ∀ x, (w.obj x).node = (w0.obj x).node
  wrapper : ∀ x, (w.obj x).wrapper = (w0.obj x).wrapper
  roac : ∀ x, (w.obj x).choice.roac = (w0.obj x).choice.roac
  replace : ∀ x, (w.obj x).choice.replace = (w0.obj x).choice.replace
  weights : ∀ x, (w.obj x).choice.weights = (w0.obj x).choice.weights
  items : ∀ x, (w.obj x).choice.items = (w0.obj x).choice.items
  iter : ∀ x, (w.obj x).iter.resetAfterCall = (w0.obj x).iter.resetAfterCall
  seq : ∀ x, (w.obj x).seq.it.resetAfterCall = (w0.obj x).seq.it.resetAfterCall

theorem Like.refl (w : World R) : Like w w :=
  ⟨fun _ => rfl, fun _ => rfl, fun _ => rfl, fun _ => rfl, fun _ => rfl, fun _ => rfl, fun _ => rfl,
    fun _ => rfl⟩

theorem Like.call {w0 w : World R} (h : Like w0 w) (str : Val → List Char) (fuel : Nat) (r : Ref)
    (arg : Option Val) : Like w0 (World.call str fuel r arg w).2 := by
  have key := fun x => C56_attributes str fuel r x arg w
  exact ⟨fun x => (key x).1.trans (h.node x),
    fun x => (key x).2.2.2.1.trans (h.wrapper x),
    fun x => (key x).2.2.2.2.2.2.2.2.2.2.1.trans (h.roac x),
    fun x => (key x).2.2.2.2.2.2.2.2.2.1.trans (h.replace x),
    fun x => (key x).2.2.2.2.2.2.2.1.trans (h.weights x),
    fun x => (key x).2.2.2.2.2.2.1.trans (h.items x),
    fun x => (key x).2.2.2.2.2.2.2.2.2.2.2.2.1.trans (h.iter x),
    fun x => (key x).2.2.2.2.2.2.2.2.2.2.2.2.2.2.2.trans (h.seq x)⟩

/-- `m` changes objects in `P` only and looks at objects in `D` only. -/
structure Acts (w0 : World R) (P D : Ref → Prop) {α : Type} (m : PyM (World R) α) : Prop where
  sub : ∀ x, P x → D x
  like : ∀ w, Like w0 w → Like w0 (m w).2
  frame : ∀ w, Like w0 w → ∀ x, ¬ P x → (m w).2.obj x = w.obj x
  next : ∀ w, Like w0 w → (m w).2.next = w.next
  entropy : ∀ w, Like w0 w → (m w).2.entropy = w.entropy
  look : ∀ w v, Like w0 w → Like w0 v → (∀ x, D x → w.obj x = v.obj x) →
    (m w).1 = (m v).1 ∧ ∀ x, D x → (m w).2.obj x = (m v).2.obj x

/-- Two steps that have nothing in common can be exchanged. -/
theorem Acts.swap {w0 : World R} {P1 D1 P2 D2 : Ref → Prop} {α β : Type} {m : PyM (World R) α}
    {k : PyM (World R) β} (h1 : Acts w0 P1 D1 m) (h2 : Acts w0 P2 D2 k)
    (h12 : ∀ x, D1 x → ¬ P2 x) (h21 : ∀ x, D2 x → ¬ P1 x) {w w1 w2 : World R} (hw : Like w0 w)
    {a : Except Err α} {b : Except Err β} (hm : m w = (a, w1)) (hk : k w1 = (b, w2)) :
    ∃ w1', k w = (b, w1') ∧ m w1' = (a, w2) := by
  have l1 : Like w0 w1 := by have := h1.like w hw; rwa [hm] at this
  have f1 : ∀ x, ¬ P1 x → w1.obj x = w.obj x := by have := h1.frame w hw; rwa [hm] at this
  have f2 : ∀ x, ¬ P2 x → w2.obj x = w1.obj x := by have := h2.frame w1 l1; rwa [hk] at this
  obtain ⟨e1, e2⟩ := h2.look w1 w l1 hw fun x hx => f1 x (h21 x hx)
  rw [hk] at e1 e2
  have l2 := h2.like w hw
  have f3 := h2.frame w hw
  obtain ⟨e3, e4⟩ := h1.look (k w).2 w l2 hw fun x hx => f3 x (h12 x hx)
  rw [hm] at e3 e4
  have f4 := h1.frame (k w).2 l2
  refine ⟨(k w).2, Prod.ext e1.symm rfl, Prod.ext e3 ?_⟩
  have hobj : (m (k w).2).2.obj = w2.obj := by
    funext x
    by_cases hx1 : P1 x
    · rw [e4 x (h1.sub x hx1), f2 x (h12 x (h1.sub x hx1))]
    · rw [f4 x hx1]
      by_cases hx2 : P2 x
      · exact (e2 x (h2.sub x hx2)).symm
      · rw [f3 x hx2, f2 x hx2, f1 x hx1]
  have hnext : (m (k w).2).2.next = w2.next := by
    rw [h1.next _ l2, h2.next w hw]
    have a1 := h1.next w hw
    have a2 := h2.next w1 l1
    rw [hm] at a1
    rw [hk] at a2
    rw [a2, a1]
  have hent : (m (k w).2).2.entropy = w2.entropy := by
    rw [h1.entropy _ l2, h2.entropy w hw]
    have a1 := h1.entropy w hw
    have a2 := h2.entropy w1 l1
    rw [hm] at a1
    rw [hk] at a2
    rw [a2, a1]
  rcases hx : (m (k w).2).2 with ⟨o, n, e⟩
  rw [hx] at hobj hnext hent
  rcases w2 with ⟨o', n', e'⟩
  dsimp only at hobj hnext hent
  rw [hobj, hnext, hent]

end World

open World

theorem Needs.child' {w : World R} {r x : Ref} (h : Needs w r x) :
    ∀ c ∈ (w.obj x).children, Needs w r c := by
  induction h with
  | self r => intro c hc; exact .child hc (.self c)
  | child hc _ ih => intro c h; exact .child hc (ih c h)
  | source hg _ ih => intro c h; exact .source hg (ih c h)

theorem Needs.source' {w : World R} {r x : Ref} (h : Needs w r x) :
    ∀ c ∈ (w.obj x).sources, Needs w r c := by
  induction h with
  | self r => intro c hc; exact .source hc (.self c)
  | child hc _ ih => intro c h; exact .child hc (ih c h)
  | source hg _ ih => intro c h; exact .source hg (ih c h)

theorem Below.needs {w : World R} {r x : Ref} (h : Below w r x) : Needs w r x := by
  induction h with
  | self r => exact .self r
  | step hc _ ih => exact .child hc ih

variable {V : Ref → Val → Prop}

theorem Batchable.child {w : World R} {r c : Ref} (h : Batchable V w r)
    (hc : c ∈ (w.obj r).children) : Batchable V w c := by
  unfold Attrs.children at hc
  cases h with
  | static hn => rw [hn] at hc; simp [Node.childRefs] at hc
  | iterative hn _ => rw [hn] at hc; simp [Node.childRefs] at hc
  | sequential hn _ => rw [hn] at hc; simp [Node.childRefs] at hc
  | choice hn _ => rw [hn] at hc; simp [Node.childRefs] at hc
  | copyFields hn => rw [hn] at hc; simp [Node.childRefs] at hc
  | basedOn hn _ => rw [hn] at hc; simp [Node.childRefs] at hc
  | word hn h1 h2 =>
    rw [hn] at hc
    simp only [Node.childRefs, List.mem_cons, List.not_mem_nil, or_false] at hc
    rcases hc with rfl | rfl
    · exact h1
    · exact h2
  | text hn h1 h2 h3 =>
    rw [hn] at hc
    simp only [Node.childRefs, List.mem_cons, List.not_mem_nil, or_false] at hc
    rcases hc with rfl | rfl | rfl
    · exact h1
    · exact h2
    · exact h3
  | wrapOne hn h1 =>
    rw [hn] at hc
    simp only [Node.childRefs, List.mem_cons, List.not_mem_nil, or_false] at hc
    exact hc ▸ h1
  | wrapMany hn _ h1 =>
    rw [hn] at hc
    obtain ⟨ks, hks, rfl⟩ := List.mem_map.1 hc
    exact h1 ks hks

theorem Batchable.of_below {w : World R} {r x : Ref} (h : Batchable V w r) (hx : Below w r x) :
    Batchable V w x := by
  induction hx with
  | self => exact h
  | step hc _ ih => exact ih (h.child hc)

theorem Batchable.roac {w : World R} {r : Ref} (h : Batchable V w r) {k : ItemsKind}
    (hk : (w.obj r).node = some (.choice k)) : (w.obj r).choice.roac = false := by
  cases h with
  | choice _ hc => exact hc.1
  | _ => simp_all

/-- A call of a batchable emitter changes only what is below it and looks only at what it needs. -/
theorem Batchable.acts {w0 : World R} {r : Ref} (h : Batchable V w0 r) (str : Val → List Char)
    (fuel : Nat) (arg : Option Val) : Acts w0 (Below w0 r) (Needs w0 r) (World.call str fuel r arg) := by
  have hch : ∀ {w : World R}, Like w0 w → ∀ x, (w.obj x).children = (w0.obj x).children := by
    intro w hw x; unfold Attrs.children; rw [hw.node]
  have hfr : ∀ w, Like w0 w → Frame (Below w0 r) w (World.call str fuel r arg w).2 := fun w hw =>
    call_frame str fuel r arg (Below w0 r) w
      (fun x hx c hc => hx.child (by rw [← hch hw]; exact hc)) (.self r) w (.refl _ w)
  have hst : ∀ e1 e2, CallSteps (fun x => (w0.obj x).node) (fun x => (w0.obj x).wrapper) (Below w0 r)
      (SameIn (fun x => (w0.obj x).node) (fun x => (w0.obj x).wrapper) (Below w0 r) (Needs w0 r)
        e1 e2) := fun e1 e2 =>
    sameIn_steps _ _ _ _ e1 e2 (fun x hx => hx.needs) (fun x hx c hc => hx.child hc)
      (fun x hx => hx.child') fun x hx => hx.source'
  have hag : ∀ w v, Like w0 w → (∀ x, Needs w0 r x → w.obj x = v.obj x) →
      SameIn (fun x => (w0.obj x).node) (fun x => (w0.obj x).wrapper) (Below w0 r) (Needs w0 r)
        w.entropy v.entropy w v := fun w v hw hs =>
    ⟨fun x _ => hw.node x, fun x _ => hw.wrapper x, hs,
      fun x k hx hk => by rw [hw.roac]; exact (h.of_below hx).roac hk, rfl, rfl⟩
  have hcall := fun w v hw hs => ((hst w.entropy v.entropy).call str fuel r (.self r) arg w v (hag w v hw hs))
  refine ⟨fun x hx => hx.needs, fun w hw => hw.call str fuel r arg, fun w hw => (hfr w hw).frame,
    fun w hw => (hfr w hw).next, fun w hw => ?_, fun w v hw _ hs => ?_⟩
  · exact (hcall w w hw fun _ _ => rfl).2.left
  · exact ⟨(hcall w v hw hs).1, (hcall w v hw hs).2.same⟩

end Fauxdoc
