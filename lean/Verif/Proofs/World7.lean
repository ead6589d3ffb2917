import Verif.Proofs.World6
/-
Two stores side by side: resetting with seeds makes them agree, and calls keep them in agreement.
-/
set_option linter.unusedSectionVars false
namespace Fauxdoc
open PyM
variable {K : Type} [Field K] [LinearOrder K] [FloorRing K] {R : Rng K}

namespace World
variable {nodes : Ref → Option Node} {P X T : Ref → Prop}

/-! ### Resetting: frame -/

/-- Compared with `w0`, no shape and no object outside `P` has changed. -/
structure ShapeFrame (P : Ref → Prop) (w0 w : World R) : Prop where
  next : w.next = w0.next
  shape : ∀ x, (w.obj x).shape = (w0.obj x).shape
  frame : ∀ x, ¬ P x → w.obj x = w0.obj x

theorem ShapeFrame.refl (P : Ref → Prop) (w : World R) : ShapeFrame P w w :=
  ⟨rfl, fun _ => rfl, fun _ _ => rfl⟩

theorem ShapeFrame.trans {P : Ref → Prop} {w0 w1 w2 : World R} (h : ShapeFrame P w0 w1)
    (h' : ShapeFrame P w1 w2) : ShapeFrame P w0 w2 :=
  ⟨h'.next.trans h.next, fun x => (h'.shape x).trans (h.shape x),
    fun x hx => (h'.frame x hx).trans (h.frame x hx)⟩

theorem ShapeFrame.node {P : Ref → Prop} {w0 w : World R} (h : ShapeFrame P w0 w) (x : Ref) :
    (w.obj x).node = (w0.obj x).node := node_of_shape (h.shape x)

theorem ShapeFrame.upd {P : Ref → Prop} {w0 w : World R} (h : ShapeFrame P w0 w) {r : Ref} (hr : P r)
    {f : Attrs R → Attrs R} (hf : (f (w.obj r)).shape = (w.obj r).shape) (e : Nat) :
    ShapeFrame P w0 { w.upd r f with entropy := e } where
  next := h.next
  shape x := by
    change ((w.upd r f).obj x).shape = _
    rw [upd_obj]
    by_cases hx : x = r
    · subst hx; rw [if_pos rfl, hf, h.shape]
    · rw [if_neg hx]; exact h.shape x
  frame x hx := by
    change (w.upd r f).obj x = _
    have : x ≠ r := fun e => hx (e ▸ hr)
    rw [upd_obj, if_neg this]
    exact h.frame x hx

theorem newRng_seeded (r : Ref) (s : Int) (w : World R) : newRng r (some s) w =
    (.ok (), w.upd r fun a => { a with rng := R.ofSeed s }) := rfl

theorem shapeFrame_steps (P : Ref → Prop) (s : Option Int) (w0 : World R)
    (hP : ∀ r, P r → ∀ c ∈ (w0.obj r).children, P c) :
    ResetSteps (fun x => (w0.obj x).node) P s (fun w v => w = v ∧ ShapeFrame P w0 w) where
  left := by rintro w v r ⟨rfl, h⟩ _; exact h.node r
  right := by rintro w v r ⟨rfl, h⟩ _; exact h.node r
  closed := hP
  setSeed := by
    rintro r w v ⟨rfl, h⟩ hr hn
    exact ⟨rfl, h.upd hr (shape_setSeed s (by rw [h.node r]; exact hn)) w.entropy⟩
  newRng := by
    rintro r w v ⟨rfl, h⟩ hr hn hc _ _
    obtain ⟨g, e, h1, _⟩ := newRng_eq r s w
    rw [h1]
    exact ⟨rfl, h.upd hr (shape_setRng g (by rw [h.node r]; exact hn) (by rw [h.node r]; exact hc)) e⟩
  choice := by
    rintro r k w v ⟨rfl, h⟩ hr hk _ _
    refine ⟨rfl, rfl, ?_⟩
    exact h.upd hr (f := fun a => { a with
      choice := (Choice.reset ((w.obj r).choice, w.entropy)).2.1 })
      (shape_setChoice ((h.node r).trans hk) (Choice.reset_keeps_alike _)) _
  iter := by
    rintro r w v ⟨rfl, h⟩ hr hk
    rw [iter_run]
    exact ⟨rfl, h.upd hr (f := fun a => { a with iter := (Iterative.reset (w.obj r).iter).2 })
      (shape_setIter _ ((h.node r).trans hk)) w.entropy⟩
  seq := by
    rintro r k w v ⟨rfl, h⟩ hr hk
    rw [seq_run]
    exact ⟨rfl, h.upd hr (f := fun a => { a with
      seq := (Sequential.onIt Iterative.reset (w.obj r).seq).2 })
      (shape_setSeq _ ((h.node r).trans hk)) w.entropy⟩
  cache := by
    rintro r n e rp g hd w v ⟨rfl, h⟩ hr hk
    rw [cache_set]
    exact ⟨rfl, h.upd hr (f := fun a => { a with cache := .none })
      (shape_setCache _ ((h.node r).trans hk)) w.entropy⟩

/-- Resetting changes no shape and nothing outside a set that contains the object and the emitters
below it. -/
theorem reset_frame (fuel : Nat) (r : Ref) (P : Ref → Prop) (w : World R)
    (hP : ∀ r, P r → ∀ c ∈ (w.obj r).children, P c) (hr : P r) :
    ShapeFrame P w (reset fuel r w).2 := by
  have := ((shapeFrame_steps P (w.obj r).rngSeed w hP).withSeeds (· = r)).reset fuel r hr
    (fun _ _ h => h.2) w w ⟨⟨rfl, .refl P w⟩, fun t ht _ => by subst ht; exact ⟨rfl, rfl⟩⟩
  exact this.2.1.2

/-! ### Agreement -/

/-- Two stores in which the objects in `P` have the same shapes (with classes `nodes`), those in `X`
are the same, and those in `T` have the same seeds, which are not `None`. -/
structure Agree (nodes : Ref → Option Node) (P X T : Ref → Prop) (w v : World R) : Prop where
  left : ∀ x, P x → (w.obj x).node = nodes x
  right : ∀ x, P x → (v.obj x).node = nodes x
  shape : ∀ x, P x → (w.obj x).shape = (v.obj x).shape
  same : ∀ x, X x → w.obj x = v.obj x
  seeds : ∀ x, T x → Node.isRandom (nodes x) = true →
    ∃ z : Int, (w.obj x).rngSeed = some z ∧ (v.obj x).rngSeed = some z

theorem Agree.upd {w v : World R} (h : Agree nodes P X T w v) (r : Ref) {f g : Attrs R → Attrs R}
    (hf : (f (w.obj r)).node = (w.obj r).node) (hg : (g (v.obj r)).node = (v.obj r).node)
    (hs : P r → (f (w.obj r)).shape = (g (v.obj r)).shape) (hX : X r → f (w.obj r) = g (v.obj r))
    (ht : T r → Node.isRandom (nodes r) = true →
      ∃ z : Int, (f (w.obj r)).rngSeed = some z ∧ (g (v.obj r)).rngSeed = some z) (e e' : Nat) :
    Agree nodes P X T { w.upd r f with entropy := e } { v.upd r g with entropy := e' } where
  left x hx := by
    change ((w.upd r f).obj x).node = _
    rw [upd_obj]
    by_cases hxr : x = r
    · subst hxr; rw [if_pos rfl, hf]; exact h.left x hx
    · rw [if_neg hxr]; exact h.left x hx
  right x hx := by
    change ((v.upd r g).obj x).node = _
    rw [upd_obj]
    by_cases hxr : x = r
    · subst hxr; rw [if_pos rfl, hg]; exact h.right x hx
    · rw [if_neg hxr]; exact h.right x hx
  shape x hx := by
    change ((w.upd r f).obj x).shape = ((v.upd r g).obj x).shape
    rw [upd_obj, upd_obj]
    by_cases hxr : x = r
    · subst hxr; rw [if_pos rfl, if_pos rfl]; exact hs hx
    · rw [if_neg hxr, if_neg hxr]; exact h.shape x hx
  same x hxx := by
    change (w.upd r f).obj x = (v.upd r g).obj x
    rw [upd_obj, upd_obj]
    by_cases hxr : x = r
    · subst hxr; rw [if_pos rfl, if_pos rfl]; exact hX hxx
    · rw [if_neg hxr, if_neg hxr]; exact h.same x hxx
  seeds x hx hr := by
    change ∃ z : Int, ((w.upd r f).obj x).rngSeed = _ ∧ ((v.upd r g).obj x).rngSeed = _
    rw [upd_obj, upd_obj]
    by_cases hxr : x = r
    · subst hxr; rw [if_pos rfl, if_pos rfl]; exact ht hx hr
    · rw [if_neg hxr, if_neg hxr]; exact h.seeds x hx hr

theorem agree_steps (nodes : Ref → Option Node) (P X T : Ref → Prop) (s : Int)
    (hP : ∀ r, P r → ∀ c ∈ Node.childRefs (nodes r), P c) :
    ResetSteps (R := R) nodes P (some s) (Agree nodes P X T) where
  left w v r h hr := h.left r hr
  right w v r h hr := h.right r hr
  closed := hP
  setSeed := by
    intro r w v h hr hn
    refine h.upd r (Attrs.setSeed_node _ _) (Attrs.setSeed_node _ _) (fun _ => ?_) (fun hx => ?_)
      (fun _ _ => ⟨s, Attrs.setSeed_rngSeed _ _, Attrs.setSeed_rngSeed _ _⟩) w.entropy v.entropy
    · rw [shape_setSeed _ (by rw [h.left r hr]; exact hn),
        shape_setSeed _ (by rw [h.right r hr]; exact hn)]
      exact h.shape r hr
    · rw [h.same r hx]
  newRng := by
    intro r w v h hr hn hc _ _
    rw [newRng_seeded, newRng_seeded]
    refine h.upd r (f := fun a => { a with rng := R.ofSeed s })
      (g := fun a => { a with rng := R.ofSeed s }) rfl rfl (fun _ => ?_) (fun hx => ?_)
      (fun ht hn => ?_) w.entropy v.entropy
    · exact (shape_setRng _ (by rw [h.left r hr]; exact hn) (by rw [h.left r hr]; exact hc)).trans
        ((h.shape r hr).trans (shape_setRng _ (by rw [h.right r hr]; exact hn)
          (by rw [h.right r hr]; exact hc)).symm)
    · rw [h.same r hx]
    · obtain ⟨z, h1, h2⟩ := h.seeds r ht hn
      exact ⟨z, h1, h2⟩
  choice := by
    intro r k w v h hr hk hs hs'
    have hkw := (h.left r hr).trans hk
    have hkv := (h.right r hr).trans hk
    have ha := alike_of_shape (h.shape r hr) hkw
    refine ⟨Choice.reset_alike hs hs' ha _ _, ?_⟩
    refine h.upd r (f := fun a => { a with
        choice := (Choice.reset ((w.obj r).choice, w.entropy)).2.1 })
      (g := fun a => { a with choice := (Choice.reset ((v.obj r).choice, v.entropy)).2.1 })
      rfl rfl (fun _ => ?_) (fun hx => ?_) (fun ht hn => ?_) _ _
    · rw [shape_setChoice hkw (Choice.reset_keeps_alike _),
        shape_setChoice hkv (Choice.reset_keeps_alike _)]
      exact h.shape r hr
    · have hsame := h.same r hx
      rw [hsame, (Choice.reset_entropy hs' w.entropy v.entropy).2]
    · refine ⟨s, ?_, ?_⟩
      · unfold Attrs.rngSeed
        dsimp only
        rw [hkw]
        dsimp only
        rw [Choice.reset_rngSeed]; exact hs
      · unfold Attrs.rngSeed
        dsimp only
        rw [hkv]
        dsimp only
        rw [Choice.reset_rngSeed]; exact hs'
  iter := by
    intro r w v h hr hk
    rw [iter_run, iter_run]
    refine h.upd r (f := fun a => { a with iter := (Iterative.reset (w.obj r).iter).2 })
      (g := fun a => { a with iter := (Iterative.reset (v.obj r).iter).2 }) rfl rfl (fun _ => ?_)
      (fun hx => ?_) (fun ht hn => h.seeds r ht hn) w.entropy v.entropy
    · exact (shape_setIter _ ((h.left r hr).trans hk)).trans
        ((h.shape r hr).trans (shape_setIter _ ((h.right r hr).trans hk)).symm)
    · rw [h.same r hx]
  seq := by
    intro r k w v h hr hk
    rw [seq_run, seq_run]
    refine h.upd r (f := fun a => { a with
        seq := (Sequential.onIt Iterative.reset (w.obj r).seq).2 })
      (g := fun a => { a with seq := (Sequential.onIt Iterative.reset (v.obj r).seq).2 }) rfl rfl
      (fun _ => ?_) (fun hx => ?_) (fun ht hn => h.seeds r ht hn) w.entropy v.entropy
    · exact (shape_setSeq _ ((h.left r hr).trans hk)).trans
        ((h.shape r hr).trans (shape_setSeq _ ((h.right r hr).trans hk)).symm)
    · rw [h.same r hx]
  cache := by
    intro r n e rp g hd w v h hr hk
    rw [cache_set, cache_set]
    refine h.upd r (f := fun a => { a with cache := .none }) (g := fun a => { a with cache := .none })
      rfl rfl (fun _ => ?_) (fun hx => ?_) (fun ht hn => h.seeds r ht hn) w.entropy v.entropy
    · exact (shape_setCache _ ((h.left r hr).trans hk)).trans
        ((h.shape r hr).trans (shape_setCache _ ((h.right r hr).trans hk)).symm)
    · rw [h.same r hx]

theorem BelowN.mem {r x : Ref} (hP : ∀ r, P r → ∀ c ∈ Node.childRefs (nodes r), P c) (hr : P r)
    (h : BelowN nodes r x) : P x := by
  induction h with
  | self => exact hr
  | step hc _ ih => exact ih (hP _ hr _ hc)

/-- Resetting an object that has the same seed in both stores: the same outcome, and after success
everything below it is the same. -/
theorem reset_agree (hP : ∀ r, P r → ∀ c ∈ Node.childRefs (nodes r), P c) (fuel : Nat) {r : Ref}
    (hr : P r) (hT : T r) (hran : Node.isRandom (nodes r) = true) (w v : World R)
    (h : Agree nodes P X T w v) :
    (reset fuel r w).1 = (reset fuel r v).1 ∧ Agree nodes P X T (reset fuel r w).2 (reset fuel r v).2 ∧
    ((reset fuel r w).1 = .ok () →
      Agree nodes P (fun x => X x ∨ BelowN nodes r x) (fun x => T x ∨ BelowN nodes r x)
        (reset fuel r w).2 (reset fuel r v).2) := by
  obtain ⟨s, hs1, hs2⟩ := h.seeds r hT hran
  have hsd : SeedsIn nodes (some s) (· = r) w v := fun t ht _ => by subst ht; exact ⟨hs1, hs2⟩
  obtain ⟨h1, h2, h3⟩ := ((agree_steps nodes P X T s hP).withSeeds (· = r)).reset fuel r hr
    (fun _ _ h => h.2) w v ⟨h, hsd⟩
  refine ⟨h1, h2, fun hok => ?_⟩
  have hI : ∀ u : World R, (∀ x, P x → (u.obj x).node = nodes x) →
      Inv nodes P (some s) (fun _ => False) (fun _ => False) u :=
    fun u hu => ⟨hu, fun _ hx => hx.elim, fun _ hx => hx.elim⟩
  have f1 := reset_fresh hP fuel r hr w (reset fuel r w).2 (reset fuel r w).1 (hI w h.left)
    (fun t ht _ => by subst ht; exact ⟨hs1, hs1⟩) rfl (.inl hok)
  have f2 := reset_fresh hP fuel r hr v (reset fuel r v).2 (reset fuel r v).1 (hI v h.right)
    (fun t ht _ => by subst ht; exact ⟨hs2, hs2⟩) rfl (.inl (h1 ▸ hok))
  refine ⟨h2.left, h2.right, h2.shape, fun x hx => ?_, fun x hx hn => ?_⟩
  · rcases hx with hx | hx
    · exact h2.same x hx
    · have hPx := hx.mem hP hr
      exact seeded_ext (f1 x hx).1 (f2 x hx).1 (sameProgress_of_rewound
        ((h2.left x hPx).trans (h2.right x hPx).symm) (f1 x hx).2 (f2 x hx).2) (h2.shape x hPx)
  · rcases hx with hx | hx
    · exact h2.seeds x hx hn
    · have hPx := hx.mem hP hr
      exact ⟨s, seeded_rngSeed (f1 x hx).1 (by rw [h2.left x hPx]; exact hn),
        seeded_rngSeed (f2 x hx).1 (by rw [h2.right x hPx]; exact hn)⟩

/-! ### Calls -/

/-- Two stores in which the objects in `P` are the same, with classes `nodes`, functions `wrappers`,
and seeds that are not `None`. -/
structure Same (nodes : Ref → Option Node) (wrappers : Ref → Option (Callback R.G)) (P : Ref → Prop)
    (w v : World R) : Prop where
  node : ∀ x, P x → (w.obj x).node = nodes x
  wrapper : ∀ x, P x → (w.obj x).wrapper = wrappers x
  same : ∀ x, P x → w.obj x = v.obj x
  seeds : ∀ x k, P x → nodes x = some (.choice k) → ∃ z : Int, (w.obj x).choice.rngSeed = some z

variable {wrappers : Ref → Option (Callback R.G)}

theorem Same.upd {w v : World R} (h : Same nodes wrappers P w v) (r : Ref) {f g : Attrs R → Attrs R}
    (hn : (f (w.obj r)).node = (w.obj r).node) (hw : (f (w.obj r)).wrapper = (w.obj r).wrapper)
    (hX : P r → f (w.obj r) = g (v.obj r))
    (hs : (f (w.obj r)).choice.rngSeed = (w.obj r).choice.rngSeed) (e e' : Nat) :
    Same nodes wrappers P { w.upd r f with entropy := e } { v.upd r g with entropy := e' } where
  node x hx := by
    change ((w.upd r f).obj x).node = _
    rw [upd_obj]
    by_cases hxr : x = r
    · subst hxr; rw [if_pos rfl, hn]; exact h.node x hx
    · rw [if_neg hxr]; exact h.node x hx
  wrapper x hx := by
    change ((w.upd r f).obj x).wrapper = _
    rw [upd_obj]
    by_cases hxr : x = r
    · subst hxr; rw [if_pos rfl, hw]; exact h.wrapper x hx
    · rw [if_neg hxr]; exact h.wrapper x hx
  same x hxx := by
    change (w.upd r f).obj x = (v.upd r g).obj x
    rw [upd_obj, upd_obj]
    by_cases hxr : x = r
    · subst hxr; rw [if_pos rfl, if_pos rfl]; exact hX hxx
    · rw [if_neg hxr, if_neg hxr]; exact h.same x hxx
  seeds x k hxx hk := by
    change ∃ z : Int, ((w.upd r f).obj x).choice.rngSeed = some z
    rw [upd_obj]
    by_cases hxr : x = r
    · subst hxr; rw [if_pos rfl, hs]; exact h.seeds x k hxx hk
    · rw [if_neg hxr]; exact h.seeds x k hxx hk

theorem same_onChoice {β : Type} {r : Ref} (hr : P r) {m : ChoiceM Val R β}
    (hm : Rel (fun s t : ChoiceSt Val R × Nat => s.1 = t.1) m m)
    (hs : ∀ s, (m s).2.1.rngSeed = s.1.rngSeed) :
    Rel (Same nodes wrappers P) (onChoice r m) (onChoice r m) := by
  intro w v h
  obtain ⟨h1, h2⟩ := hm ((w.obj r).choice, w.entropy) ((v.obj r).choice, v.entropy)
    (by rw [h.same r hr])
  refine ⟨h1, ?_⟩
  exact h.upd r (f := fun a => { a with choice := (m ((w.obj r).choice, w.entropy)).2.1 })
    (g := fun a => { a with choice := (m ((v.obj r).choice, v.entropy)).2.1 }) rfl rfl
    (fun _ => by rw [h2, h.same r hr]) (hs _) _ _

theorem same_attr {β γ : Type} {r : Ref} (hr : P r) {L : Attr (World R) β} {get : Attrs R → β}
    {set : β → Attrs R → Attrs R} (hg : ∀ w, L.get w = get (w.obj r))
    (hs : ∀ b w, L.set b w = w.upd r (set b)) (hn : ∀ b a, (set b a).node = a.node)
    (hw : ∀ b a, (set b a).wrapper = a.wrapper) (hc : ∀ b a, (set b a).choice = a.choice)
    (m : PyM β γ) : Rel (Same nodes wrappers P) (L.run m) (L.run m) := by
  intro w v h
  have e : L.get w = L.get v := by rw [hg, hg, h.same r hr]
  rw [(L.run_state m w).1, (L.run_state m v).1, (L.run_state m w).2, (L.run_state m v).2, e, hs, hs]
  exact ⟨rfl, h.upd r (hn _ _) (hw _ _) (fun _ => by rw [h.same r hr]) (by rw [hc]) w.entropy
    v.entropy⟩

theorem callEffect_rngSeed {α : Type} {c d : ChoiceSt α R} (h : Choice.CallEffect c d) :
    d.rngSeed = c.rngSeed := by
  cases h <;> rfl

/-- Calls see no difference between stores that agree on everything they can reach. -/
theorem same_steps (nodes : Ref → Option Node) (wrappers : Ref → Option (Callback R.G))
    (P : Ref → Prop) (hP : ∀ r, P r → ∀ c ∈ Node.childRefs (nodes r), P c)
    (hsrc : ∀ r, P r → ∀ g ∈ Node.sourceRefs (nodes r), P g) :
    CallSteps nodes wrappers P (Same nodes wrappers P) where
  left w v r h hr := ⟨h.node r hr, h.wrapper r hr⟩
  right w v r h hr := by rw [← h.same r hr]; exact ⟨h.node r hr, h.wrapper r hr⟩
  closed := hP
  source w v r h hr g hg := by
    have hPg := hsrc r hr g hg
    have e := h.same g hPg
    refine ⟨by rw [e], by rw [e], ?_⟩
    unfold multiValued
    rw [e]
    rcases hk : (v.obj g).node with _ | node
    · rfl
    · cases node with
      | field n em rp gt hd =>
        have : P rp := hP g hPg rp (by rw [← h.node g hPg, e, hk]; simp [Node.childRefs])
        dsimp only
        rw [h.same rp this]
      | _ => rfl
  choice r k hr hk := by
    refine ⟨fun arg => same_onChoice hr (Choice.child_entropy arg) fun s =>
        callEffect_rngSeed (Choice.child_effect arg s).1,
      same_onChoice hr Choice.roacInfo_entropy fun s => by rw [Choice.roacInfo_state], .inl ?_⟩
    intro w v h
    obtain ⟨z, hz⟩ := h.seeds r k hr hk
    have e := h.same r hr
    have hz' : (v.obj r).choice.rngSeed = some z := by rw [← e]; exact hz
    obtain ⟨h1, h2⟩ := Choice.reset_entropy hz' w.entropy v.entropy
    refine ⟨?_, ?_⟩
    · rw [(onChoice_obj r r Choice.reset w).2, (onChoice_obj r r Choice.reset v).2, e, h1]
    · exact h.upd r (f := fun a => { a with
          choice := (Choice.reset ((w.obj r).choice, w.entropy)).2.1 })
        (g := fun a => { a with choice := (Choice.reset ((v.obj r).choice, v.entropy)).2.1 }) rfl rfl
        (fun _ => by rw [e, h2]) (Choice.reset_rngSeed _) _ _
  static r hr _ arg := by
    refine emitterCall_rel ?_ (fun n => ?_) arg <;>
    exact same_attr hr (get := (·.static)) (set := fun b a => { a with static := b })
        (fun _ => rfl) (fun _ _ => rfl) (fun _ _ => rfl) (fun _ _ => rfl) (fun _ _ => rfl) _
  iter r hr _ arg := by
    refine emitterCallOr_rel (fun _ => Rel.raise _ _) ?_ (fun n => ?_) arg <;>
    exact same_attr hr (get := (·.iter)) (set := fun b a => { a with iter := b })
        (fun _ => rfl) (fun _ _ => rfl) (fun _ _ => rfl) (fun _ _ => rfl) (fun _ _ => rfl) _
  seq r k hr _ arg := by
    refine emitterCallOr_rel (fun _ => Rel.raise _ _) ?_ (fun n => ?_) arg <;>
    exact same_attr hr (get := (·.seq)) (set := fun b a => { a with seq := b })
        (fun _ => rfl) (fun _ _ => rfl) (fun _ _ => rfl) (fun _ _ => rfl) (fun _ _ => rfl) _
  rng r hr _ m := same_attr hr (get := (·.rng)) (set := fun b a => { a with rng := b })
        (fun _ => rfl) (fun _ _ => rfl) (fun _ _ => rfl) (fun _ _ => rfl) (fun _ _ => rfl) _
  cache r n e rp g hd hr hk x := by
    intro w v h
    rw [PyM.modify_apply, PyM.modify_apply, cache_set, cache_set]
    exact ⟨rfl, h.upd r (f := fun a => { a with cache := x }) (g := fun a => { a with cache := x })
      rfl rfl (fun _ => by rw [h.same r hr]) rfl w.entropy v.entropy⟩

end World
end Fauxdoc
