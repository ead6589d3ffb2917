import Verif.Props.Seeds
/-
Stores that agree but for the last values of some fields; stores that agree on positions.
-/
set_option linter.unusedSectionVars false
namespace Fauxdoc
open PyM
variable {K : Type} [Field K] [LinearOrder K] [FloorRing K] {R : Rng K}

namespace World
variable {nodes : Ref → Option Node} {wrappers : Ref → Option (Callback R.G)} {P Q D : Ref → Prop}

/-- Two stores in which the objects in `P` are the same, but for the last values of those in `D`. -/
structure SameBut (nodes : Ref → Option Node) (wrappers : Ref → Option (Callback R.G))
    (P D : Ref → Prop) (w v : World R) : Prop where
  node : ∀ x, P x → (w.obj x).node = nodes x
  wrapper : ∀ x, P x → (w.obj x).wrapper = wrappers x
  near : ∀ x, P x → { w.obj x with cache := .none } = { v.obj x with cache := .none }
  cache : ∀ x, P x → ¬ D x → (w.obj x).cache = (v.obj x).cache
  seeds : ∀ x k, P x → nodes x = some (.choice k) → ∃ z : Int, (w.obj x).choice.rngSeed = some z

theorem near_get {β : Type} {a b : Attrs R} (h : ({ a with cache := .none } : Attrs R) =
    { b with cache := .none }) (f : Attrs R → β) (hf : ∀ a, f { a with cache := .none } = f a) :
    f a = f b := by
  rw [← hf a, h, hf b]

theorem SameBut.get {w v : World R} (h : SameBut nodes wrappers P D w v) {x : Ref} (hx : P x)
    {β : Type} (f : Attrs R → β) (hf : ∀ a, f { a with cache := .none } = f a) :
    f (w.obj x) = f (v.obj x) := near_get (h.near x hx) f hf

theorem SameBut.upd {w v : World R} (h : SameBut nodes wrappers P D w v) (r : Ref)
    {f g : Attrs R → Attrs R}
    (hn : (f (w.obj r)).node = (w.obj r).node) (hw : (f (w.obj r)).wrapper = (w.obj r).wrapper)
    (hX : P r → ({ f (w.obj r) with cache := .none } : Attrs R) =
      { g (v.obj r) with cache := .none })
    (hc : P r → ¬ D r → (f (w.obj r)).cache = (g (v.obj r)).cache)
    (hs : (f (w.obj r)).choice.rngSeed = (w.obj r).choice.rngSeed) (e e' : Nat) :
    SameBut nodes wrappers P D { w.upd r f with entropy := e } { v.upd r g with entropy := e' } where
  node x hx := by
    change ((w.upd r f).obj x).node = _
    rw [upd_obj]
    by_cases hxr : x = r
    · subst hxr; rw [if_pos rfl, hn]; exact h.node x hx
    · rw [if_neg hxr]; exact h.node x hx
  wrapper x hx := by
    change ((w.upd r f).obj x).wrapper = _
    rw [upd_obj]
    by_cases hxr : x = r
    · subst hxr; rw [if_pos rfl, hw]; exact h.wrapper x hx
    · rw [if_neg hxr]; exact h.wrapper x hx
  near x hxx := by
    change ({ (w.upd r f).obj x with cache := .none } : Attrs R) =
      { (v.upd r g).obj x with cache := .none }
    rw [upd_obj, upd_obj]
    by_cases hxr : x = r
    · subst hxr; rw [if_pos rfl, if_pos rfl]; exact hX hxx
    · rw [if_neg hxr, if_neg hxr]; exact h.near x hxx
  cache x hxx hd := by
    change ((w.upd r f).obj x).cache = ((v.upd r g).obj x).cache
    rw [upd_obj, upd_obj]
    by_cases hxr : x = r
    · subst hxr; rw [if_pos rfl, if_pos rfl]; exact hc hxx hd
    · rw [if_neg hxr, if_neg hxr]; exact h.cache x hxx hd
  seeds x k hxx hk := by
    change ∃ z : Int, ((w.upd r f).obj x).choice.rngSeed = some z
    rw [upd_obj]
    by_cases hxr : x = r
    · subst hxr; rw [if_pos rfl, hs]; exact h.seeds x k hxx hk
    · rw [if_neg hxr]; exact h.seeds x k hxx hk

theorem near_setChoice {a b : Attrs R} (h : ({ a with cache := .none } : Attrs R) =
    { b with cache := .none }) (c : ChoiceSt Val R) :
    ({ ({ a with choice := c } : Attrs R) with cache := .none } : Attrs R) =
      { ({ b with choice := c } : Attrs R) with cache := .none } :=
  congrArg (fun a : Attrs R => { a with choice := c }) h

theorem sameBut_onChoice {β : Type} {r : Ref} (hr : P r) {m : ChoiceM Val R β}
    (hm : Rel (fun s t : ChoiceSt Val R × Nat => s.1 = t.1) m m)
    (hs : ∀ s, (m s).2.1.rngSeed = s.1.rngSeed) :
    Rel (SameBut nodes wrappers P D) (onChoice r m) (onChoice r m) := by
  intro w v h
  obtain ⟨h1, h2⟩ := hm ((w.obj r).choice, w.entropy) ((v.obj r).choice, v.entropy)
    (h.get hr (·.choice) fun _ => rfl)
  refine ⟨h1, ?_⟩
  exact h.upd r (f := fun a => { a with choice := (m ((w.obj r).choice, w.entropy)).2.1 })
    (g := fun a => { a with choice := (m ((v.obj r).choice, v.entropy)).2.1 }) rfl rfl
    (fun hx => by rw [h2]; exact near_setChoice (h.near r hx) _) (h.cache r) (hs _) _ _

theorem sameBut_attr {β γ : Type} {r : Ref} (hr : P r) {L : Attr (World R) β} {get : Attrs R → β}
    {set : β → Attrs R → Attrs R} (hg : ∀ w, L.get w = get (w.obj r))
    (hget : ∀ a, get { a with cache := .none } = get a)
    (hset : ∀ b a, ({ set b a with cache := .none } : Attrs R) = set b { a with cache := .none })
    (hca : ∀ b a, (set b a).cache = a.cache)
    (hs : ∀ b w, L.set b w = w.upd r (set b)) (hn : ∀ b a, (set b a).node = a.node)
    (hw : ∀ b a, (set b a).wrapper = a.wrapper) (hc : ∀ b a, (set b a).choice = a.choice)
    (m : PyM β γ) : Rel (SameBut nodes wrappers P D) (L.run m) (L.run m) := by
  intro w v h
  have e : L.get w = L.get v := by rw [hg, hg, h.get hr get hget]
  rw [(L.run_state m w).1, (L.run_state m v).1, (L.run_state m w).2, (L.run_state m v).2, e, hs, hs]
  exact ⟨rfl, h.upd r (hn _ _) (hw _ _) (fun hx => by rw [hset, hset, h.near r hx])
    (fun hx hd => by rw [hca, hca]; exact h.cache r hx hd) (by rw [hc]) w.entropy v.entropy⟩

/-- Calls see no difference between stores that agree on everything they can reach, last values
being needed only of source fields. -/
theorem sameBut_steps (nodes : Ref → Option Node) (wrappers : Ref → Option (Callback R.G))
    (P Q D : Ref → Prop) (hP : ∀ r, P r → ∀ c ∈ Node.childRefs (nodes r), P c)
    (hQP : ∀ r, Q r → P r) (hQ : ∀ r, Q r → ∀ c ∈ Node.childRefs (nodes r), Q c)
    (hsrc : ∀ r, Q r → ∀ g ∈ Node.sourceRefs (nodes r), P g ∧ ¬ D g) :
    CallSteps nodes wrappers Q (SameBut nodes wrappers P D) where
  left w v r h hr := ⟨h.node r (hQP r hr), h.wrapper r (hQP r hr)⟩
  right w v r h hr := by
    rw [← h.get (hQP r hr) (·.node) fun _ => rfl, ← h.get (hQP r hr) (·.wrapper) fun _ => rfl]
    exact ⟨h.node r (hQP r hr), h.wrapper r (hQP r hr)⟩
  closed := hQ
  source w v r h hr g hg := by
    obtain ⟨hPg, hDg⟩ := hsrc r hr g hg
    refine ⟨h.get hPg (·.name) fun _ => rfl, h.cache g hPg hDg, ?_⟩
    unfold multiValued
    rw [← h.get hPg (·.node) fun _ => rfl]
    rcases hk : (w.obj g).node with _ | node
    · rfl
    · cases node with
      | field n em rp gt hd =>
        have : P rp := hP g hPg rp (by rw [← h.node g hPg, hk]; simp [Node.childRefs])
        dsimp only
        rw [h.get this (·.items) fun _ => rfl]
      | _ => rfl
  choice r k hq hk := by
    have hr := hQP r hq
    refine ⟨fun arg => sameBut_onChoice hr (Choice.child_entropy arg) fun s =>
        callEffect_rngSeed (Choice.child_effect arg s).1,
      sameBut_onChoice hr Choice.roacInfo_entropy fun s => by rw [Choice.roacInfo_state], .inl ?_⟩
    intro w v h
    obtain ⟨z, hz⟩ := h.seeds r k hr hk
    have e := h.get hr (·.choice) fun _ => rfl
    have hz' : (v.obj r).choice.rngSeed = some z := by rw [← e]; exact hz
    obtain ⟨h1, h2⟩ := Choice.reset_entropy hz' w.entropy v.entropy
    refine ⟨?_, ?_⟩
    · rw [(onChoice_obj r r Choice.reset w).2, (onChoice_obj r r Choice.reset v).2, e, h1]
    · exact h.upd r (f := fun a => { a with
          choice := (Choice.reset ((w.obj r).choice, w.entropy)).2.1 })
        (g := fun a => { a with choice := (Choice.reset ((v.obj r).choice, v.entropy)).2.1 }) rfl rfl
        (fun hx => by rw [e, h2]; exact near_setChoice (h.near r hx) _) (h.cache r)
        (Choice.reset_rngSeed _) _ _
  static r hr _ arg := by
    refine emitterCall_rel ?_ (fun n => ?_) arg <;>
    exact sameBut_attr (hQP r hr) (get := (·.static)) (set := fun b a => { a with static := b })
        (fun _ => rfl) (fun _ => rfl) (fun _ _ => rfl) (fun _ _ => rfl) (fun _ _ => rfl)
        (fun _ _ => rfl) (fun _ _ => rfl) (fun _ _ => rfl) _
  iter r hr _ arg := by
    refine emitterCallOr_rel (fun _ => Rel.raise _ _) ?_ (fun n => ?_) arg <;>
    exact sameBut_attr (hQP r hr) (get := (·.iter)) (set := fun b a => { a with iter := b })
        (fun _ => rfl) (fun _ => rfl) (fun _ _ => rfl) (fun _ _ => rfl) (fun _ _ => rfl)
        (fun _ _ => rfl) (fun _ _ => rfl) (fun _ _ => rfl) _
  seq r k hr _ arg := by
    refine emitterCallOr_rel (fun _ => Rel.raise _ _) ?_ (fun n => ?_) arg <;>
    exact sameBut_attr (hQP r hr) (get := (·.seq)) (set := fun b a => { a with seq := b })
        (fun _ => rfl) (fun _ => rfl) (fun _ _ => rfl) (fun _ _ => rfl) (fun _ _ => rfl)
        (fun _ _ => rfl) (fun _ _ => rfl) (fun _ _ => rfl) _
  rng r hr _ m := sameBut_attr (hQP r hr) (get := (·.rng)) (set := fun b a => { a with rng := b })
        (fun _ => rfl) (fun _ => rfl) (fun _ _ => rfl) (fun _ _ => rfl) (fun _ _ => rfl)
        (fun _ _ => rfl) (fun _ _ => rfl) (fun _ _ => rfl) _
  cache r n e rp g hd hr hk x := by
    intro w v h
    rw [PyM.modify_apply, PyM.modify_apply, cache_set, cache_set]
    exact ⟨rfl, h.upd r (f := fun a => { a with cache := x }) (g := fun a => { a with cache := x })
      rfl rfl (fun hx => h.near r hx) (fun _ _ => rfl) rfl w.entropy v.entropy⟩

theorem SameBut.clean {w v : World R} (h : SameBut nodes wrappers P D w v) {D' : Ref → Prop}
    (hD : ∀ x, P x → D x → ¬ D' x → (w.obj x).cache = (v.obj x).cache) :
    SameBut nodes wrappers P D' w v :=
  ⟨h.node, h.wrapper, h.near, fun x hx hd => by
    by_cases hdx : D x
    · exact hD x hx hdx hd
    · exact h.cache x hx hdx, h.seeds⟩

/-- A call of a field that returns stores the value. -/
theorem call_field_cache (str : Val → List Char) (fuel : Nat) (r : Ref) (w w' : World R) (v : Val)
    {n : String} {e rp g : Ref} {hd : Bool} (hn : (w.obj r).node = some (.field n e rp g hd))
    (h : call str fuel r none w = (.ok v, w')) : (w'.obj r).cache = v := by
  cases fuel with
  | zero => cases h
  | succ fuel =>
    unfold call at h
    rw [PyM.run_get_bind, hn] at h
    dsimp only at h
    unfold Field.call at h
    obtain ⟨gv, w1, h1, h⟩ := PyM.bind_eq_ok h
    by_cases ht : gv.truthy = true
    · rw [if_pos ht] at h
      obtain ⟨rv, w2, h2, h⟩ := PyM.bind_eq_ok h
      obtain ⟨x, w3, h3, h⟩ := PyM.bind_eq_ok h
      rw [PyM.run_modify_bind, PyM.pure_apply, Prod.mk.injEq, Except.ok.injEq] at h
      obtain ⟨rfl, rfl⟩ := h
      rw [cache_set, upd_obj, if_pos rfl]
    · rw [if_neg ht, PyM.run_modify_bind, PyM.pure_apply, Prod.mk.injEq, Except.ok.injEq] at h
      obtain ⟨rfl, rfl⟩ := h
      rw [cache_set, upd_obj, if_pos rfl]

end World
end Fauxdoc
