import Verif.Spec.Copies
import Verif.Proofs.World9
/-
Calls of copies.
-/
set_option linter.unusedSectionVars false
namespace Fauxdoc
open PyM
variable {K : Type} [Field K] [LinearOrder K] [FloorRing K] {R : Rng K}

namespace World

/-- The objects `ρ x` of `v` are the objects `x` of `w`, for `x` in `P`; `nodes` are their classes. -/
structure Twin (nodes : Ref → Option Node) (ρ : Ref → Ref) (P : Ref → Prop) (w v : World R) : Prop where
  node : ∀ x, P x → (w.obj x).node = nodes x
  same : ∀ x, P x → (w.obj x).via ρ = (v.obj (ρ x)).via id
  seeds : ∀ x k, P x → nodes x = some (.choice k) → ∃ z : Int, (w.obj x).choice.rngSeed = some z

variable {nodes : Ref → Option Node} {ρ : Ref → Ref} {P : Ref → Prop}

theorem via_node {a b : Attrs R} (h : a.via ρ = b.via id) :
    a.node.map (Node.via ρ) = b.node.map (Node.via id) := congrArg Attrs.node h
theorem via_choice {a b : Attrs R} (h : a.via ρ = b.via id) : a.choice = b.choice :=
  show (a.via ρ).choice = (b.via id).choice by rw [h]

/-- What the class of a copy is. -/
theorem Twin.copy {w v : World R} (h : Twin nodes ρ P w v) {r : Ref} (hr : P r) :
    (nodes r).map (Node.via ρ) = (v.obj (ρ r)).node.map (Node.via id) := by
  rw [← h.node r hr]; exact via_node (h.same r hr)

theorem via_set {a b : Attrs R} {f g : Attrs R → Attrs R} (h : a.via ρ = b.via id)
    (hf : (f a).via ρ = f (a.via ρ)) (hg : (g b).via id = g (b.via id))
    (hfg : f (b.via id) = g (b.via id)) : (f a).via ρ = (g b).via id := by
  rw [hf, hg, h, hfg]

variable (hinj : ∀ x y, P x → P y → ρ x = ρ y → x = y)
include hinj

theorem Twin.upd {w v : World R}
    (h : Twin nodes ρ P w v) {r : Ref} (hr : P r) {f g : Attrs R → Attrs R}
    (hn : (f (w.obj r)).node = (w.obj r).node)
    (hX : (f (w.obj r)).via ρ = (g (v.obj (ρ r))).via id)
    (hs : (f (w.obj r)).choice.rngSeed = (w.obj r).choice.rngSeed) (e e' : Nat) :
    Twin nodes ρ P { w.upd r f with entropy := e } { v.upd (ρ r) g with entropy := e' } where
  node x hx := by
    change ((w.upd r f).obj x).node = _
    rw [upd_obj]
    by_cases hxr : x = r
    · subst hxr; rw [if_pos rfl, hn]; exact h.node x hx
    · rw [if_neg hxr]; exact h.node x hx
  same x hx := by
    change ((w.upd r f).obj x).via ρ = ((v.upd (ρ r) g).obj (ρ x)).via id
    rw [upd_obj, upd_obj]
    by_cases hxr : x = r
    · subst hxr; rw [if_pos rfl, if_pos rfl]; exact hX
    · rw [if_neg hxr, if_neg fun e => hxr (hinj x r hx hr e)]; exact h.same x hx
  seeds x k hx hk := by
    change ∃ z : Int, ((w.upd r f).obj x).choice.rngSeed = some z
    rw [upd_obj]
    by_cases hxr : x = r
    · subst hxr; rw [if_pos rfl, hs]; exact h.seeds x k hx hk
    · rw [if_neg hxr]; exact h.seeds x k hx hk

theorem twin_onChoice {β : Type} {r : Ref} (hr : P r) {m : ChoiceM Val R β}
    (hm : Rel (fun s t : ChoiceSt Val R × Nat => s.1 = t.1) m m)
    (hs : ∀ s, (m s).2.1.rngSeed = s.1.rngSeed) :
    Rel (Twin nodes ρ P) (onChoice r m) (onChoice (ρ r) m) := by
  intro w v h
  obtain ⟨h1, h2⟩ := hm ((w.obj r).choice, w.entropy) ((v.obj (ρ r)).choice, v.entropy)
    (via_choice (h.same r hr))
  refine ⟨h1, ?_⟩
  refine h.upd hinj hr (f := fun a => { a with choice := (m ((w.obj r).choice, w.entropy)).2.1 })
    (g := fun a => { a with choice := (m ((v.obj (ρ r)).choice, v.entropy)).2.1 }) rfl ?_ (hs _) _ _
  refine via_set (f := fun a => { a with choice := (m ((w.obj r).choice, w.entropy)).2.1 })
    (g := fun a => { a with choice := (m ((v.obj (ρ r)).choice, v.entropy)).2.1 }) (h.same r hr) rfl rfl ?_
  rw [h2]

theorem twin_attr {β γ : Type} {r : Ref} (hr : P r) {L L' : Attr (World R) β} {get : Attrs R → β}
    {set : β → Attrs R → Attrs R} (hg : ∀ w, L.get w = get (w.obj r))
    (hg' : ∀ w, L'.get w = get (w.obj (ρ r)))
    (hs : ∀ b w, L.set b w = w.upd r (set b)) (hs' : ∀ b w, L'.set b w = w.upd (ρ r) (set b))
    (hgv : ∀ (τ : Ref → Ref) a, get (a.via τ) = get a)
    (hn : ∀ b a, (set b a).node = a.node) (hc : ∀ b a, (set b a).choice = a.choice)
    (hv : ∀ (τ : Ref → Ref) b a, (set b a).via τ = set b (a.via τ))
    (m : PyM β γ) : Rel (Twin nodes ρ P) (L.run m) (L'.run m) := by
  intro w v h
  have e : L.get w = L'.get v := by rw [hg, hg', ← hgv ρ, h.same r hr, hgv]
  rw [(L.run_state m w).1, (L'.run_state m v).1, (L.run_state m w).2, (L'.run_state m v).2, e, hs, hs']
  exact ⟨rfl, h.upd hinj hr (hn _ _) (via_set (h.same r hr) (hv _ _ _) (hv _ _ _) rfl) (by rw [hc])
    w.entropy v.entropy⟩

omit hinj in
theorem twin_group {w v s t : World R} {src src' : List Ref} {single : Bool}
    {c c' : Ref → PyM (World R) Val} {rs rs' : Ref → PyM (World R) Unit}
    {sd sd' : Ref → Option Int → PyM (World R) Unit} (h : src = []) (h' : src' = []) :
    GroupAt s t (sourceGroup c rs sd w src single) (sourceGroup c' rs' sd' v src' single) := by
  subst h h'
  exact ⟨rfl, .nil⟩

theorem twin_reset_choice {r : Ref} (hr : P r) {k : ItemsKind} (hk : nodes r = some (.choice k)) :
    Rel (Twin (R := R) nodes ρ P) (onChoice r Choice.reset) (onChoice (ρ r) Choice.reset) := by
  intro w v h
  obtain ⟨z, hz⟩ := h.seeds r k hr hk
  have e := via_choice (h.same r hr)
  obtain ⟨h1, h2⟩ := Choice.reset_entropy (c := (w.obj r).choice) hz w.entropy v.entropy
  refine ⟨?_, ?_⟩
  · rw [(onChoice_obj r r Choice.reset w).2, (onChoice_obj (ρ r) r Choice.reset v).2, ← e, h1]
  · refine h.upd hinj hr (f := fun a => { a with
          choice := (Choice.reset ((w.obj r).choice, w.entropy)).2.1 })
        (g := fun a => { a with choice := (Choice.reset ((v.obj (ρ r)).choice, v.entropy)).2.1 }) rfl
        (via_set (f := fun a => { a with
          choice := (Choice.reset ((w.obj r).choice, w.entropy)).2.1 })
          (g := fun a => { a with choice := (Choice.reset ((v.obj (ρ r)).choice, v.entropy)).2.1 })
          (h.same r hr) rfl rfl ?_) (Choice.reset_rngSeed _) _ _
    rw [← e, h2]

theorem twin_wordRel {r : Ref} (hr : P r) (fuel : Nat) {c c' : Child (World R)}
    (hc : ChildRel (Twin nodes ρ P) c c') :
    WordRel (Twin nodes ρ P) ⟨c, reset fuel r, roacInfo r⟩ ⟨c', reset fuel (ρ r), roacInfo (ρ r)⟩ where
  call := hc
  roac := by
    refine Rel.get_bind fun w v h => ?_
    have hn := h.copy hr
    rw [h.node r hr]
    rcases hw : nodes r with _ | node <;> rcases hv : (v.obj (ρ r)).node with _ | node' <;>
      rw [hw, hv] at hn
    · exact ⟨rfl, h⟩
    · cases hn
    · cases hn
    · replace hn := Option.some.inj hn
      cases node <;> cases node' <;> first | cases hn; done | skip
      all_goals first
        | exact twin_onChoice hinj hr Choice.roacInfo_entropy
            (fun s => by rw [Choice.roacInfo_state]) w v h
        | exact ⟨rfl, h⟩
  reset := by
    by_cases hk : ∃ k, nodes r = some (.choice k)
    · obtain ⟨k, hk⟩ := hk
      refine Or.inl ?_
      cases fuel with
      | zero => exact Rel.raise _ _
      | succ fuel =>
        unfold World.reset
        refine Rel.get_bind fun w v h => ?_
        have hn := h.copy hr
        rw [h.node r hr, hk]
        rw [hk] at hn
        rcases hv : (v.obj (ρ r)).node with _ | node' <;> rw [hv] at hn
        · cases hn
        · replace hn := Option.some.inj hn
          cases node' <;> first | cases hn; done | skip
          exact twin_reset_choice hinj hr hk w v h
    · refine Or.inr fun s r' t e s0 hs => ?_
      unfold roacInfo at e
      dsimp only at e
      rw [PyM.run_get_bind, hs.node r hr] at e
      rcases hn : nodes r with _ | node
      · rw [hn] at e; cases e; rfl
      · rw [hn] at e
        cases node with
        | choice k => exact absurd ⟨k, hn⟩ hk
        | _ => cases e; rfl

variable (hcl : ∀ r, P r → ∀ c ∈ Node.childRefs (nodes r), P c)
  (hsrc : ∀ r, P r → Node.sourceRefs (nodes r) = [])
include hcl hsrc

/-- Calls of copies give the same. -/
theorem twin_call (str : Val → List Char) : ∀ (fuel : Nat) (r : Ref), P r →
    ChildRel (Twin (R := R) nodes ρ P) (World.call str fuel r) (World.call str fuel (ρ r)) := by
  intro fuel
  induction fuel with
  | zero => intro r _ arg; exact Rel.raise _ _
  | succ fuel ih =>
    intro r hr arg
    unfold World.call
    refine Rel.get_bind fun w v h => ?_
    have hn := h.copy hr
    have hwr : (w.obj r).wrapper = (v.obj (ρ r)).wrapper :=
      show ((w.obj r).via ρ).wrapper = ((v.obj (ρ r)).via id).wrapper by rw [h.same r hr]
    have hcl := hcl r hr
    have hsrc := hsrc r hr
    rw [hwr, h.node r hr]
    rcases hw : nodes r with _ | node <;> rcases hv : (v.obj (ρ r)).node with _ | node' <;>
      rw [hw, hv] at hn
    · exact ⟨rfl, h⟩
    · cases hn
    · cases hn
    · rw [hw] at hcl hsrc
      replace hn := Option.some.inj hn
      cases node <;> cases node' <;> first | cases hn; done | skip
      case choice.choice k k' =>
        exact twin_onChoice hinj hr (Choice.child_entropy arg)
          (fun s => callEffect_rngSeed (Choice.child_effect arg s).1) w v h
      case static.static =>
        refine emitterCall_rel ?_ (fun n => ?_) arg w v h <;>
        exact twin_attr hinj hr (get := (·.static)) (set := fun b a => { a with static := b })
          (fun _ => rfl) (fun _ => rfl) (fun _ _ => rfl) (fun _ _ => rfl) (fun _ _ => rfl)
          (fun _ _ => rfl) (fun _ _ => rfl) (fun _ _ _ => rfl) _
      case iterative.iterative =>
        refine emitterCallOr_rel (fun _ => Rel.raise _ _) ?_ (fun n => ?_) arg w v h <;>
        exact twin_attr hinj hr (get := (·.iter)) (set := fun b a => { a with iter := b })
          (fun _ => rfl) (fun _ => rfl) (fun _ _ => rfl) (fun _ _ => rfl) (fun _ _ => rfl)
          (fun _ _ => rfl) (fun _ _ => rfl) (fun _ _ _ => rfl) _
      case sequential.sequential k k' =>
        refine emitterCallOr_rel (fun _ => Rel.raise _ _) ?_ (fun n => ?_) arg w v h <;>
        exact twin_attr hinj hr (get := (·.seq)) (set := fun b a => { a with seq := b })
          (fun _ => rfl) (fun _ => rfl) (fun _ _ => rfl) (fun _ _ => rfl) (fun _ _ => rfl)
          (fun _ _ => rfl) (fun _ _ => rfl) (fun _ _ _ => rfl) _
      case word.word l c l' c' =>
        simp only [Node.via, Node.word.injEq, id] at hn
        obtain ⟨rfl, rfl⟩ := hn
        exact Word.call_rel (ih l (hcl l (by simp [Node.childRefs])))
          (ih c (hcl c (by simp [Node.childRefs]))) arg w v h
      case text.text n wd s n' wd' s' =>
        simp only [Node.via, Node.text.injEq, id] at hn
        obtain ⟨rfl, rfl, rfl⟩ := hn
        have hwd := hcl wd (by simp [Node.childRefs])
        exact Text.call_rel (twin_wordRel hinj hwd fuel (ih wd hwd))
          (ih n (hcl n (by simp [Node.childRefs]))) (ih s (hcl s (by simp [Node.childRefs])))
          arg w v h
      case wrapOne.wrapOne s s' =>
        simp only [Node.via, Node.wrapOne.injEq, id] at hn
        subst hn
        cases (v.obj (ρ r)).wrapper with
        | none => exact ⟨rfl, h⟩
        | some cb =>
          exact WrapOne.call_rel (fun m => twin_attr hinj hr (get := (·.rng))
            (set := fun b a => { a with rng := b })
            (fun _ => rfl) (fun _ => rfl) (fun _ _ => rfl) (fun _ _ => rfl) (fun _ _ => rfl)
            (fun _ _ => rfl) (fun _ _ => rfl) (fun _ _ _ => rfl) _) cb
            (ih s (hcl s (by simp [Node.childRefs]))) arg w v h
      case wrapMany.wrapMany ss ss' =>
        simp only [Node.via, Node.wrapMany.injEq, id, Prod.mk.eta, List.map_id'] at hn
        subst hn
        cases (v.obj (ρ r)).wrapper with
        | none => exact ⟨rfl, h⟩
        | some cb =>
          refine WrapMany.call_rel (fun m => twin_attr hinj hr (get := (·.rng))
            (set := fun b a => { a with rng := b })
            (fun _ => rfl) (fun _ => rfl) (fun _ _ => rfl) (fun _ _ => rfl) (fun _ _ => rfl)
            (fun _ _ => rfl) (fun _ _ => rfl) (fun _ _ _ => rfl) _) cb ?_ arg w v h
          rw [List.map_map, List.forall₂_map_left_iff, List.forall₂_map_right_iff, List.forall₂_same]
          intro ks hks
          exact ⟨rfl, ih ks.2 (hcl ks.2 (List.mem_map_of_mem hks))⟩
      case copyFields.copyFields src i sep src' i' sep' =>
        simp only [Node.via, Node.copyFields.injEq, List.map_id] at hn
        obtain ⟨rfl, rfl, rfl⟩ := hn
        refine CopyFields.call_rel str sep (fun s t _ => ?_) arg w v h
        have h0 : src = [] := hsrc
        exact twin_group h0 (by rw [h0]; rfl)
      case basedOn.basedOn src i src' i' =>
        simp only [Node.via, Node.basedOn.injEq, List.map_id] at hn
        obtain ⟨rfl, rfl⟩ := hn
        have h0 : src = [] := hsrc
        cases (v.obj (ρ r)).wrapper with
        | none => exact ⟨rfl, h⟩
        | some cb =>
          exact BasedOnFields.call_rel (fun m => twin_attr hinj hr (get := (·.rng))
            (set := fun b a => { a with rng := b })
            (fun _ => rfl) (fun _ => rfl) (fun _ _ => rfl) (fun _ _ => rfl) (fun _ _ => rfl)
            (fun _ _ => rfl) (fun _ _ => rfl) (fun _ _ _ => rfl) _) cb
            (fun s t _ => twin_group h0 (by rw [h0]; rfl)) arg w v h
      case field.field n e rp g hd n' e' rp' g' hd' =>
        simp only [Node.via, Node.field.injEq, id, true_and, and_true] at hn
        obtain ⟨rfl, rfl, rfl⟩ := hn
        cases arg with
        | some x => exact ⟨rfl, h⟩
        | none =>
          refine Field.call_rel (fun x => ?_)
            (ih e (hcl e (by simp [Node.childRefs]))) (ih rp (hcl rp (by simp [Node.childRefs])))
            (ih g (hcl g (by simp [Node.childRefs]))) w v h
          intro w v h
          rw [PyM.modify_apply, PyM.modify_apply, cache_set, cache_set]
          exact ⟨rfl, h.upd hinj hr (f := fun a => { a with cache := x })
            (g := fun a => { a with cache := x }) rfl (h.same r hr) rfl w.entropy v.entropy⟩

end World
end Fauxdoc
