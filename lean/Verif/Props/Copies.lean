import Verif.Proofs.Copies
import Verif.Props.Seeds3
import Verif.Props.DocSet
/-
C87: what an emitter gives depends on its settings and its seed, not on which object it is.
-/
set_option linter.unusedSectionVars false
namespace Fauxdoc
open PyM
variable {K : Type} [Field K] [LinearOrder K] [FloorRing K] {R : Rng K}

namespace World

/-! ### Seeding and positions -/

theorem position_upd {w0 : World R} {r : Ref} {f : Attrs R → Attrs R}
    (hf : ∀ a, (f a).position = a.position) {u : World R} (e : Nat)
    (h : ∀ x, (u.obj x).position = (w0.obj x).position) (x : Ref) :
    (({ u.upd r f with entropy := e } : World R).obj x).position = (w0.obj x).position := by
  change ((u.upd r f).obj x).position = _
  rw [upd_obj]
  split
  · rename_i hx; rw [hf, ← hx]; exact h x
  · exact h x

theorem newRng_position {w0 : World R} (r : Ref) (s : Option Int) :
    Keeps (fun u : World R => ∀ x, (u.obj x).position = (w0.obj x).position) (newRng r s) := by
  intro u hu x
  obtain ⟨g, hg, _⟩ := newRng_obj r x s u
  rw [hg]
  split
  · rename_i hx; subst hx; exact hu x
  · exact hu x

theorem mixinSeed_position {w0 : World R} (r : Ref) (s : Option Int) :
    Keeps (fun u : World R => ∀ x, (u.obj x).position = (w0.obj x).position) (mixinSeed r s) := by
  intro u hu
  unfold mixinSeed
  rw [run_modify_bind]
  exact newRng_position r s _ fun x => position_upd (r := r) (f := fun a => { a with seed := s })
    (fun _ => rfl) u.entropy hu x

theorem doMethod_position {w0 : World R} {cs : List Ref} {f : Ref → PyM (World R) Unit}
    (h : ∀ c, Keeps (fun u : World R => ∀ x, (u.obj x).position = (w0.obj x).position) (f c)) :
    Keeps (fun u : World R => ∀ x, (u.obj x).position = (w0.obj x).position)
      (Group.doMethod (cs.map some) f) := by
  unfold Group.doMethod
  refine Keeps.forEach fun b hb => ?_
  obtain ⟨c, hc, rfl⟩ := List.mem_map.1 hb
  exact Keeps.ignoring (h c)

/-- Seeding does not move any iterator. -/
theorem seed_position (w0 : World R) : ∀ (fuel : Nat) (r : Ref) (s : Option Int),
    Keeps (fun u : World R => ∀ x, (u.obj x).position = (w0.obj x).position) (seed fuel r s) := by
  intro fuel
  induction fuel with
  | zero => intro r s; exact Keeps.raise _ _
  | succ fuel ih =>
    have hmix : ∀ r s, Keeps (fun u : World R => ∀ x, (u.obj x).position = (w0.obj x).position)
        (mixinChildSeed (seed fuel) r s) := by
      intro r s u hu
      unfold mixinChildSeed
      rw [run_get_bind]
      exact (doMethod_position fun c => ih c s).bind
        (fun _ => Keeps.ignoring (mixinSeed_position r s)) u hu
    have htwo : ∀ r s, Keeps (fun u : World R => ∀ x, (u.obj x).position = (w0.obj x).position)
        (do mixinChildSeed (seed fuel) r s
            let a := (← PyM.get).obj r
            Group.doMethod (a.children.map some) (seed fuel · a.seed)) := by
      intro r s
      refine (hmix r s).bind fun _ u hu => ?_
      rw [run_get_bind]
      exact doMethod_position (fun c => ih c _) u hu
    intro r s u hu
    unfold seed
    rw [run_get_bind]
    dsimp only
    rcases (u.obj r).node with _ | (_ | _ | _ | _ | _ | _ | _ | _ | _ | _ | _)
    case some.choice =>
      intro x
      change ((onChoice r (Choice.seed s) u).2.obj x).position = _
      rw [(onChoice_obj r x _ u).1]
      split
      · rename_i hx; subst hx; exact hu x
      · exact hu x
    case some.word => exact htwo r s u hu
    case some.text => exact htwo r s u hu
    case some.wrapOne => exact hmix r s u hu
    case some.wrapMany => exact hmix r s u hu
    case some.field => exact hmix r s u hu
    case some.basedOn => exact mixinSeed_position r s u hu
    all_goals exact hu

/-- Freshly seeded objects are determined, up to references and last values, by settings and
position. -/
theorem seeded_via {ρ : Ref → Ref} {s : Int} {a b : Attrs R} (ha : a.Seeded (some s))
    (hb : b.Seeded (some s)) (hp : a.position = b.position) (h : a.shape.via ρ = b.shape.via id) :
    a.via ρ = b.via id := by
  obtain ⟨node, c, _, i, q, _, _, _, _, _⟩ := a
  obtain ⟨node', c', _, i', q', _, _, _, _, _⟩ := b
  have hn : node.map (Node.via ρ) = node'.map (Node.via id) := by
    have h1 := congrArg Attrs.node h
    rcases node with _ | (_ | _ | _ | _ | _ | _ | _ | _ | _ | _ | _) <;>
      rcases node' with _ | (_ | _ | _ | _ | _ | _ | _ | _ | _ | _ | _) <;> exact h1
  rcases node with _ | (_ | _ | _ | _ | _ | _ | _ | _ | _ | _ | _) <;>
    rcases node' with _ | (_ | _ | _ | _ | _ | _ | _ | _ | _ | _ | _) <;>
      first
      | (exfalso; simp [Node.via] at hn; done)
      | skip
  case some.choice.some.choice k k' =>
    have hal : Choice.Alike c c' := congrArg Attrs.choice h
    have := Choice.Fresh.ext (ha.2 s rfl : c.Fresh s) (hb.2 s rfl : c'.Fresh s) hal
    subst this
    simp only [Attrs.shape, Attrs.via, Attrs.mk.injEq, true_and] at h ⊢
    exact h
  case some.iterative.some.iterative =>
    obtain ⟨_, _, _⟩ := i
    obtain ⟨_, _, _⟩ := i'
    simp_all [Attrs.shape, Attrs.via, Attrs.position]
  case some.sequential.some.sequential =>
    obtain ⟨_, _, _, _⟩ := q
    obtain ⟨_, _, _, _⟩ := q'
    simp_all [Attrs.shape, Attrs.via, Attrs.position]
  all_goals simp_all [Attrs.shape, Attrs.via, Attrs.Seeded]

/-! ### Copies -/

theorem childRefs_via (ρ : Ref → Ref) (n : Option Node) :
    Node.childRefs (n.map (Node.via ρ)) = (Node.childRefs n).map ρ := by
  rcases n with _ | (_ | _ | _ | _ | _ | _ | _ | _ | _ | _ | _) <;>
    simp [Node.via, Node.childRefs, Function.comp_def]

variable {ρ : Ref → Ref} {w v : World R} {r r' : Ref}

theorem _root_.Fauxdoc.CopyOf.children (h : CopyOf ρ w r v r') {x : Ref} (hx : Below w r x) :
    (v.obj (ρ x)).children = (w.obj x).children.map ρ := by
  have := via_node (h.settings x hx)
  rw [shape_node, shape_node] at this
  unfold Attrs.children
  rw [← childRefs_via, this, childRefs_via, List.map_id]

theorem _root_.Fauxdoc.CopyOf.below (h : CopyOf ρ w r v r') {x : Ref} (hx : Below w r x) :
    Below v r' (ρ x) := by
  have key : ∀ {y x}, Below w y x → Below w r y → Below v (ρ y) (ρ x) := by
    intro y x hyx
    induction hyx with
    | self => exact fun _ => .self _
    | step hc _ ih =>
      intro hy
      refine .step ?_ (ih (hy.child hc))
      rw [h.children hy]
      exact List.mem_map_of_mem hc
  exact h.root ▸ key hx (.self r)

/-- Freshly seeded copies. -/
theorem _root_.Fauxdoc.CopyOf.twin (h : CopyOf ρ w r v r') {s : Int} {w1 v1 : World R}
    (hw : ∀ x, (w1.obj x).shape = (w.obj x).shape) (hv : ∀ x, (v1.obj x).shape = (v.obj x).shape)
    (hp : ∀ x, Below w r x → (w1.obj x).position = (v1.obj (ρ x)).position)
    (hsw : ∀ x, Below w r x → (w1.obj x).Seeded (some s))
    (hsv : ∀ x, Below v r' x → (v1.obj x).Seeded (some s)) :
    Twin (fun x => (w.obj x).node) ρ (Below w r) w1 v1 where
  node x _ := node_of_shape (hw x)
  same x hx := seeded_via (hsw x hx) (hsv _ (h.below hx)) (hp x hx) (by rw [hw, hv]; exact h.settings x hx)
  seeds x k hx hk := by
    have hs := seeded_rngSeed (hsw x hx) (by rw [node_of_shape (hw x), hk]; rfl)
    unfold Attrs.rngSeed at hs
    rw [node_of_shape (hw x), hk] at hs
    exact ⟨s, hs⟩

theorem _root_.Fauxdoc.CopyOf.call (h : CopyOf ρ w r v r') (str : Val → List Char) (fuel : Nat)
    (arg : Option Val) :
    Rel (Twin (R := R) (fun x => (w.obj x).node) ρ (Below w r)) (World.call str fuel r arg)
      (World.call str fuel r' arg) :=
  h.root ▸ twin_call h.apart (fun _ hr _ hc => hr.child hc) (fun x hx => h.sources x hx) str fuel r
    (.self r) arg

theorem _root_.Fauxdoc.CopyOf.outcomes (h : CopyOf ρ w r v r') (str : Val → List Char) (fuel : Nat)
    (args : List (Option Val)) {w1 v1 : World R}
    (hT : Twin (fun x => (w.obj x).node) ρ (Below w r) w1 v1) :
    outcomes str fuel r args w1 = outcomes str fuel r' args v1 := by
  induction args generalizing w1 v1 with
  | nil => rfl
  | cons arg args ih =>
    obtain ⟨h1, h2⟩ := h.call str fuel arg w1 v1 hT
    unfold World.outcomes
    rw [h1, ih h2]

end World

/-- **C87 (seed).** An emitter or field and a copy of it, made of other objects, possibly in another
program, that are given the same seed return and raise the same in the same calls. -/
theorem C87_seed (str : Val → List Char) {ρ : Ref → Ref} {w v : World R} {r r' : Ref}
    (h : CopyOf ρ w r v r') (hp : CopiesAt ρ w r v) (s : Int) (fuel : Nat)
    (hw : (World.seed fuel r (some s) w).1 = .ok ()) (hv : (World.seed fuel r' (some s) v).1 = .ok ())
    (fuel' : Nat) (args : List (Option Val)) :
    World.outcomes str fuel' r args (World.seed fuel r (some s) w).2 =
      World.outcomes str fuel' r' args (World.seed fuel r' (some s) v).2 :=
  h.outcomes str fuel' args <| h.twin (s := s) (World.seed_shape fuel r _ w) (World.seed_shape fuel r' _ v)
    (fun x hx => by
      rw [World.seed_position w fuel r _ w fun _ => rfl, World.seed_position v fuel r' _ v fun _ => rfl]
      exact hp x hx)
    (C53_seed fuel r _ w hw) (C53_seed fuel r' _ v hv)

/-- **C87 (reset).** The same after `reset()`, for emitters that draw and have the same `rng_seed`,
whatever either of them has emitted before. -/
theorem C87_reset (str : Val → List Char) {ρ : Ref → Ref} {w v : World R} {r r' : Ref}
    (h : CopyOf ρ w r v r') (s : Int) (hr : (w.obj r).random = true)
    (hs : (w.obj r).rngSeed = some s) (hs' : (v.obj r').rngSeed = some s) (fuel : Nat)
    (hw : (World.reset fuel r w).1 = .ok ()) (hv : (World.reset fuel r' v).1 = .ok ())
    (fuel' : Nat) (args : List (Option Val)) :
    World.outcomes str fuel' r args (World.reset fuel r w).2 =
      World.outcomes str fuel' r' args (World.reset fuel r' v).2 := by
  have hr' : (v.obj r').random = true := by
    have := World.via_node (h.settings r (.self r))
    rw [World.shape_node, World.shape_node, h.root] at this
    revert hr this
    unfold Attrs.random
    rcases (w.obj r).node with _ | (_ | _ | _ | _ | _ | _ | _ | _ | _ | _ | _) <;>
      rcases (v.obj r').node with _ | (_ | _ | _ | _ | _ | _ | _ | _ | _ | _ | _) <;>
        intro hr this <;> first | exact hr | (exfalso; simp [Node.via] at this)
  have f1 := C53_reset fuel r w hr hw
  have f2 := C53_reset fuel r' v hr' hv
  rw [hs] at f1
  rw [hs'] at f2
  have g1 := fun x => (World.reset_frame fuel r (fun _ => True) w (fun _ _ _ _ => trivial) trivial).shape x
  have g2 := fun x => (World.reset_frame fuel r' (fun _ => True) v (fun _ _ _ _ => trivial) trivial).shape x
  refine h.outcomes str fuel' args <| h.twin (s := s) g1 g2 (fun x hx => ?_)
    (fun x hx => (f1 x hx).1) fun x hx => (f2 x hx).1
  have r1 := (f1 x hx).2
  have r2 := (f2 _ (h.below hx)).2
  have := World.via_node (h.settings x hx)
  rw [World.shape_node, World.shape_node, ← World.node_of_shape (g1 x),
    ← World.node_of_shape (g2 (ρ x))] at this
  unfold Attrs.Rewound at r1 r2
  unfold Attrs.position
  revert r1 r2 this
  rcases ((World.reset fuel r w).2.obj x).node with _ | (_ | _ | _ | _ | _ | _ | _ | _ | _ | _ | _) <;>
    rcases ((World.reset fuel r' v).2.obj (ρ x)).node with
      _ | (_ | _ | _ | _ | _ | _ | _ | _ | _ | _ | _) <;> intro r1 r2 this <;>
        first | rfl | (exfalso; simp [Node.via] at this; done) | (dsimp only at r1 r2 ⊢; rw [r1, r2])

namespace World

/-! ### Two columns -/

theorem loop_append {σ ι : Type} (hide : ι → Bool) (call : ι → PyM σ Val) (A B : Dict ι) :
    ∀ (doc d : Dict Val) (s t : σ), Schema.loop hide call doc (A ++ B) s = (.ok d, t) →
      ∃ d' s', Schema.loop hide call doc A s = (.ok d', s') ∧
        Schema.loop hide call d' B s' = (.ok d, t) := by
  induction A with
  | nil => exact fun doc d s t h => ⟨doc, s, rfl, h⟩
  | cons kf A ih =>
    obtain ⟨k, f⟩ := kf
    intro doc d s t h
    rw [List.cons_append] at h
    unfold Schema.loop at h
    obtain ⟨x, s1, h1, h2⟩ := PyM.bind_eq_ok h
    split at h2 <;> rename_i hh
    · obtain ⟨d', s', h3, h4⟩ := ih _ _ _ _ h2
      exact ⟨d', s', by unfold Schema.loop; rw [PyM.bind_ok h1, if_pos hh]; exact h3, h4⟩
    · obtain ⟨d', s', h3, h4⟩ := ih _ _ _ _ h2
      exact ⟨d', s', by unfold Schema.loop; rw [PyM.bind_ok h1, if_neg hh]; exact h3, h4⟩

theorem loop_cons {σ ι : Type} {hide : ι → Bool} {call : ι → PyM σ Val} {k : String} {f : ι}
    {B : Dict ι} {doc d : Dict Val} {s t : σ} (hf : hide f = false)
    (h : Schema.loop hide call doc ((k, f) :: B) s = (.ok d, t)) :
    ∃ x s', call f s = (.ok x, s') ∧ Schema.loop hide call (doc.set k x) B s' = (.ok d, t) := by
  unfold Schema.loop at h
  obtain ⟨x, s1, h1, h2⟩ := PyM.bind_eq_ok h
  rw [hf] at h2
  exact ⟨x, s1, h1, h2⟩

theorem loop_node {str : Val → List Char} (fuel : Nat) (hide : Ref → Bool) (fs : Dict Ref) :
    ∀ (doc : Dict Val) (w : World R) (x : Ref),
      ((Schema.loop hide (fun r => World.call str fuel r none) doc fs w).2.obj x).node =
        (w.obj x).node := by
  induction fs with
  | nil => intro doc w x; rfl
  | cons kf fs ih =>
    obtain ⟨k, f⟩ := kf
    intro doc w x
    unfold Schema.loop
    rw [PyM.bind_apply]
    have hn := call_node (arg := none) (str := str) (r := f) fuel x w
    revert hn
    rcases World.call str fuel f none w with ⟨e | v, w1⟩
    · exact id
    · intro hn
      dsimp only at hn ⊢
      split <;> exact (ih _ w1 x).trans hn

/-- A run through fields of which two behave alike. -/
theorem loop_pair {str : Val → List Char} {fuel : Nat} {T : World R → World R → Prop} {w0 : World R}
    {f1 f2 : Ref} {k1 k2 : String} (hide : Ref → Bool)
    (hcall : Rel T (World.call str fuel f1 none) (World.call str fuel f2 none))
    (hframe : ∀ u v u' v', T u v → (∀ x, Below w0 f1 x → u'.obj x = u.obj x) →
      (∀ x, Below w0 f2 x → v'.obj x = v.obj x) → T u' v')
    (A B C : Dict Ref) (hh1 : hide f1 = false) (hh2 : hide f2 = false)
    (hd1 : ∀ kg ∈ A ++ (B ++ (k2, f2) :: C), ∀ x, Below w0 f1 x → ¬ Below w0 kg.2 x)
    (hd2 : ∀ kg ∈ A ++ (k1, f1) :: (B ++ C), ∀ x, Below w0 f2 x → ¬ Below w0 kg.2 x)
    (hk1 : k1 ∉ Dict.keys (B ++ (k2, f2) :: C)) (hk2 : k2 ∉ Dict.keys C)
    {doc d : Dict Val} {w w' : World R} (hn : ∀ x, (w.obj x).node = (w0.obj x).node) (hT : T w w)
    (h : Schema.loop hide (fun r => World.call str fuel r none) doc
      (A ++ (k1, f1) :: (B ++ (k2, f2) :: C)) w = (.ok d, w')) :
    T w' w' ∧ ∃ x, d.get? k1 = some x ∧ d.get? k2 = some x := by
  obtain ⟨dA, wA, eA, h⟩ := loop_append _ _ _ _ _ _ _ _ h
  obtain ⟨x1, wf, ef, h⟩ := loop_cons hh1 h
  have h' := h
  obtain ⟨dB, wB, eB, h⟩ := loop_append _ _ _ _ _ _ _ _ h
  obtain ⟨x2, wg, eg, h⟩ := loop_cons hh2 h
  have nA : ∀ x, (wA.obj x).node = (w0.obj x).node := fun x => by
    have := loop_node (str := str) fuel hide A doc w x
    rw [eA] at this
    exact this.trans (hn x)
  have nf : ∀ x, (wf.obj x).node = (w0.obj x).node := fun x => by
    have := call_node (arg := none) (str := str) (r := f1) fuel x wA
    rw [ef] at this
    exact this.trans (nA x)
  have nB : ∀ x, (wB.obj x).node = (w0.obj x).node := fun x => by
    have := loop_node (str := str) fuel hide B (dA.set k1 x1) wf x
    rw [eB] at this
    exact this.trans (nf x)
  have ng : ∀ x, (wg.obj x).node = (w0.obj x).node := fun x => by
    have := call_node (arg := none) (str := str) (r := f2) fuel x wB
    rw [eg] at this
    exact this.trans (nB x)
  have apart : ∀ (fs : Dict Ref) (e e' : Dict Val) (u u' : World R) (x : Ref),
      (∀ y, (u.obj y).node = (w0.obj y).node) →
      Schema.loop hide (fun r => World.call str fuel r none) e fs u = (.ok e', u') →
      (∀ kg ∈ fs, ¬ Below w0 kg.2 x) → u'.obj x = u.obj x := by
    intro fs e e' u u' x hu he hb
    have := loop_apart (str := str) fuel hide fs e u x fun kg hk hx => hb kg hk ((Below.congr hu).1 hx)
    rw [he] at this
    exact this
  have capart : ∀ (f : Ref) (y : Val) (u u' : World R) (x : Ref),
      (∀ y, (u.obj y).node = (w0.obj y).node) → World.call str fuel f none u = (.ok y, u') →
      ¬ Below w0 f x → u'.obj x = u.obj x := by
    intro f y u u' x hu he hb
    have := C57_only_below str fuel f x none u fun hx => hb ((Below.congr hu).1 hx)
    rw [he] at this
    exact this
  have hTA : T wA wB := by
    refine hframe w w wA wB hT (fun x hx => ?_) fun x hx => ?_
    · exact apart A _ _ _ _ x hn eA fun kg hk => hd1 kg (by simp [hk]) x hx
    · refine (apart B _ _ _ _ x nf eB fun kg hk => hd2 kg (by simp [hk]) x hx).trans ?_
      refine (capart f1 _ _ _ x nA ef (hd2 (k1, f1) (by simp) x hx)).trans ?_
      exact apart A _ _ _ _ x hn eA fun kg hk => hd2 kg (by simp [hk]) x hx
  obtain ⟨h1, h2⟩ := hcall wA wB hTA
  rw [ef, eg] at h1 h2
  cases h1
  refine ⟨hframe _ _ w' w' h2 (fun x hx => ?_) fun x hx => ?_, x1, ?_, ?_⟩
  · exact apart _ _ _ _ _ x nf h' fun kg hk => hd1 kg (by
      rw [List.mem_append]; exact .inr hk) x hx
  · exact apart C _ _ _ _ x ng h fun kg hk => hd2 kg (by simp [hk]) x hx
  · rw [loop_get _ _ _ _ _ _ _ _ hk1 h', Dict.get?_set, if_pos rfl]
  · rw [loop_get _ _ _ _ _ _ _ _ hk2 h, Dict.get?_set, if_pos rfl]

theorem Twin.frame {nodes : Ref → Option Node} {ρ : Ref → Ref} {P : Ref → Prop} {w v w' v' : World R}
    (h : Twin nodes ρ P w v) (hw : ∀ x, P x → w'.obj x = w.obj x)
    (hv : ∀ x, P x → v'.obj (ρ x) = v.obj (ρ x)) : Twin nodes ρ P w' v' where
  node x hx := by rw [hw x hx]; exact h.node x hx
  same x hx := by rw [hw x hx, hv x hx]; exact h.same x hx
  seeds x k hx hk := by rw [hw x hx]; exact h.seeds x k hx hk

theorem nodup_mid {α β : Type} {g : α → β} {A M : List α} {x : α} (h : ((A ++ x :: M).map g).Nodup)
    {y : α} (hy : y ∈ A ∨ y ∈ M) : g y ≠ g x := by
  have h' : (g x :: (A ++ M).map g).Nodup := by
    refine (List.Perm.nodup_iff ?_).1 h
    rw [← List.map_cons]
    exact List.Perm.map g List.perm_middle
  intro e
  exact (List.nodup_cons.1 h').1 (e ▸ List.mem_map_of_mem (by simpa using hy))

/-- One document of a schema with two fields that are copies. -/
theorem document_pair {str : Val → List Char} {fuel : Nat} {ρ : Ref → Ref} {w0 : World R}
    {f f' : Ref} {k k' : String} {fields : Dict Ref} (hc : CopyOf ρ w0 f w0 f')
    (hkeys : fields.keys.Nodup) (hrefs : (fields.map (·.2)).Nodup)
    (hf : (k, f) ∈ fields) (hf' : (k', f') ∈ fields) (hff : f ≠ f')
    (ho : OnlyIn w0 fields f) (ho' : OnlyIn w0 fields f')
    (hh : (w0.obj f).hide = false) (hh' : (w0.obj f').hide = false)
    {d : Dict Val} {w w' : World R} (hn : ∀ x, (w.obj x).node = (w0.obj x).node)
    (hT : Twin (fun x => (w0.obj x).node) ρ (Below w0 f) w w)
    (h : document str fuel fields w = (.ok d, w')) :
    Twin (fun x => (w0.obj x).node) ρ (Below w0 f) w' w' ∧
      ∃ x, d.get? k = some x ∧ d.get? k' = some x := by
  unfold document Schema.call at h
  rw [PyM.run_get_bind] at h
  have hw : (w.obj f).hide = false := (hide_of_node (hn f)).trans hh
  have hw' : (w.obj f').hide = false := (hide_of_node (hn f')).trans hh'
  have side : ∀ {A B C : Dict Ref} {k1 k2 : String} {f1 f2 : Ref},
      fields = A ++ (k1, f1) :: (B ++ (k2, f2) :: C) →
      OnlyIn w0 fields f1 → OnlyIn w0 fields f2 →
      (∀ kg ∈ A ++ (B ++ (k2, f2) :: C), ∀ x, Below w0 f1 x → ¬ Below w0 kg.2 x) ∧
      (∀ kg ∈ A ++ (k1, f1) :: (B ++ C), ∀ x, Below w0 f2 x → ¬ Below w0 kg.2 x) ∧
      k1 ∉ Dict.keys (B ++ (k2, f2) :: C) ∧ k2 ∉ Dict.keys C := by
    intro A B C k1 k2 f1 f2 he h1 h2
    have he' : fields = (A ++ (k1, f1) :: B) ++ (k2, f2) :: C := by rw [he]; simp
    refine ⟨fun kg hk => h1 kg ?_ ?_, fun kg hk => h2 kg ?_ ?_, fun hm => ?_, fun hm => ?_⟩
    · rw [he]; simp only [List.mem_append, List.mem_cons] at hk ⊢; tauto
    · rw [he] at hrefs
      exact nodup_mid hrefs (List.mem_append.1 hk)
    · rw [he]; simp only [List.mem_append, List.mem_cons] at hk ⊢; tauto
    · rw [he'] at hrefs
      refine nodup_mid hrefs ?_
      simp only [List.mem_append, List.mem_cons] at hk ⊢; tauto
    · obtain ⟨kg, hk, e⟩ := List.mem_map.1 hm
      rw [he] at hkeys
      exact nodup_mid (g := Prod.fst) hkeys (.inr hk) e
    · obtain ⟨kg, hk, e⟩ := List.mem_map.1 hm
      rw [he'] at hkeys
      exact nodup_mid (g := Prod.fst) hkeys (.inr hk) e
  obtain ⟨A, D, he⟩ := List.append_of_mem hf
  rw [he] at hf'
  rcases List.mem_append.1 hf' with hA | hD
  · obtain ⟨A, B, rfl⟩ := List.append_of_mem hA
    rw [List.append_assoc, List.cons_append] at he
    obtain ⟨s1, s2, s3, s4⟩ := side he ho' ho
    rw [he] at h
    obtain ⟨h1, x, h2, h3⟩ := loop_pair (w0 := w0) (f1 := f') (f2 := f) (k1 := k') (k2 := k)
      (T := fun u v => Twin (fun x => (w0.obj x).node) ρ (Below w0 f) v u) (fun r => (w.obj r).hide)
      (fun u v hT => by
        obtain ⟨a, b⟩ := hc.call str fuel none v u hT
        exact ⟨a.symm, b⟩)
      (fun u v u' v' hT h1 h2 => hT.frame h2 fun x hx => h1 _ (hc.below hx)) A B D hw' hw
      s1 s2 s3 s4 hn hT h
    exact ⟨h1, x, h3, h2⟩
  · rcases List.mem_cons.1 hD with e | hD
    · cases e; exact absurd rfl hff
    obtain ⟨B, C, rfl⟩ := List.append_of_mem hD
    obtain ⟨s1, s2, s3, s4⟩ := side he ho ho'
    rw [he] at h
    exact loop_pair (w0 := w0) (fun r => (w.obj r).hide) (hc.call str fuel none)
      (fun u v u' v' hT h1 h2 => hT.frame h1 fun x hx => h2 _ (hc.below hx)) A B C hw hw'
      s1 s2 s3 s4 hn hT h

theorem documents_pair {str : Val → List Char} {fuel : Nat} {ρ : Ref → Ref} {w0 : World R}
    {f f' : Ref} {k k' : String} {fields : Dict Ref} (hc : CopyOf ρ w0 f w0 f')
    (hkeys : fields.keys.Nodup) (hrefs : (fields.map (·.2)).Nodup)
    (hf : (k, f) ∈ fields) (hf' : (k', f') ∈ fields) (hff : f ≠ f')
    (ho : OnlyIn w0 fields f) (ho' : OnlyIn w0 fields f')
    (hh : (w0.obj f).hide = false) (hh' : (w0.obj f').hide = false) (docs : List (Dict Val)) :
    ∀ {w : World R}, (∀ x, (w.obj x).node = (w0.obj x).node) →
      Twin (fun x => (w0.obj x).node) ρ (Below w0 f) w w → ∀ n,
      documents str fuel fields n w = docs.map .ok →
      ∀ d ∈ docs, ∃ x, d.get? k = some x ∧ d.get? k' = some x := by
  induction docs with
  | nil => intro _ _ _ _ _ d hd; cases hd
  | cons d0 docs ih =>
    intro w hn hT n h d hd
    cases n with
    | zero => cases h
    | succ n =>
      unfold documents at h
      rw [List.map_cons] at h
      obtain ⟨h1, h2⟩ := List.cons.inj h
      rcases hq : document str fuel fields w with ⟨y, w'⟩
      rw [hq] at h1 h2
      dsimp only at h1
      subst h1
      obtain ⟨h3, h4⟩ := document_pair hc hkeys hrefs hf hf' hff ho ho' hh hh' hn hT hq
      rcases List.mem_cons.1 hd with rfl | hd
      · exact h4
      · refine ih (w := w') (fun x => ?_) h3 n h2 d hd
        have : ((document str fuel fields w).2.obj x).node = (w.obj x).node := by
          unfold document Schema.call
          rw [PyM.run_get_bind]
          exact loop_node fuel _ fields [] w x
        rw [hq] at this
        exact this.trans (hn x)

theorem seedFields_seeded (fuel : Nat) (s : Option Int) (fields : Dict Ref) (w : World R)
    (hok : (seedFields fuel s fields w).1 = .ok ()) {kf : String × Ref} (hkf : kf ∈ fields) (x : Ref)
    (hx : Below w kf.2 x) : ((seedFields fuel s fields w).2.obj x).Seeded s := by
  rw [seedFields_eq] at hok ⊢
  rcases hq : Group.doMethod ((fields.map (·.2)).map some) (World.seed fuel · s) w with ⟨y, u'⟩
  rw [hq] at hok ⊢
  dsimp only at hok ⊢
  subst hok
  exact (doSeed_fresh (nodes := fun y => (w.obj y).node) (P := fun _ => True)
    (fun _ _ _ _ => trivial) (fun c hc => seed_fresh (fun _ _ _ _ => trivial) fuel c hc)
    (fun _ _ => trivial) w u' ⟨fun _ _ => rfl, fun _ h => h.elim, fun _ h => h.elim⟩ hq).2 kf.2
    (List.mem_map_of_mem hkf) x ((BelowN.iff w kf.2 x).2 hx)

theorem seedFields_shape (fuel : Nat) (s : Option Int) (fields : Dict Ref) (w : World R) (x : Ref) :
    ((seedFields fuel s fields w).2.obj x).shape = (w.obj x).shape := by
  rw [seedFields_eq]
  have : Keeps (fun u : World R => ∀ x, (u.obj x).shape = (w.obj x).shape)
      (Group.doMethod ((fields.map (·.2)).map some) (seed fuel · s)) := by
    unfold Group.doMethod
    refine Keeps.forEach fun b hb => ?_
    obtain ⟨c, hc, rfl⟩ := List.mem_map.1 hb
    exact Keeps.ignoring fun u hu x => (seed_shape fuel c s u x).trans (hu x)
  exact this w (fun _ => rfl) x

theorem seedFields_position (fuel : Nat) (s : Option Int) (fields : Dict Ref) (w : World R) (x : Ref) :
    ((seedFields fuel s fields w).2.obj x).position = (w.obj x).position := by
  rw [seedFields_eq]
  exact doMethod_position (fun c => seed_position w fuel c s) w (fun _ => rfl) x

end World

/-- **C87 (fields).** `seed_fields` gives all fields the same seed, so two fields of a schema that are
copies of each other, each with emitters of its own, have the same value in every document from then
on, as long as the schema gives documents. -/
theorem C87_fields (str : Val → List Char) {ρ : Ref → Ref} {w : World R} {f f' : Ref} {k k' : String}
    {fields : Dict Ref} (h : CopyOf ρ w f w f') (hp : CopiesAt ρ w f w)
    (hkeys : fields.keys.Nodup) (hrefs : (fields.map (·.2)).Nodup)
    (hf : (k, f) ∈ fields) (hf' : (k', f') ∈ fields) (hff : f ≠ f')
    (ho : OnlyIn w fields f) (ho' : OnlyIn w fields f')
    (hh : (w.obj f).hide = false) (hh' : (w.obj f').hide = false)
    (s : Int) (fuel : Nat) (hok : (World.seedFields fuel (some s) fields w).1 = .ok ())
    (fuel' n : Nat) (docs : List (Dict Val))
    (hdocs : World.documents str fuel' fields n (World.seedFields fuel (some s) fields w).2 =
      docs.map .ok) :
    ∀ d ∈ docs, ∃ x, d.get? k = some x ∧ d.get? k' = some x :=
  World.documents_pair h hkeys hrefs hf hf' hff ho ho' hh hh' docs
    (fun x => World.node_of_shape (World.seedFields_shape fuel _ fields w x))
    (h.twin (s := s) (World.seedFields_shape fuel _ fields w) (World.seedFields_shape fuel _ fields w)
      (fun x hx => by
        rw [World.seedFields_position, World.seedFields_position]
        exact hp x hx)
      (World.seedFields_seeded fuel _ fields w hok hf) (World.seedFields_seeded fuel _ fields w hok hf'))
    n hdocs

/-! ### An example -/

/-- A `Choice` of letters with seed `s`. -/
def letters (s : Int) : Attrs demoRng :=
  { World.blank with
    node := some (.choice .list)
    choice := ⟨[.str ['w'], .str ['x'], .str ['y'], .str ['z']], none, none, true, false, [], none, 4,
      some s, demoRng.ofSeed s⟩ }
/-- A `Static`. -/
def constant (v : Val) : Attrs demoRng :=
  { World.blank with node := some .static, static := ⟨v, [v]⟩ }
/-- A `Sequential` of numbers. -/
def counter : Attrs demoRng :=
  { World.blank with
    node := some (.sequential .list)
    seq := ⟨[.int 1, .int 2, .int 3], ⟨⟨.fin [.int 1, .int 2, .int 3], true⟩, false, .fin []⟩⟩ }
/-- A field with seed `s`. -/
def fieldOf (name : String) (e rp g : Ref) (s : Int) : Attrs demoRng :=
  { World.blank with
    node := some (.field name e rp g false), seed := some s, rng := demoRng.ofSeed s }

/-- Two fields with two letters out of four each, with seeds of their own; between them another
field. -/
def likeWorld : World demoRng where
  obj
    | 0 => letters 1 | 1 => constant (.int 2) | 2 => constant (.bool true) | 3 => fieldOf "a" 0 1 2 1
    | 4 => counter | 5 => constant .none | 6 => constant (.bool true) | 7 => fieldOf "n" 4 5 6 3
    | 8 => letters 7 | 9 => constant (.int 2) | 10 => constant (.bool true) | 11 => fieldOf "b" 8 9 10 7
    | _ => World.blank
  next := 12
  entropy := 0
/-- Its fields. -/
def likeFields : Dict Ref := [("a", 3), ("n", 7), ("b", 11)]

theorem like_below3 {x : Ref} (h : Below likeWorld 3 x) : x ∈ [0, 1, 2, 3] :=
  h.mem [0, 1, 2, 3] (by decide +kernel) (by decide)
theorem like_below7 {x : Ref} (h : Below likeWorld 7 x) : x ∈ [4, 5, 6, 7] :=
  h.mem [4, 5, 6, 7] (by decide +kernel) (by decide)
theorem like_below11 {x : Ref} (h : Below likeWorld 11 x) : x ∈ [8, 9, 10, 11] :=
  h.mem [8, 9, 10, 11] (by decide +kernel) (by decide)

/-- The fields are copies. -/
theorem like_copies : CopyOf (· + 8) likeWorld 3 likeWorld 11 where
  root := rfl
  apart x y _ _ h := Nat.add_right_cancel h
  settings x hx := by
    have := like_below3 hx
    simp only [List.mem_cons, List.not_mem_nil, or_false] at this
    rcases this with rfl | rfl | rfl | rfl <;> rfl
  sources x hx := by
    have := like_below3 hx
    simp only [List.mem_cons, List.not_mem_nil, or_false] at this
    rcases this with rfl | rfl | rfl | rfl <;> decide +kernel

theorem like_at : CopiesAt (· + 8) likeWorld 3 likeWorld := by
  intro x hx
  have := like_below3 hx
  simp only [List.mem_cons, List.not_mem_nil, or_false] at this
  rcases this with rfl | rfl | rfl | rfl <;> rfl

/-- The documents after `seed_fields(5)`. -/
def likeDocs (w : World demoRng) : List (Except Err (Dict Val)) := World.documents demoStr 5 likeFields 3 w

theorem like_ok : (World.seedFields 5 (some 5) likeFields likeWorld).1 = .ok () := by decide +kernel

/-- What the theorem says about them. -/
example (docs : List (Dict Val))
    (h : World.documents demoStr 5 likeFields 3 (World.seedFields 5 (some 5) likeFields likeWorld).2 =
      docs.map .ok) : ∀ d ∈ docs, ∃ x, d.get? "a" = some x ∧ d.get? "b" = some x := by
  refine C87_fields demoStr like_copies like_at (by decide) (by decide) (by decide) (by decide) (by decide)
    ?_ ?_ (by decide +kernel) (by decide +kernel) 5 5 like_ok 5 3 docs h
  · intro kg hk hne x hx hb
    have h3 := like_below3 hx
    simp only [likeFields, List.mem_cons, List.not_mem_nil, or_false] at hk
    rcases hk with rfl | rfl | rfl
    · exact hne rfl
    · exact absurd (like_below7 hb) ((by decide : ∀ y ∈ ([0, 1, 2, 3] : List Ref), y ∉ [4, 5, 6, 7]) x h3)
    · exact absurd (like_below11 hb) ((by decide : ∀ y ∈ ([0, 1, 2, 3] : List Ref), y ∉ [8, 9, 10, 11]) x h3)
  · intro kg hk hne x hx hb
    have h3 := like_below11 hx
    simp only [likeFields, List.mem_cons, List.not_mem_nil, or_false] at hk
    rcases hk with rfl | rfl | rfl
    · exact absurd (like_below3 hb) ((by decide : ∀ y ∈ ([8, 9, 10, 11] : List Ref), y ∉ [0, 1, 2, 3]) x h3)
    · exact absurd (like_below7 hb) ((by decide : ∀ y ∈ ([8, 9, 10, 11] : List Ref), y ∉ [4, 5, 6, 7]) x h3)
    · exact hne rfl

/-- The documents are there; before, the letters differed. -/
example : likeDocs (World.seedFields 5 (some 5) likeFields likeWorld).2 =
      [.ok [("a", .list [.str ['x'], .str ['w']]), ("n", .int 1), ("b", .list [.str ['x'], .str ['w']])],
       .ok [("a", .list [.str ['y'], .str ['x']]), ("n", .int 2), ("b", .list [.str ['y'], .str ['x']])],
       .ok [("a", .list [.str ['w'], .str ['y']]), ("n", .int 3), ("b", .list [.str ['w'], .str ['y']])]] ∧
    (likeDocs likeWorld)[0]? =
      some (.ok [("a", .list [.str ['z'], .str ['y']]), ("n", .int 1),
        ("b", .list [.str ['y'], .str ['x']])]) := by decide +kernel

/-- The two fields on their own, seeded alike. -/
example (args : List (Option Val)) :
    World.outcomes demoStr 5 3 args (World.seed 5 3 (some 5) likeWorld).2 =
      World.outcomes demoStr 5 11 args (World.seed 5 11 (some 5) likeWorld).2 :=
  C87_seed demoStr like_copies like_at 5 5 (by decide +kernel) (by decide +kernel) 5 args

/-- The second field with the `rng_seed` of the first, but a generator and emitters seeded with 7. -/
def likeWorld1 : World demoRng := likeWorld.upd 11 fun a => { a with seed := some 1 }

example (args : List (Option Val)) :
    World.outcomes demoStr 5 3 args (World.reset 5 3 likeWorld).2 =
      World.outcomes demoStr 5 11 args (World.reset 5 11 likeWorld1).2 := by
  refine C87_reset demoStr (ρ := (· + 8)) ⟨rfl, fun x y _ _ h => Nat.add_right_cancel h, fun x hx => ?_,
    like_copies.sources⟩ 1 (by decide +kernel) (by decide +kernel) (by decide +kernel) 5
    (by decide +kernel) (by decide +kernel) 5 args
  have := like_below3 hx
  simp only [List.mem_cons, List.not_mem_nil, or_false] at this
  rcases this with rfl | rfl | rfl | rfl <;> rfl

/-- The calls are not all alike without a common seed. -/
example : World.outcomes demoStr 5 3 [none, none] likeWorld ≠
    World.outcomes demoStr 5 11 [none, none] likeWorld := by decide +kernel

end Fauxdoc
