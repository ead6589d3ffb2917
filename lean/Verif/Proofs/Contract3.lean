import Verif.Proofs.Contract2
/-
All objects in the store fulfil the contract.
-/
set_option linter.unusedSectionVars false
namespace Fauxdoc
open PyM
variable {K : Type} [Field K] [LinearOrder K] [FloorRing K] [IsStrictOrderedRing K] {R : Rng K}

theorem Answers.imp {P Q : Val → Prop} {arg : Option Val} {v : Val} (h : Answers P arg v)
    (hPQ : ∀ x, P x → Q x) : Answers Q arg v := by
  rcases arg with _ | x
  · exact hPQ _ h
  · cases x with
    | none => exact hPQ _ h
    | _ =>
      obtain ⟨i, l, h1, h2, h3, h4⟩ := h
      exact ⟨i, l, h1, h2, h3, fun y hy => hPQ y (h4 y hy)⟩

namespace World
variable {V : Ref → Val → Prop} {P : Ref → Prop}

theorem typed_upd {w : World R} (h : TypedOn V P w) (r : Ref) (f : Attrs R → Attrs R) (e : Nat)
    (hn : (f (w.obj r)).node = (w.obj r).node)
    (hf : P r → (w.obj r).Typed V r → (f (w.obj r)).Typed V r) :
    TypedOn V P { w.upd r f with entropy := e } := by
  intro x hx
  by_cases hxr : x = r
  · subst hxr
    have := h x hx
    simp only [upd, if_pos]
    exact ⟨hf hx this.1, by unfold Attrs.children at this ⊢; rw [hn]; exact this.2⟩
  · simp only [upd, if_neg hxr]
    exact h x hx

theorem typed_upd' {w : World R} (h : TypedOn V P w) (r : Ref) (f : Attrs R → Attrs R)
    (hn : (f (w.obj r)).node = (w.obj r).node)
    (hf : P r → (w.obj r).Typed V r → (f (w.obj r)).Typed V r) : TypedOn V P (w.upd r f) :=
  typed_upd h r f w.entropy hn hf

/-- Attributes that play no role for types. -/
theorem typed_rng {a : Attrs R} {r : Ref} (g : R.G) (h : a.Typed V r) :
    ({ a with rng := g } : Attrs R).Typed V r := by
  unfold Attrs.Typed at h ⊢; exact h

theorem typed_cache {a : Attrs R} {r : Ref} (v : Val) (h : a.Typed V r) :
    ({ a with cache := v } : Attrs R).Typed V r := by
  unfold Attrs.Typed at h ⊢; exact h

theorem typed_seed {a : Attrs R} {r : Ref} (s : Option Int) (h : a.Typed V r) :
    (a.setSeed s).Typed V r := by
  unfold Attrs.setSeed
  rcases hn : a.node with _ | node
  · unfold Attrs.Typed; simp
  · unfold Attrs.Typed at h ⊢
    rw [hn] at h
    cases node <;> dsimp only at h ⊢ <;> exact h

theorem setSeed_node (a : Attrs R) (s : Option Int) : (a.setSeed s).node = a.node := by
  unfold Attrs.setSeed
  split <;> rfl

/-- Methods of a `Choice`. -/
theorem onChoice_ensures {β : Type} {r : Ref} {m : ChoiceM Val R β} {Q : β → Prop} {w : World R}
    (hw : TypedOn V P w) {k : ItemsKind} (hn : (w.obj r).node = some (.choice k)) (hr : P r)
    (h : Ensures (Choice.IntactOver (w.obj r).choice.items) m Q) :
    EnsuresAt (TypedOn V P) (onChoice r m) Q w := by
  have ht := (hw r hr).1
  unfold Attrs.Typed at ht
  rw [hn] at ht
  obtain ⟨h1, h2⟩ := h ((w.obj r).choice, w.entropy) ⟨ht.1, rfl⟩
  refine ⟨?_, h2⟩
  unfold onChoice
  refine typed_upd hw r _ _ rfl fun _ _ => ?_
  unfold Attrs.Typed
  rw [hn]
  dsimp only
  refine ⟨h1.1, fun x hx => ht.2 x ?_⟩
  rw [h1.2] at hx
  exact hx

theorem newRng_keeps (r : Ref) (s : Option Int) : Keeps (TypedOn V P) (newRng (R := R) r s) := by
  intro w hw
  unfold newRng
  rcases R.new s w.entropy with ⟨x | g, e⟩
  · exact hw
  · exact typed_upd hw r _ _ rfl fun _ h => typed_rng g h

theorem setChildSeeds_keeps (cs : List Ref) (s : Option Int) :
    Keeps (TypedOn V P) (setChildSeeds (R := R) cs s) := by
  unfold setChildSeeds Group.setattr
  refine Keeps.forEach fun b hb => ?_
  rcases b with _ | c
  · exact Keeps.pure _ _
  · refine fun w hw => ?_
    dsimp only
    rw [run_get_bind]
    by_cases h : (w.obj c).random = true
    · rw [if_pos h]
      exact typed_upd' hw c _ (setSeed_node _ _) fun _ ht => typed_seed s ht
    · rw [if_neg h]; exact hw

theorem doMethod_keeps {I : World R → Prop} {cs : List Ref} {f : Ref → PyM (World R) Unit}
    (h : ∀ c ∈ cs, Keeps I (f c)) : Keeps I (Group.doMethod (cs.map some) f) := by
  unfold Group.doMethod
  refine Keeps.forEach fun b hb => ?_
  obtain ⟨c, hc, rfl⟩ := List.mem_map.1 hb
  exact Keeps.ignoring (h c hc)

theorem mixinReset_keeps {f : Ref → PyM (World R) Unit} (hf : ∀ c, P c → Keeps (TypedOn V P) (f c))
    {r : Ref} (hr : P r) : Keeps (TypedOn V P) (mixinReset f r) := by
  intro w hw
  unfold mixinReset
  rw [run_get_bind]
  refine (setChildSeeds_keeps _ _).bind (fun _ => (newRng_keeps r _).bind fun _ => ?_) w hw
  exact doMethod_keeps fun c hc => hf c ((hw r hr).2 c hc)

theorem reset_typed : ∀ (fuel : Nat) (r : Ref), P r → Keeps (TypedOn V P) (reset (R := R) fuel r) := by
  intro fuel
  induction fuel with
  | zero => intro r _; exact Keeps.raise _ _
  | succ fuel ih =>
    intro r hr w hw
    unfold reset
    rw [run_get_bind]
    have ht := (hw r hr).1
    unfold Attrs.Typed at ht
    rcases hn : (w.obj r).node with _ | node
    · exact hw
    · rw [hn] at ht
      have htwice : Keeps (TypedOn V P) (do
          mixinReset (reset fuel) r
          let a := (← PyM.get).obj r
          setChildSeeds a.children a.seed
          Group.doMethod (a.children.map some) (reset fuel) : PyM (World R) Unit) := by
        refine (mixinReset_keeps ih hr).bind fun _ v hv => ?_
        rw [run_get_bind]
        exact (setChildSeeds_keeps _ _).bind
          (fun _ => doMethod_keeps fun c hc => ih c ((hv r hr).2 c hc)) v hv
      cases node with
      | choice k =>
        exact (onChoice_ensures hw hn hr (Choice.reset_keeps _).ensures).1
      | static => exact hw
      | iterative =>
        refine typed_upd' hw r (fun a => { a with iter := { (w.obj r).iter with cur := .fin [] } })
          rfl fun _ _ => ?_
        unfold Attrs.Typed
        dsimp only
        rw [hn]
        exact Iterative.reset_keeps (P := V r) _ ht
      | sequential k =>
        refine typed_upd' hw r (fun a => { a with seq := { (w.obj r).seq with it := { (w.obj r).seq.it with cur := .fin [] } } })
          rfl fun _ _ => ?_
        unfold Attrs.Typed
        dsimp only
        rw [hn]
        exact Iterative.reset_keeps (P := V r) _ ht
      | word l c => exact htwice w hw
      | text n wd s => exact htwice w hw
      | wrapOne s => exact mixinReset_keeps ih hr w hw
      | wrapMany ss => exact mixinReset_keeps ih hr w hw
      | copyFields a b c => exact hw
      | basedOn a b => exact newRng_keeps r _ w hw
      | field n e rp g h =>
        refine (mixinReset_keeps ih hr).bind (fun _ v hv => ?_) w hw
        exact typed_upd' hv r (fun a => { a with cache := .none }) rfl fun _ h => typed_cache _ h

theorem seed_typed : ∀ (fuel : Nat) (r : Ref) (s : Option Int), P r →
    Keeps (TypedOn V P) (seed (R := R) fuel r s) := by
  intro fuel
  induction fuel with
  | zero => intro r s _; exact Keeps.raise _ _
  | succ fuel ih =>
    intro r s hr w hw
    unfold seed
    rw [run_get_bind]
    have hmix : ∀ x, Keeps (TypedOn V P) (mixinSeed (R := R) r x) := by
      intro x
      unfold mixinSeed
      refine Keeps.bind (fun w hw => ?_) fun _ => newRng_keeps r x
      refine typed_upd' hw r (fun a => { a with seed := x }) rfl fun _ h => ?_
      unfold Attrs.Typed at h ⊢; exact h
    have hmixc : Keeps (TypedOn V P) (mixinChildSeed (seed (R := R) fuel) r s) := by
      intro v hv
      unfold mixinChildSeed
      rw [run_get_bind]
      exact (doMethod_keeps fun c hc => ih c s ((hv r hr).2 c hc)).bind
        (fun _ => Keeps.ignoring (hmix s)) v hv
    have htwice : Keeps (TypedOn V P) (do
        mixinChildSeed (seed fuel) r s
        let a := (← PyM.get).obj r
        Group.doMethod (a.children.map some) (seed fuel · a.seed) : PyM (World R) Unit) := by
      refine hmixc.bind fun _ v hv => ?_
      rw [run_get_bind]
      exact doMethod_keeps (fun c hc => ih c _ ((hv r hr).2 c hc)) v hv
    rcases hn : (w.obj r).node with _ | node
    · exact hw
    · cases node with
      | choice k => exact (onChoice_ensures hw hn hr (Choice.seed_keeps _ _).ensures).1
      | static => exact hw
      | iterative => exact hw
      | sequential k => exact hw
      | copyFields a b c => exact hw
      | word l c => exact htwice w hw
      | text n wd s => exact htwice w hw
      | wrapOne s => exact hmixc w hw
      | wrapMany ss => exact hmixc w hw
      | basedOn a b => exact hmix s w hw
      | field n e rp g h => exact hmixc w hw

/-- Calls of an object whose methods use one attribute of it. -/
theorem attr_contract {G : Type} {r : Ref} (hr : P r) {nd : Node} {L : Attr (World R) G} {f : G → Attrs R → Attrs R}
    {get : Attrs R → G} (hL : ∀ w g, L.set g w = w.upd r (f g)) (hg : ∀ w, L.get w = get (w.obj r))
    (x : Err) {emit : PyM G Val} {emitMany : Int → PyM G (List Val)} {J : G → Prop}
    (h1 : Ensures J emit (V r))
    (h2 : ∀ n : Int, 0 ≤ n → n ≠ 1 →
      Ensures J (emitMany n) fun l => (l.length : Int) = n ∧ ∀ x ∈ l, V r x)
    (hn : ∀ g a, (f g a).node = a.node)
    (hf : ∀ a : Attrs R, a.node = some nd →
      (a.Typed V r → J (get a)) ∧ ∀ g, J g → (f g a).Typed V r) :
    Contract (fun w => TypedOn V P w ∧ (w.obj r).node = some nd)
      (emitterCallOr (fun _ => PyM.raise x) (L.run emit) fun n => L.run (emitMany n)) (V r) := by
  have key : ∀ {β : Type} {m : PyM G β} {Q : β → Prop}, Ensures J m Q →
      Ensures (fun w => TypedOn V P w ∧ (w.obj r).node = some nd) (L.run m) Q := by
    intro β m Q h w hw
    obtain ⟨ha, hb⟩ := hf _ hw.2
    obtain ⟨h1, h2⟩ := h (L.get w) (by rw [hg]; exact ha (hw.1 r hr).1)
    refine ⟨?_, h2⟩
    unfold Attr.run
    dsimp only
    rw [hL]
    refine ⟨typed_upd' hw.1 r _ (hn _ _) fun _ _ => hb _ h1, ?_⟩
    simp only [upd, if_pos]
    rw [hn]
    exact hw.2
  exact emitterCallOr_contract (fun _ _ _ => Ensures.raise _) (key h1) fun n h0 h1 => key (h2 n h0 h1)

/-- Every object in `P` fulfils the contract. -/
theorem call_typed (str : Val → List Char) : ∀ (fuel : Nat) (r : Ref), P r →
    Contract (TypedOn V P) (call (R := R) str fuel r) (V r) := by
  intro fuel
  induction fuel with
  | zero => intro r _ arg _; exact Ensures.raise _
  | succ fuel ih =>
    intro r hr arg ha w hw
    unfold EnsuresAt call
    rw [run_get_bind]
    change EnsuresAt (TypedOn V P) _ (Answers (V r) arg) w
    obtain ⟨ht, hc⟩ := hw r hr
    unfold Attrs.children at hc
    have hrng : ∀ (v : World R) (g : R.G), TypedOn V P v → TypedOn V P ((rngAttr r).set g v) :=
      fun v g hv => typed_upd' hv r (fun a => { a with rng := g }) rfl fun _ h => typed_rng g h
    have hcache : ∀ (v : World R) (x : Val), TypedOn V P v → TypedOn V P ((cacheAttr r).set x v) :=
      fun v x hv => typed_upd' hv r (fun a => { a with cache := x }) rfl fun _ h => typed_cache x h
    have fixed : ∀ {J : Val → Prop} {x : Err}, EnsuresAt (TypedOn V P) (PyM.raise x) J w :=
      ⟨hw, fun a ha => by cases ha⟩
    unfold Attrs.Typed at ht
    rcases hn : (w.obj r).node with _ | node
    · exact fixed
    · rw [hn] at ht hc
      cases node with
      | choice k =>
        refine onChoice_ensures hw hn hr ?_
        exact (Choice.child_contract (R := R) (w.obj r).choice.items arg ha).mono fun v hv => hv.imp ht.2
      | static =>
        have := attr_contract (R := R) (V := V) (P := P) hr (nd := .static) (L := staticAttr r) (f := fun b a => { a with static := b })
          (get := (·.static)) (J := fun s => V r s.value) (emit := Static.emit)
          (emitMany := Static.emitMany) (fun _ _ => rfl) (fun _ => rfl) .typeError
          (fun s hs => ⟨hs, fun v hv => by cases hv; exact hs⟩)
          (fun n h0 _ s hs => ⟨hs, fun l hl => by
            cases hl
            refine ⟨by simp [h0], fun x hx => ?_⟩
            rw [List.mem_replicate] at hx
            rw [hx.2]; exact hs⟩)
          (fun _ _ => rfl)
          (fun a ha => by unfold Attrs.Typed; dsimp only; simp [ha])
        exact ⟨(this arg ha w ⟨hw, hn⟩).1.1, (this arg ha w ⟨hw, hn⟩).2⟩
      | iterative =>
        have := attr_contract (R := R) (V := V) (P := P) hr (nd := .iterative) (L := iterAttr r) (f := fun b a => { a with iter := b })
          (get := (·.iter)) (J := Iterative.AllOf (V r)) (emit := Iterative.emit)
          (emitMany := Iterative.emitMany) (fun _ _ => rfl) (fun _ => rfl) .valueError
          Iterative.emit_ensures (fun n h0 _ => Iterative.emitMany_ensures n h0)
          (fun _ _ => rfl)
          (fun a ha => by unfold Attrs.Typed Iterative.AllOf; dsimp only; simp [ha])
        exact ⟨(this arg ha w ⟨hw, hn⟩).1.1, (this arg ha w ⟨hw, hn⟩).2⟩
      | sequential k =>
        have := attr_contract (R := R) (V := V) (P := P) hr (nd := .sequential k) (L := seqAttr r) (f := fun b a => { a with seq := b })
          (get := (·.seq)) (J := fun s => Iterative.AllOf (V r) s.it)
          (emit := Sequential.onIt Iterative.emit)
          (emitMany := fun n => Sequential.onIt (Iterative.emitMany n)) (fun _ _ => rfl) (fun _ => rfl) .valueError
          (fun s hs => Iterative.emit_ensures s.it hs)
          (fun n h0 _ s hs => Iterative.emitMany_ensures n h0 s.it hs)
          (fun _ _ => rfl)
          (fun a ha => by unfold Attrs.Typed Iterative.AllOf; dsimp only; simp [ha])
        exact ⟨(this arg ha w ⟨hw, hn⟩).1.1, (this arg ha w ⟨hw, hn⟩).2⟩
      | word l c =>
        exact Word.contract (ih l (hc l (by simp [Node.childRefs]))) (ih c (hc c (by simp [Node.childRefs])))
          ht.2 ht.1 arg ha w hw
      | text n wd s =>
        have hwd := hc wd (by simp [Node.childRefs])
        refine Text.contract (P := V wd) (ih n (hc n (by simp [Node.childRefs]))) ⟨ih wd hwd, reset_typed fuel wd hwd, ?_⟩
          (ih s (hc s (by simp [Node.childRefs]))) ht.2 ht.1 arg ha w hw
        refine Ensures.get_bind fun v hv => ?_
        rcases hnv : (v.obj wd).node with _ | node
        · exact ⟨hv, fun a ha => by cases ha; simp⟩
        · cases node with
          | choice k =>
            refine onChoice_ensures hv hnv hwd fun s hs => ?_
            refine ⟨?_, fun r h D hD => Choice.roacInfo_ensures s r h D hD⟩
            rw [Choice.roacInfo_state]; exact hs
          | _ => exact ⟨hv, fun a ha => by cases ha; simp⟩
      | wrapOne s =>
        rcases hwr : (w.obj r).wrapper with _ | cb
        · exact fixed
        · exact WrapOne.contract hrng (ih s (hc s (by simp [Node.childRefs]))) (ht cb hwr) arg ha w hw
      | wrapMany ss =>
        rcases hwr : (w.obj r).wrapper with _ | cb
        · exact fixed
        · refine WrapMany.contract (T := ss.map fun ks => (ks.1, V ks.2)) hrng ?_ ?_ arg ha w hw
          · rw [List.forall₂_map_left_iff, List.forall₂_map_right_iff, List.forall₂_same]
            intro ks hks
            exact ⟨rfl, ih ks.2 (hc ks.2 (by simp only [Node.childRefs]; exact List.mem_map_of_mem hks))⟩
          · intro d hd
            rw [List.forall₂_map_left_iff] at hd
            exact ht cb hwr d hd
      | copyFields src single sep => exact CopyFields.contract str _ sep ht arg ha w hw
      | basedOn src single =>
        rcases hwr : (w.obj r).wrapper with _ | cb
        · exact fixed
        · exact BasedOnFields.contract hrng _ (ht cb hwr) arg ha w hw
      | field n e rp g h =>
        cases arg with
        | some v => exact fixed
        | none =>
          exact Field.call_ensures hcache (ih e (hc e (by simp [Node.childRefs])))
            (ih rp (hc rp (by simp [Node.childRefs]))) (ih g (hc g (by simp [Node.childRefs]))) ht.2 ht.1 w hw

end World
end Fauxdoc
