import Verif.Proofs.Fuel
import Verif.Props.Halt
/-
C63: recursion limits above the nesting depth do not matter.  C62 and C63 for setters and
constructors.
-/
set_option linter.unusedSectionVars false
namespace Fauxdoc
open PyM World
variable {K : Type} [Field K] [LinearOrder K] [FloorRing K] [IsStrictOrderedRing K] {R : Rng K}
variable {V : Ref → Val → Prop} {P : Ref → Prop} {depth : Ref → Nat}

/-- None of the objects in `P` is below itself. -/
def Nested (P : Ref → Prop) (depth : Ref → Nat) (w : World R) : Prop :=
  ∀ r, P r → ∀ c ∈ (w.obj r).children, P c ∧ depth c < depth r

theorem Nested.ranked {w : World R} (h : Nested P depth w) :
    Ranked P depth fun x => (w.obj x).node := h

theorem EndsOn.nested {w : World R} (h : EndsOn P depth w) : Nested P depth w :=
  fun r hr => (h r hr).2.2

/-! ### Calls, reset, seed, schemas -/

section
variable {w : World R} {f g : Nat} {r : Ref}

theorem same_of_rel {nodes : Ref → Option Node} {β : Type} {m m' : PyM (World R) β}
    (h : Rel (SameAs nodes) m m') (hw : NodesAs nodes w) : m w = m' w :=
  Prod.ext (h w w ⟨rfl, hw⟩).1 (h w w ⟨rfl, hw⟩).2.1

/-- **C63.** A call gives the same outcome and the same store for all recursion limits above the
depth. -/
theorem C63_call (str : Val → List Char) (h : Nested P depth w) (hr : P r) (hf : depth r < f)
    (hg : depth r < g) (arg : Option Val) : World.call str f r arg w = World.call str g r arg w :=
  same_of_rel (call_fuel str h.ranked f g r hr hf hg arg) fun _ => rfl

theorem C63_reset (h : Nested P depth w) (hr : P r) (hf : depth r < f) (hg : depth r < g) :
    World.reset f r w = World.reset g r w :=
  same_of_rel (reset_fuel h.ranked f g r hr hf hg) fun _ => rfl

theorem C63_seed (h : Nested P depth w) (hr : P r) (hf : depth r < f) (hg : depth r < g)
    (s : Option Int) : World.seed f r s w = World.seed g r s w :=
  same_of_rel (seed_fuel h.ranked f g r s hr hf hg) fun _ => rfl

theorem C63_document (str : Val → List Char) (h : Nested P depth w) (fields : Dict Ref)
    (hp : ∀ kf ∈ fields, P kf.2 ∧ depth kf.2 < f ∧ depth kf.2 < g) :
    World.document str f fields w = World.document str g fields w := by
  unfold World.document Schema.call
  rw [run_get_bind, run_get_bind]
  refine same_of_rel (nodes := fun x => (w.obj x).node) (Schema.loop_rel fields [] fun kf hkf =>
    ⟨rfl, ?_⟩) fun _ => rfl
  obtain ⟨h1, h2, h3⟩ := hp kf hkf
  exact call_fuel str h.ranked f g _ h1 h2 h3 none

theorem C63_resetFields (h : Nested P depth w) (fields : Dict Ref)
    (hp : ∀ kf ∈ fields, P kf.2 ∧ depth kf.2 < f ∧ depth kf.2 < g) :
    World.resetFields f fields w = World.resetFields g fields w := by
  rw [resetFields_eq, resetFields_eq]
  refine same_of_rel (nodes := fun x => (w.obj x).node) (Group.doMethod_rel fun c hc => ?_) fun _ => rfl
  obtain ⟨kf, hkf, rfl⟩ := List.mem_map.1 hc
  obtain ⟨h1, h2, h3⟩ := hp kf hkf
  exact reset_fuel h.ranked f g _ h1 h2 h3

theorem C63_seedFields (h : Nested P depth w) (s : Option Int) (fields : Dict Ref)
    (hp : ∀ kf ∈ fields, P kf.2 ∧ depth kf.2 < f ∧ depth kf.2 < g) :
    World.seedFields f s fields w = World.seedFields g s fields w := by
  rw [seedFields_eq, seedFields_eq]
  refine same_of_rel (nodes := fun x => (w.obj x).node) (Group.doMethod_rel fun c hc => ?_) fun _ => rfl
  obtain ⟨kf, hkf, rfl⟩ := List.mem_map.1 hc
  obtain ⟨h1, h2, h3⟩ := hp kf hkf
  exact seed_fuel h.ranked f g _ s h1 h2 h3

end

/-! ### Setters -/

section
variable {nodes : Ref → Option Node} {f g : Nat} {r : Ref} {cb : Callback R.G}
variable {str : Val → List Char}

theorem assign_fuel (hR : Ranked P depth nodes) (hr : P r) (hf : depth r < f) (hg : depth r < g) :
    Rel (SameAs nodes) (assignAndReset f r cb) (assignAndReset g r cb) :=
  (Keeps.rel fun v hv => nodesAs_upd hv r (fun a => { a with wrapper := some cb }) v.entropy rfl).bind
    fun _ => reset_fuel hR f g r hr hf hg

theorem assign_halts (hR : Ranked P depth nodes) (hr : P r) (hf : depth r < f) :
    Halts (NodesAs nodes) (assignAndReset f r cb) :=
  (Halts.modify _).bind' (fun v hv => nodesAs_upd hv r (fun a => { a with wrapper := some cb }) v.entropy
    rfl) fun _ => World.reset_halts hR f r hr hf

theorem setWrapper_fuel (hR : Ranked P depth nodes) (hr : P r) (hf : depth r < f) (hg : depth r < g) :
    Rel (SameAs nodes) (World.setWrapper str f r cb) (World.setWrapper str g r cb) := by
  rintro w v ⟨rfl, hw⟩
  have hk : ∀ c ∈ Node.childRefs (nodes r),
      ChildRel (SameAs (R := R) nodes) (call str f c) (call str g c) := fun c hc =>
    call_fuel str hR f g c (hR r hr c hc).1 ((hR r hr c hc).2.trans hf) ((hR r hr c hc).2.trans hg)
  rw [← hw r] at hk
  rcases hn : (w.obj r).node with _ | node
  · unfold World.setWrapper
    rw [run_get_bind, run_get_bind, hn]; exact ⟨rfl, rfl, hw⟩
  · rw [hn] at hk
    cases node with
    | wrapOne s =>
      rw [setWrapper_one str f r s cb w hn, setWrapper_one str g r s cb w hn]
      exact Rel.finally_ (((hk s (by simp [Node.childRefs])) none).bind fun _ => Rel.lift _ _)
        (assign_fuel hR hr hf hg) w w ⟨rfl, hw⟩
    | wrapMany ss =>
      rw [setWrapper_many str f r ss cb w hn, setWrapper_many str g r ss cb w hn]
      refine Rel.bind (WrapMany.draw_rel ?_ none) (fun _ => Rel.finally_ (Rel.lift _ _)
        (assign_fuel hR hr hf hg)) w w ⟨rfl, hw⟩
      rw [List.forall₂_map_left_iff, List.forall₂_map_right_iff, List.forall₂_same]
      intro ks hks
      exact ⟨rfl, hk ks.2 (List.mem_map_of_mem hks)⟩
    | _ =>
      unfold World.setWrapper
      rw [run_get_bind, run_get_bind, hn]; exact ⟨rfl, rfl, hw⟩

theorem trial_fuel {w : World R} {src : List Ref} {single : Bool} 
    (hk : ∀ x ∈ src, Rel (SameAs (R := R) nodes) (call str f x none) (call str g x none)) :
    Rel (SameAs nodes)
      (BasedOnFields.trial
        (sourceGroup (fun x => call str f x none) (reset f) (seed f) w src single))
      (BasedOnFields.trial
        (sourceGroup (fun x => call str g x none) (reset g) (seed g) w src single)) := by
  unfold BasedOnFields.trial sourceGroup
  dsimp only
  have hm : ∀ l : List Ref, (∀ x ∈ l, x ∈ src) → Rel (SameAs (R := R) nodes) (mapPyM
      (fun (f : SourceField (World R)) => do return (f.name, ← f.call)) (l.map fun x =>
        { name := (w.obj x).name
          previous := fun v => (v.obj x).cache
          multiValued := multiValued x
          call := call str f x none
          reset := reset f x
          seed := seed f x })) (mapPyM
      (fun (f : SourceField (World R)) => do return (f.name, ← f.call)) (l.map fun x =>
        { name := (w.obj x).name
          previous := fun v => (v.obj x).cache
          multiValued := multiValued x
          call := call str g x none
          reset := reset g x
          seed := seed g x })) := by
    intro l hl
    refine mapPyM_rel ?_
    rw [List.forall₂_map_left_iff, List.forall₂_map_right_iff, List.forall₂_same]
    exact fun x hx => (hk x (hl x hx)).bind fun _ => Rel.pure _ _
  rcases src with _ | ⟨x, _ | ⟨y, l⟩⟩
  · exact (hm [] fun _ h => h).bind fun _ => Rel.pure _ _
  · exact (hk x (by simp)).bind fun _ => Rel.pure _ _
  · exact (hm (x :: y :: l) fun _ h => h).bind fun _ => Rel.pure _ _

theorem setAction_fuel (hR : Ranked P depth nodes) (hr : P r) (hf : depth r < f) (hg : depth r < g)
    (hs : ∀ x ∈ Node.sourceRefs (nodes r), P x ∧ depth x < f ∧ depth x < g) :
    Rel (SameAs nodes) (World.setAction str f r cb) (World.setAction str g r cb) := by
  rintro w v ⟨rfl, hw⟩
  unfold World.setAction
  rw [run_get_bind, run_get_bind]
  rw [← hw r] at hs
  rcases hn : (w.obj r).node with _ | node
  · exact ⟨rfl, rfl, hw⟩
  · rw [hn] at hs
    cases node with
    | basedOn src single =>
      refine Rel.bind (S := SameAs nodes) (Keeps.rel fun v hv => nodesAs_upd hv r (fun a => { a with wrapper := some cb })
        v.entropy rfl) (fun _ => (trial_fuel fun x hx => ?_).bind fun _ => Rel.finally_ (Rel.lift _ _)
          (reset_fuel hR f g r hr hf hg)) w w ⟨rfl, hw⟩
      obtain ⟨h1, h2, h3⟩ := hs x hx
      exact call_fuel str hR f g x h1 h2 h3 none
    | _ => exact ⟨rfl, rfl, hw⟩

/-- **C63.** Assigning a wrapper function. -/
theorem C63_setWrapper {w : World R} (h : Nested P depth w) (hr : P r) (hf : depth r < f)
    (hg : depth r < g) (cb : Callback R.G) :
    World.setWrapper str f r cb w = World.setWrapper str g r cb w :=
  same_of_rel (setWrapper_fuel h.ranked hr hf hg) fun _ => rfl

/-- **C63.** Assigning an action; its source fields are called as well. -/
theorem C63_setAction {w : World R} (h : Nested P depth w) (hr : P r) (hf : depth r < f)
    (hg : depth r < g) (hs : ∀ x ∈ Node.sourceRefs (w.obj r).node, P x ∧ depth x < f ∧ depth x < g)
    (cb : Callback R.G) : World.setAction str f r cb w = World.setAction str g r cb w :=
  same_of_rel (setAction_fuel h.ranked hr hf hg hs) fun _ => rfl

theorem tryMock_ended (hcb : cb.Ends) (args : List Val) (kw : Dict Val) :
    Ended (cb.tryMockCall args kw) := by
  unfold Callback.tryMockCall
  refine Ended.ite (Ended.error ordinary_of) ?_
  dsimp only
  cases cb.sig with
  | none => exact (hcb.1 _ _).bind fun _ => Ended.ok _
  | some ps => exact Ended.ite (Ended.ok _) (Ended.error ordinary_of)

theorem finally_ended {σ α : Type} {m : PyM σ α} {k : PyM σ PUnit} {s : σ} (hm : Ended (m s).1)
    (hk : Ended (k (m s).2).1) : Ended (PyM.finally_ m k s).1 := by
  unfold PyM.finally_
  rcases hms : m s with ⟨x, t⟩
  rw [hms] at hm hk
  dsimp only at hm hk ⊢
  rcases hq : k t with ⟨e | a, u⟩ <;> rw [hq] at hk
  · exact Ended.error (hk e rfl)
  · exact hm

/-- **C62.** Assigning a wrapper function ends. -/
theorem C62_setWrapper {w : World R} (ht : TypedOn V P w) (h : EndsOn P depth w) (hr : P r)
    (hf : depth r < f) (hcb : cb.Ends) : Ended (World.setWrapper str f r cb w).1 := by
  have hk : ∀ c ∈ (w.obj r).children, HaltsAs (HaltInv V P w) (call str f c) (V c) := fun c hc =>
    call_halts str h f c ((h r hr).2.2 c hc).1 (((h r hr).2.2 c hc).2.trans hf)
  unfold Attrs.children at hk
  have hfin : ∀ v, Alike w v → Ended (assignAndReset f r cb v).1 := fun v hv =>
    assign_halts (EndsOn.ranked h) hr hf v hv.nodesAs
  have hw : HaltInv V P w w := ⟨ht, fun _ => rfl⟩
  rcases hn : (w.obj r).node with _ | node
  · unfold World.setWrapper
    rw [run_get_bind, hn]; exact Ended.error ordinary_of
  · rw [hn] at hk
    cases node with
    | wrapOne s =>
      rw [setWrapper_one str f r s cb w hn]
      have hc := hk s (by simp [Node.childRefs])
      refine finally_ended ?_ (hfin _ ?_)
      · exact (hc.halts none trivial).bind (hc.contract none trivial)
          (fun _ _ => Halts.lift (tryMock_ended hcb _ _)) w hw
      · exact ((hc.contract none trivial).keeps.bind fun v => Keeps.lift _ _) w hw |>.2
    | wrapMany ss =>
      rw [setWrapper_many str f r ss cb w hn]
      have hd : Halts (HaltInv V P w) (trialMany str f ss) ∧
          Keeps (HaltInv V P w) (trialMany str f ss) := by
        have hone : ∀ ke ∈ ss.map (fun ks => (ks.1, (call str f ks.2 : Child (World R)))),
            Halts (HaltInv V P w) (do return (ke.1, ← ke.2 none)) ∧ 
            Keeps (HaltInv V P w) (do return (ke.1, ← ke.2 none) : PyM (World R) (String × Val)) := by
          intro ke hke
          obtain ⟨ks, hks, rfl⟩ := List.mem_map.1 hke
          have hc := hk ks.2 (List.mem_map_of_mem hks)
          exact ⟨(hc.halts none trivial).bind (hc.contract none trivial) fun _ _ => Halts.pure _,
            (hc.contract none trivial).keeps.bind fun v => Keeps.pure _ _⟩
        refine ⟨mapPyM_halts (Q := fun _ => True) (fun ke hke => (hone ke hke).1) fun ke hke v hv =>
          ⟨(hone ke hke).2 v hv, fun _ _ => trivial⟩, mapPyM_keeps fun ke hke => (hone ke hke).2⟩
      refine Halts.bind' hd.1 hd.2 (fun kw v hv => finally_ended (tryMock_ended hcb _ _) ?_) w hw
      exact hfin v hv.2
    | _ =>
      unfold World.setWrapper
      rw [run_get_bind, hn]; exact Ended.error ordinary_of

/-- **C62.** Assigning an action ends. -/
theorem C62_setAction {w : World R} (ht : TypedOn V P w) (h : EndsOn P depth w) (hr : P r)
    (hf : depth r < f) (hcb : cb.Ends) (hs : ∀ x ∈ Node.sourceRefs (w.obj r).node, P x ∧ depth x < f)
    (hv : ∀ args kwargs, cb.Yields args kwargs (V r)) : Ended (World.setAction str f r cb w).1 := by
  unfold World.setAction
  rw [run_get_bind]
  rcases hn : (w.obj r).node with _ | node
  · exact Ended.error ordinary_of
  · rw [hn] at hs
    cases node with
    | basedOn src single =>
      have ht' : TypedOn V P (w.upd r fun a => { a with wrapper := some cb }) := by
        refine typed_upd' ht r (fun a => { a with wrapper := some cb }) rfl fun _ _ => ?_
        unfold Attrs.Typed
        dsimp only
        rw [hn]
        rintro cb' ⟨⟩
        exact hv
      have h' : EndsOn P depth (w.upd r fun a => { a with wrapper := some cb }) := by
        intro x hx
        rw [upd_obj]
        by_cases hxr : x = r
        · subst hxr
          rw [if_pos rfl]
          refine ⟨?_, (h x hx).2⟩
          unfold Attrs.Tame
          dsimp only
          rw [hn]
          rintro cb' ⟨⟩
          exact hcb
        · rw [if_neg hxr]; exact h x hx
      generalize hu : (w.upd r fun a => { a with wrapper := some cb }) = u at ht' h'
      change Ended ((BasedOnFields.trial _ >>= fun args => PyM.finally_
        (PyM.lift (cb.tryMockCall args.1 args.2)) (reset f r)) _).1
      rw [hu]
      have hk : ∀ x ∈ src, HaltsAs (HaltInv V P u) (call str f x) (V x) := fun x hx =>
        call_halts str h' f x (hs x hx).1 (hs x hx).2
      have htrial : Halts (HaltInv V P u) (BasedOnFields.trial
          (sourceGroup (fun x => call str f x none) (reset f) (seed f) w src single)) ∧
          Keeps (HaltInv V P u) (BasedOnFields.trial
          (sourceGroup (fun x => call str f x none) (reset f) (seed f) w src single)) := by
        unfold BasedOnFields.trial sourceGroup
        dsimp only
        have hone : ∀ l : List Ref, (∀ x ∈ l, x ∈ src) → ∀ fd ∈ (l.map fun x =>
            ({ name := (w.obj x).name
               previous := fun v => (v.obj x).cache
               multiValued := multiValued x
               call := call str f x none
               reset := reset f x
               seed := seed f x } : SourceField (World R))),
            Halts (HaltInv V P u) (do return (fd.name, ← fd.call)) ∧
            Keeps (HaltInv V P u) (do return (fd.name, ← fd.call) : PyM (World R) (String × Val)) := by
          intro l hl fd hfd
          obtain ⟨x, hx, rfl⟩ := List.mem_map.1 hfd
          have hc := hk x (hl x hx)
          exact ⟨(hc.halts none trivial).bind (hc.contract none trivial) fun _ _ => Halts.pure _,
            (hc.contract none trivial).keeps.bind fun v => Keeps.pure _ _⟩
        have hm : ∀ l : List Ref, (∀ x ∈ l, x ∈ src) →
            Halts (HaltInv V P u) (mapPyM (fun (fd : SourceField (World R)) => do
              return (fd.name, ← fd.call)) (l.map fun x =>
                { name := (w.obj x).name
                  previous := fun v => (v.obj x).cache
                  multiValued := multiValued x
                  call := call str f x none
                  reset := reset f x
                  seed := seed f x })) ∧
            Keeps (HaltInv V P u) (mapPyM (fun (fd : SourceField (World R)) => do
              return (fd.name, ← fd.call)) (l.map fun x =>
                { name := (w.obj x).name
                  previous := fun v => (v.obj x).cache
                  multiValued := multiValued x
                  call := call str f x none
                  reset := reset f x
                  seed := seed f x })) := fun l hl =>
          ⟨mapPyM_halts (Q := fun _ => True) (fun ke hke => (hone l hl ke hke).1) fun ke hke v hv =>
            ⟨(hone l hl ke hke).2 v hv, fun _ _ => trivial⟩,
            mapPyM_keeps fun ke hke => (hone l hl ke hke).2⟩
        rcases src with _ | ⟨x, _ | ⟨y, l⟩⟩
        · have := hm [] fun _ h => h
          exact ⟨this.1.bind' this.2 fun _ => Halts.pure _, this.2.bind fun _ => Keeps.pure _ _⟩
        · have hc := hk x (by simp)
          exact ⟨(hc.halts none trivial).bind (hc.contract none trivial) fun _ _ => Halts.pure _,
            (hc.contract none trivial).keeps.bind fun v => Keeps.pure _ _⟩
        · have := hm (x :: y :: l) fun _ h => h
          exact ⟨this.1.bind' this.2 fun _ => Halts.pure _, this.2.bind fun _ => Keeps.pure _ _⟩
      refine Halts.bind' htrial.1 htrial.2 (fun kw v hv => finally_ended (tryMock_ended hcb _ _) ?_)
        u ⟨ht', fun _ => rfl⟩
      exact World.reset_halts (EndsOn.ranked h') f r hr hf v hv.2.nodesAs
    | _ => exact Ended.error ordinary_of

end

/-! ### Constructors -/

theorem pyPow_ended (q : ℚ) (v : Val) : Ended (pyPow q v) := by
  unfold pyPow
  rcases v.asInt with _ | (n | n)
  · exact Ended.error ordinary_of
  · exact Ended.ok _
  · exact Ended.ite (Ended.error ordinary_of) (Ended.ok _)

theorem wordNumUnique_ended (q : Option ℚ) (is : Option (List Val)) : Ended (wordNumUnique q is) := by
  unfold wordNumUnique
  rcases q with _ | q
  · exact Ended.ok _
  rcases is with _ | is
  · exact Ended.ok _
  exact (Ended.mapPy (fun v => pyPow_ended q v) is).bind fun _ => Ended.ok _

theorem textNumUnique_ended (p q : Option ℚ) (is : Option (List Val)) :
    Ended (textNumUnique p q is) := by
  unfold textNumUnique
  rcases p with _ | p
  · exact Ended.ok _
  rcases q with _ | q
  · exact Ended.ok _
  rcases is with _ | is
  · exact Ended.ok _
  refine (Ended.mapPy (fun v => ?_) is).bind fun _ => Ended.ok _
  exact (pyPow_ended p v).bind fun _ => (toInt_ended v).bind fun _ => (pyPow_ended q _).bind
    fun _ => Ended.ok _

theorem numUnique_ended (r : Ref) (w : World R) : Ended (numUniqueValues r w).1 := by
  unfold numUniqueValues
  rw [run_get_bind]
  rcases (w.obj r).node with _ | node
  · exact Ended.error ordinary_of
  · cases node with
    | choice k =>
      refine Halts.bind' (I := fun _ => True) (fun v _ => onChoice_ended ?_) (fun _ _ => trivial)
        (fun _ => Halts.pure _) w trivial
      unfold Choice.numUniqueValues
      rw [Choice.self_bind]
      refine Halts.ite (I := fun _ => True) (fun _ => ?_)
        (fun _ _ _ => Choice.pyLenSet_halts _) _ trivial
      exact Choice.shuffledIndex_halts.bind' (fun _ _ => trivial) fun _ _ _ => Choice.pyLenSet_halts _
    | static =>
      exact Halts.bind' (I := fun _ => True) (fun _ _ => Choice.pyLenSet_halts (w.obj r).static.items)
        (fun _ _ => trivial) (fun _ => Halts.pure _) w trivial
    | sequential k =>
      exact Halts.bind' (I := fun _ => True) (fun _ _ => Choice.pyLenSet_halts (w.obj r).seq.items)
        (fun _ _ => trivial) (fun _ => Halts.pure _) w trivial
    | field n e rp g h => exact Ended.error ordinary_of
    | _ => exact Ended.ok _

section
variable {w : World R} {f g : Nat} {str : Val → List Char}

theorem alloc_endsOn (h : EndsOn (fun _ => True) id w) {a : Attrs R} (ht : a.Tame) (hf : a.Fed)
    (hc : ∀ c ∈ a.children, c < w.next) : EndsOn (fun _ => True) id (alloc a w).2 := by
  intro r _
  change ((if r = w.next then a else w.obj r) : Attrs R).Tame ∧ ((if r = w.next then a else w.obj r) : Attrs R).Fed ∧
    ∀ c ∈ ((if r = w.next then a else w.obj r) : Attrs R).children, _
  by_cases hr : r = w.next
  · rw [if_pos hr]
    exact ⟨ht, hf, fun c hcc => ⟨trivial, hr ▸ hc c hcc⟩⟩
  · rw [if_neg hr]; exact h r trivial

theorem alloc_nested (h : Nested (fun _ => True) id w) {a : Attrs R}
    (hc : ∀ c ∈ a.children, c < w.next) : Nested (fun _ => True) id (alloc a w).2 := by
  intro r _
  change ∀ c ∈ ((if r = w.next then a else w.obj r) : Attrs R).children, _
  by_cases hr : r = w.next
  · rw [if_pos hr]
    exact fun c hcc => ⟨trivial, hr ▸ hc c hcc⟩
  · rw [if_neg hr]; exact h r trivial

theorem updateWord_halts {I : World R → Prop} (r l c : Ref) : Halts I (updateWordNumUnique r l c) := by
  intro v _
  refine Halts.bind' (I := fun _ => True) (fun v _ => numUnique_ended c v) (fun _ _ => trivial)
    (fun q v _ => ?_) v trivial
  rw [run_get_bind]
  exact Halts.lift_bind (I := fun _ => True) (wordNumUnique_ended _ _) (fun _ _ => Halts.modify _) v
    trivial

theorem updateText_halts {I : World R → Prop} (r n wd sp : Ref) :
    Halts I (updateTextNumUnique r n wd sp) := by
  intro v _
  refine Halts.bind' (I := fun _ => True) (fun v _ => numUnique_ended wd v) (fun _ _ => trivial)
    (fun q => Halts.bind' (fun v _ => numUnique_ended sp v) (fun _ _ => trivial)
    fun p v _ => ?_) v trivial
  rw [run_get_bind]
  exact Halts.lift_bind (I := fun _ => True) (textNumUnique_ended _ _ _) (fun _ _ => Halts.modify _) v
    trivial

theorem ended_bind {σ α β : Type} {m : PyM σ α} {k : α → PyM σ β} {s : σ} (hm : Ended (m s).1)
    (hk : ∀ a t, Ended (k a t).1) : Ended ((m >>= k) s).1 := by
  rcases hq : m s with ⟨e | a, t⟩
  · rw [PyM.bind_err hq]
    rw [hq] at hm
    exact Ended.error (hm e rfl)
  · rw [PyM.bind_ok hq]; exact hk a t

theorem halts_all {σ α : Type} {I : σ → Prop} {m : PyM σ α} (h : Halts (fun _ => True) m) :
    Halts I m := fun s _ => h s trivial

/-- **C62.** `Word(...)` ends. -/
theorem C62_newWord (h : EndsOn (fun _ => True) id w) {l c : Ref} (hl : l < w.next) (hc : c < w.next)
    (hf : w.next < f) (s : Option Int) : Ended (World.newWord f l c s w).1 := by
  have he := alloc_endsOn h (a := { blank with node := some (.word l c), seed := s }) trivial trivial
    (by simp [Attrs.children, Node.childRefs, hl, hc])
  exact (World.reset_halts (EndsOn.ranked he) f w.next trivial hf).bind' (reset_nodes _ _) (fun _ =>
    halts_all ((updateWord_halts _ _ _).bind' (fun _ _ => trivial) fun _ => Halts.pure _))
    _ fun _ => rfl

theorem newText_ended (h : EndsOn (fun _ => True) id w) {n wd sp : Ref} (hn : n < w.next)
    (hw : wd < w.next) (hsp : sp < w.next) (hf : w.next < f) (s : Option Int) :
    Ended (World.newText f n wd (some sp) s w).1 := by
  have he := alloc_endsOn h (a := { blank with node := some (.text n wd sp), seed := s }) trivial
    trivial (by simp [Attrs.children, Node.childRefs, hn, hw, hsp])
  exact (World.reset_halts (EndsOn.ranked he) f w.next trivial hf).bind' (reset_nodes _ _) (fun _ =>
    halts_all ((updateText_halts _ _ _ _).bind' (fun _ _ => trivial) fun _ => Halts.pure _))
    _ fun _ => rfl

theorem newStatic_endsOn (h : EndsOn (fun _ => True) id w) (x : Val) :
    EndsOn (fun _ => True) id (World.newStatic x w).2 :=
  alloc_endsOn h trivial trivial (by simp [Attrs.children, Node.childRefs])

/-- **C62.** `Text(...)` ends, with or without a `sep_emitter`. -/
theorem C62_newText (h : EndsOn (fun _ => True) id w) {n wd : Ref} {sep : Option Ref}
    (hn : n < w.next) (hw : wd < w.next) (hsp : ∀ sp, sep = some sp → sp < w.next)
    (hf : w.next + 1 < f) (s : Option Int) : Ended (World.newText f n wd sep s w).1 := by
  cases sep with
  | some sp => exact newText_ended h hn hw (hsp sp rfl) (Nat.lt_of_succ_lt hf) s
  | none =>
    exact newText_ended (w := (World.newStatic (.str [' ']) w).2) (newStatic_endsOn h _)
      (Nat.lt_succ_of_lt hn) (Nat.lt_succ_of_lt hw) (Nat.lt_succ_self w.next) hf s

theorem newField_ended (h : EndsOn (fun _ => True) id w) {name : String} {e rp g : Ref}
    {hide : Bool} (he : e < w.next) (hr : rp < w.next) (hg : g < w.next) (hf : w.next < f)
    (s : Option Int) : Ended (World.newField f name e (some rp) (some g) hide s w).1 := by
  have he := alloc_endsOn h (a := { blank with node := some (.field name e rp g hide), seed := s })
    trivial trivial (by simp [Attrs.children, Node.childRefs, he, hr, hg])
  exact (World.reset_halts (EndsOn.ranked he) f w.next trivial hf).bind' (reset_nodes _ _) (fun _ =>
    Halts.pure _) _ fun _ => rfl

/-- **C62.** `Field(...)` ends, with or without `repeat` and `gate`. -/
theorem C62_newField (h : EndsOn (fun _ => True) id w) {name : String} {e : Ref} {rep gate : Option Ref}
    {hide : Bool} (he : e < w.next) (hr : ∀ x, rep = some x → x < w.next)
    (hg : ∀ x, gate = some x → x < w.next) (hf : w.next + 2 < f) (s : Option Int) :
    Ended (World.newField f name e rep gate hide s w).1 := by
  have hs := newStatic_endsOn h .none
  have hlt : ∀ {x y : Nat}, x < y → x < y + 1 := fun h => Nat.lt_succ_of_lt h
  rcases rep with _ | rp <;> rcases gate with _ | g
  · exact newField_ended (w := (World.newStatic (.bool true) (World.newStatic .none w).2).2)
      (newStatic_endsOn hs _) (hlt (hlt he)) (hlt (Nat.lt_succ_self w.next))
      (Nat.lt_succ_self (w.next + 1)) hf s
  · exact newField_ended (w := (World.newStatic .none w).2) hs (hlt he) (Nat.lt_succ_self w.next)
      (hlt (hg g rfl)) (Nat.lt_of_succ_lt hf) s
  · exact newField_ended (w := (World.newStatic (.bool true) w).2) (newStatic_endsOn h _) (hlt he)
      (hlt (hr rp rfl)) (Nat.lt_succ_self w.next) (Nat.lt_of_succ_lt hf) s
  · exact newField_ended h he (hr rp rfl) (hg g rfl) (Nat.lt_of_succ_lt (Nat.lt_of_succ_lt hf)) s

theorem typed_unset {node : Node} (s : Option Int) (V : Ref → Val → Prop) (r : Ref)
    (hn : Node.hasWrapper (some node) = true) :
    ({ blank with node := some node, seed := s } : Attrs R).Typed V r := by
  unfold Attrs.Typed
  dsimp only
  cases node with
  | wrapOne s => rintro cb ⟨⟩
  | wrapMany ss => rintro cb ⟨⟩
  | basedOn a b => rintro cb ⟨⟩
  | _ => cases hn

theorem tame_unset {node : Node} (s : Option Int) (hn : Node.hasWrapper (some node) = true) :
    ({ blank with node := some node, seed := s } : Attrs R).Tame ∧
    ({ blank with node := some node, seed := s } : Attrs R).Fed := by
  unfold Attrs.Tame Attrs.Fed
  dsimp only
  cases node with
  | wrapOne s => exact ⟨by rintro cb ⟨⟩, trivial⟩
  | wrapMany ss => exact ⟨by rintro cb ⟨⟩, trivial⟩
  | basedOn a b => exact ⟨by rintro cb ⟨⟩, trivial⟩
  | _ => cases hn

theorem newWrap_ended (ht : AllTyped V w) (h : EndsOn (fun _ => True) id w) {node : Node}
    (hn : Node.hasWrapper (some node) = true) (hc : ∀ c ∈ Node.childRefs (some node), c < w.next)
    (hf : w.next < f) {cb : Callback R.G} (hcb : cb.Ends) (s : Option Int) :
    Ended ((alloc { blank with node := some node, seed := s } >>= fun r => reset f r >>= fun _ =>
      World.setWrapper str f r cb >>= fun _ => (pure r : PyM (World R) Ref)) w).1 := by
  have he := alloc_endsOn h (tame_unset s hn).1 (tame_unset s hn).2 hc
  have ht' := alloc_typed ht _ (typed_unset s V w.next hn)
  refine Halts.bind' (I := fun v => HaltInv V (fun _ => True)
      (alloc { blank with node := some node, seed := s } w).2 v) ?_ (reset_haltInv f trivial)
      (fun _ v hv => ?_) _ ⟨ht', fun _ => rfl⟩
  · exact fun v hv => World.reset_halts (EndsOn.ranked he) f w.next trivial hf v hv.2.nodesAs
  · exact ended_bind (C62_setWrapper hv.1 (EndsOn.alike he hv.2) trivial hf hcb) fun _ _ => Ended.ok _

/-- **C62.** `WrapOne(...)` ends. -/
theorem C62_newWrapOne (ht : AllTyped V w) (h : EndsOn (fun _ => True) id w) {source : Ref}
    (hc : source < w.next) (hf : w.next < f) {cb : Callback R.G} (hcb : cb.Ends) (s : Option Int) :
    Ended (World.newWrapOne str f source cb s w).1 :=
  newWrap_ended ht h rfl (by simp [Node.childRefs, hc]) hf hcb s

/-- **C62.** `WrapMany(...)` ends. -/
theorem C62_newWrapMany (ht : AllTyped V w) (h : EndsOn (fun _ => True) id w) {sources : Dict Ref}
    (hc : ∀ ks ∈ sources, ks.2 < w.next) (hf : w.next < f) {cb : Callback R.G} (hcb : cb.Ends)
    (s : Option Int) : Ended (World.newWrapMany str f sources cb s w).1 :=
  newWrap_ended ht h rfl (fun c hcc => by
    obtain ⟨ks, hks, rfl⟩ := List.mem_map.1 hcc
    exact hc ks hks) hf hcb s

/-- **C62.** `BasedOnFields(...)` ends. -/
theorem C62_newBasedOnFields (ht : AllTyped V w) (h : EndsOn (fun _ => True) id w)
    {source : List Ref} {single : Bool} (hc : ∀ x ∈ source, x < w.next) (hf : w.next < f)
    {cb : Callback R.G} (hcb : cb.Ends) (hv : ∀ v, V w.next v) (s : Option Int) :
    Ended (World.newBasedOnFields str f source single cb s w).1 := by
  have he := alloc_endsOn h (tame_unset (node := .basedOn source single) s rfl).1
    (tame_unset (node := .basedOn source single) s rfl).2 (by simp [Attrs.children, Node.childRefs])
  have ht' := alloc_typed ht _ (typed_unset (node := .basedOn source single) s V w.next rfl)
  have hn : ((alloc ({ blank with node := some (.basedOn source single), seed := s } : Attrs R) w).2.obj
      w.next).node = some (.basedOn source single) := by
    change ((if w.next = w.next then _ else _) : Attrs R).node = _
    rw [if_pos rfl]
  have hrng : Keeps (fun v : World R => AllTyped V v ∧ EndsOn (fun _ => True) id v ∧
      (v.obj w.next).node = some (.basedOn source single)) (newRng w.next s) := by
    rintro v ⟨h1, h2, h3⟩
    refine ⟨newRng_keeps w.next s v h1, ?_⟩
    obtain ⟨g, e, h4, _⟩ := newRng_eq w.next s v
    rw [h4]
    refine ⟨fun r _ => ?_, ?_⟩
    · rw [obj_entropy, upd_obj]
      by_cases hr : r = w.next
      · rw [if_pos hr]; exact hr ▸ h2 r trivial
      · rw [if_neg hr]; exact h2 r trivial
    · rw [obj_entropy, upd_obj, if_pos rfl]; exact h3
  refine Halts.bind' (I := fun v : World R => AllTyped V v ∧ EndsOn (fun _ => True) id v ∧
      (v.obj w.next).node = some (.basedOn source single)) (fun v _ => newRng_ended _ _ v) hrng
    (fun _ v hv' => ended_bind (C62_setAction hv'.1 hv'.2.1 trivial hf hcb ?_ ?_) fun _ _ => Ended.ok _)
    _ ⟨ht', he, hn⟩
  · rw [hv'.2.2]
    exact fun x hx => ⟨trivial, (hc x hx).trans hf⟩
  · exact fun args kwargs => .all cb args kwargs hv

/-! ### Constructors and the recursion limit -/

theorem updateWord_nodes {nodes : Ref → Option Node} (r l c : Ref) :
    Keeps (NodesAs (R := R) nodes) (updateWordNumUnique r l c) :=
  Keeps.bind (fun v hv => by rw [numUniqueValues_state]; exact hv) fun q v hv => by
    rw [run_get_bind]
    exact Keeps.bind (I := NodesAs (R := R) nodes) (Keeps.lift _ _) (fun q v hv =>
      nodesAs_upd hv r (fun a => { a with numUnique := q }) v.entropy rfl) v hv

theorem updateText_nodes {nodes : Ref → Option Node} (r n wd sp : Ref) :
    Keeps (NodesAs (R := R) nodes) (updateTextNumUnique r n wd sp) :=
  Keeps.bind (fun v hv => by rw [numUniqueValues_state]; exact hv) fun _ =>
    Keeps.bind (fun v hv => by rw [numUniqueValues_state]; exact hv) fun q v hv => by
    rw [run_get_bind]
    exact Keeps.bind (I := NodesAs (R := R) nodes) (Keeps.lift _ _) (fun q v hv =>
      nodesAs_upd hv r (fun a => { a with numUnique := q }) v.entropy rfl) v hv

/-- Creating and resetting an object, then something else that does not depend on the limit. -/
theorem make_fuel {β : Type} (h : Nested (fun _ => True) id w) {a : Attrs R}
    (hc : ∀ c ∈ a.children, c < w.next) (hf : w.next < f) (hg : w.next < g)
    {k k' : PyM (World R) β} (hk : Rel (SameAs fun x => ((alloc a w).2.obj x).node) k k') :
    ((reset f w.next >>= fun _ => k) : PyM (World R) β) (alloc a w).2 =
    ((reset g w.next >>= fun _ => k') : PyM (World R) β) (alloc a w).2 :=
  same_of_rel ((reset_fuel (alloc_nested h hc).ranked f g w.next trivial hf hg).bind fun _ => hk)
    fun _ => rfl

/-- **C63.** `Word(...)`. -/
theorem C63_newWord (h : Nested (fun _ => True) id w) {l c : Ref} (hl : l < w.next) (hc : c < w.next)
    (hf : w.next < f) (hg : w.next < g) (s : Option Int) :
    World.newWord f l c s w = World.newWord g l c s w :=
  make_fuel h (a := { blank with node := some (.word l c), seed := s })
    (by simp [Attrs.children, Node.childRefs, hl, hc]) hf hg
    ((Keeps.rel (updateWord_nodes _ _ _)).bind fun _ => Rel.pure _ _)

theorem newText_fuel (h : Nested (fun _ => True) id w) {n wd sp : Ref} (hn : n < w.next)
    (hw : wd < w.next) (hsp : sp < w.next) (hf : w.next < f) (hg : w.next < g) (s : Option Int) :
    World.newText f n wd (some sp) s w = World.newText g n wd (some sp) s w :=
  make_fuel h (a := { blank with node := some (.text n wd sp), seed := s })
    (by simp [Attrs.children, Node.childRefs, hn, hw, hsp]) hf hg
    ((Keeps.rel (updateText_nodes _ _ _ _)).bind fun _ => Rel.pure _ _)

theorem newStatic_nested (h : Nested (fun _ => True) id w) (x : Val) :
    Nested (fun _ => True) id (World.newStatic x w).2 :=
  alloc_nested h (by simp [Attrs.children, Node.childRefs])

/-- **C63.** `Text(...)`. -/
theorem C63_newText (h : Nested (fun _ => True) id w) {n wd : Ref} {sep : Option Ref}
    (hn : n < w.next) (hw : wd < w.next) (hsp : ∀ sp, sep = some sp → sp < w.next)
    (hf : w.next + 1 < f) (hg : w.next + 1 < g) (s : Option Int) :
    World.newText f n wd sep s w = World.newText g n wd sep s w := by
  cases sep with
  | some sp => exact newText_fuel h hn hw (hsp sp rfl) (Nat.lt_of_succ_lt hf) (Nat.lt_of_succ_lt hg) s
  | none =>
    exact newText_fuel (w := (World.newStatic (.str [' ']) w).2) (newStatic_nested h _)
      (Nat.lt_succ_of_lt hn) (Nat.lt_succ_of_lt hw) (Nat.lt_succ_self w.next) hf hg s

theorem newField_fuel (h : Nested (fun _ => True) id w) {name : String} {e rp gt : Ref}
    {hide : Bool} (he : e < w.next) (hr : rp < w.next) (hgt : gt < w.next) (hf : w.next < f)
    (hg : w.next < g) (s : Option Int) :
    World.newField f name e (some rp) (some gt) hide s w =
      World.newField g name e (some rp) (some gt) hide s w :=
  make_fuel h (a := { blank with node := some (.field name e rp gt hide), seed := s })
    (by simp [Attrs.children, Node.childRefs, he, hr, hgt]) hf hg (Rel.pure _ _)

/-- **C63.** `Field(...)`. -/
theorem C63_newField (h : Nested (fun _ => True) id w) {name : String} {e : Ref}
    {rep gate : Option Ref} {hide : Bool} (he : e < w.next) (hr : ∀ x, rep = some x → x < w.next)
    (hgt : ∀ x, gate = some x → x < w.next) (hf : w.next + 2 < f) (hg : w.next + 2 < g)
    (s : Option Int) :
    World.newField f name e rep gate hide s w = World.newField g name e rep gate hide s w := by
  have hs := newStatic_nested h .none
  have hlt : ∀ {x y : Nat}, x < y → x < y + 1 := fun h => Nat.lt_succ_of_lt h
  have hf1 := Nat.lt_of_succ_lt hf
  have hg1 := Nat.lt_of_succ_lt hg
  rcases rep with _ | rp <;> rcases gate with _ | gt
  · exact newField_fuel (w := (World.newStatic (.bool true) (World.newStatic .none w).2).2)
      (newStatic_nested hs _) (hlt (hlt he)) (hlt (Nat.lt_succ_self w.next))
      (Nat.lt_succ_self (w.next + 1)) hf hg s
  · exact newField_fuel (w := (World.newStatic .none w).2) hs (hlt he) (Nat.lt_succ_self w.next)
      (hlt (hgt gt rfl)) hf1 hg1 s
  · exact newField_fuel (w := (World.newStatic (.bool true) w).2) (newStatic_nested h _) (hlt he)
      (hlt (hr rp rfl)) (Nat.lt_succ_self w.next) hf1 hg1 s
  · exact newField_fuel h he (hr rp rfl) (hgt gt rfl) (Nat.lt_of_succ_lt hf1) (Nat.lt_of_succ_lt hg1) s

/-- **C63.** `WrapOne(...)`. -/
theorem C63_newWrapOne (h : Nested (fun _ => True) id w) {source : Ref} (hc : source < w.next)
    (hf : w.next < f) (hg : w.next < g) (cb : Callback R.G) (s : Option Int) :
    World.newWrapOne str f source cb s w = World.newWrapOne str g source cb s w :=
  have hcs : ∀ c ∈ ({ blank with node := some (.wrapOne source), seed := s } : Attrs R).children,
    c < w.next := by simp [Attrs.children, Node.childRefs, hc]
  make_fuel h hcs hf hg ((setWrapper_fuel (alloc_nested h hcs).ranked trivial hf hg).bind fun _ =>
    Rel.pure _ _)

/-- **C63.** `WrapMany(...)`. -/
theorem C63_newWrapMany (h : Nested (fun _ => True) id w) {sources : Dict Ref}
    (hc : ∀ ks ∈ sources, ks.2 < w.next) (hf : w.next < f) (hg : w.next < g) (cb : Callback R.G)
    (s : Option Int) : World.newWrapMany str f sources cb s w = World.newWrapMany str g sources cb s w :=
  have hcs : ∀ c ∈ ({ blank with node := some (.wrapMany sources), seed := s } : Attrs R).children,
    c < w.next := fun c hcc => by
      obtain ⟨ks, hks, rfl⟩ := List.mem_map.1 hcc
      exact hc ks hks
  make_fuel h hcs hf hg ((setWrapper_fuel (alloc_nested h hcs).ranked trivial hf hg).bind fun _ =>
    Rel.pure _ _)

/-- **C63.** `BasedOnFields(...)`. -/
theorem C63_newBasedOnFields (h : Nested (fun _ => True) id w) {source : List Ref} {single : Bool}
    (hc : ∀ x ∈ source, x < w.next) (hf : w.next < f) (hg : w.next < g) (cb : Callback R.G)
    (s : Option Int) :
    World.newBasedOnFields str f source single cb s w =
      World.newBasedOnFields str g source single cb s w := by
  have hcs : ∀ c ∈ ({ blank with node := some (.basedOn source single), seed := s } : Attrs R).children,
    c < w.next := by simp [Attrs.children, Node.childRefs]
  refine same_of_rel (w := (alloc _ w).2) (nodes := fun x => ((alloc _ w).2.obj x).node)
    ((Keeps.rel (newRng_nodes w.next s)).bind fun _ =>
      (setAction_fuel (alloc_nested h hcs).ranked trivial hf hg fun x hx => ?_).bind fun _ =>
        Rel.pure _ _) fun _ => rfl
  have hn : ((alloc ({ blank with node := some (.basedOn source single), seed := s } : Attrs R) w).2.obj
      w.next).node = some (.basedOn source single) := by
    change ((if w.next = w.next then _ else _) : Attrs R).node = _
    rw [if_pos rfl]
  rw [hn] at hx
  exact ⟨trivial, (hc x hx).trans hf, (hc x hx).trans hg⟩

end

/-! ### Programs -/

section
variable {str : Val → List Char} {w0 w : World R}

theorem Steps.nested (h : Steps str w0 w) (h0 : w0.Blank) : Nested (fun _ => True) id w :=
  fun r _ c hc => ⟨trivial, (h.grounded (.blank h0)).older r c hc⟩

/-- **C63.** In programs that only construct and use objects, every recursion limit above the number
of an object gives the same results. -/
theorem C63_program (h : Steps str w0 w) (h0 : w0.Blank) {f g : Nat} {r : Ref} (hf : r < f)
    (hg : r < g) :
    (∀ arg, World.call str f r arg w = World.call str g r arg w) ∧
    World.reset f r w = World.reset g r w ∧
    ∀ s, World.seed f r s w = World.seed g r s w :=
  ⟨C63_call str (h.nested h0) trivial hf hg, C63_reset (h.nested h0) trivial hf hg,
    C63_seed (h.nested h0) trivial hf hg⟩

/-- **C62.** In such programs, constructing wrappers and actions around existing objects ends. -/
theorem C62_program_wrap (h : Steps str w0 w) (h0 : w0.Blank) (htame : ∀ r, (w.obj r).Tame)
    {fuel : Nat} (hf : w.next < fuel) {cb : Callback R.G} (hcb : cb.Ends) (s : Option Int) :
    (∀ source, source < w.next → Ended (World.newWrapOne str fuel source cb s w).1) ∧
    (∀ sources : Dict Ref, (∀ ks ∈ sources, ks.2 < w.next) →
      Ended (World.newWrapMany str fuel sources cb s w).1) ∧
    ∀ source single, (∀ x ∈ source, x < w.next) →
      Ended (World.newBasedOnFields str fuel source single cb s w).1 := by
  have ht : AllTyped (fun r v => Emits w r v ∨ w.next ≤ r) w :=
    built_typed (h.built h0 fun r hr v => ⟨fun h => h.resolve_right (Nat.not_le.2 hr), .inl⟩)
  have he := h.endsOn h0 htame
  exact ⟨fun _ hs => C62_newWrapOne ht he hs hf hcb s, fun _ hs => C62_newWrapMany ht he hs hf hcb s,
    fun _ _ hs => C62_newBasedOnFields ht he hs hf hcb (fun _ => .inr le_rfl) s⟩

end

/-- Six and a thousand are both enough for five objects. -/
example (arg : Option Val) :
    World.call demoStr 6 4 arg count6 = World.call demoStr 1000 4 arg count6 :=
  (C63_program count_steps (fun _ => rfl) (by decide) (by decide)).1 arg

/-- Three is just enough, two is not, for a text of words of letters. -/
example : (World.call demoStr 3 4 none count5).1 ≠ .error .recursion ∧
    (World.call demoStr 2 4 none count5).1 = .error .recursion := by
  decide +kernel

/-- `lambda x: x`, checked by calling it. -/
def identity : Callback demoRng.G where
  sig := none
  run args _ := match args with | [x] => .ok x | _ => .error .typeError
  runRng args _ g := (match args with | [x] => .ok x | _ => .error .typeError, g)

theorem identity_ends : identity.Ends := by
  constructor
  · intro args kwargs
    rcases args with _ | ⟨x, _ | ⟨y, l⟩⟩
    · exact Ended.error ordinary_of
    · exact Ended.ok _
    · exact Ended.error ordinary_of
  · intro args kwargs g
    rcases args with _ | ⟨x, _ | ⟨y, l⟩⟩
    · exact Ended.error ordinary_of
    · exact Ended.ok _
    · exact Ended.error ordinary_of

example : Ended (World.newWrapOne demoStr 6 4 identity none count6).1 :=
  (C62_program_wrap count_steps (fun _ => rfl) count_tame (by decide +kernel) identity_ends none).1 4
    (by decide +kernel)

end Fauxdoc
