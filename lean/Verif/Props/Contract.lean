import Verif.Spec.Build
import Verif.Spec.WorldDemo
import Verif.Proofs.Contract3
import Verif.Props.Seeds2
import Verif.Props.Fixed
/-
C29: every emitter gives exactly as many values as asked for.
-/
set_option linter.unusedSectionVars false
namespace Fauxdoc
open PyM World
variable {K : Type} [Field K] [LinearOrder K] [FloorRing K] [IsStrictOrderedRing K] {R : Rng K}

/-- All objects emit only values in `V`. -/
abbrev AllTyped (V : Ref → Val → Prop) (w : World R) : Prop := TypedOn V (fun _ => True) w

theorem allTyped_iff {V : Ref → Val → Prop} {w : World R} :
    AllTyped V w ↔ ∀ r, (w.obj r).Typed V r :=
  ⟨fun h r => (h r trivial).1, fun h r _ => ⟨h r, fun _ _ => trivial⟩⟩

variable {V : Ref → Val → Prop} {str : Val → List Char}

theorem alloc_typed {w : World R} (h : AllTyped V w) (a : Attrs R) (ha : a.Typed V w.next) :
    AllTyped V (alloc a w).2 := by
  rw [allTyped_iff] at h ⊢
  intro r
  by_cases hr : r = w.next
  · subst hr
    change (if w.next = w.next then a else w.obj w.next).Typed V w.next
    rw [if_pos rfl]
    exact ha
  · change (if r = w.next then a else w.obj r).Typed V r
    rw [if_neg hr]
    exact h r

theorem update_typed {w : World R} (h : AllTyped V w) (r : Ref) (f : Attrs R → Attrs R)
    (hf : (w.obj r).Typed V r → (f (w.obj r)).Typed V r) (e : Nat) :
    AllTyped V { w.upd r f with entropy := e } := by
  rw [allTyped_iff] at h ⊢
  intro x
  by_cases hx : x = r
  · subst hx
    change (if x = x then f (w.obj x) else w.obj x).Typed V x
    rw [if_pos rfl]
    exact hf (h x)
  · change (if x = r then f (w.obj r) else w.obj x).Typed V x
    rw [if_neg hx]
    exact h x

theorem numUnique_keeps (r : Ref) : Keeps (AllTyped (R := R) V) (numUniqueValues r) := by
  intro w hw
  rw [numUniqueValues_state]
  exact hw

theorem setUnique_keeps (r : Ref) (n : Option ℚ) :
    Keeps (AllTyped (R := R) V) (PyM.modify (upd r fun a => { a with numUnique := n })) := by
  intro w hw
  refine update_typed hw r (fun a => { a with numUnique := n }) (fun h => ?_) w.entropy
  unfold Attrs.Typed at h ⊢
  exact h

theorem allCall_keeps (str : Val → List Char) (fuel : Nat) (r : Ref) {arg : Option Val}
    (ha : ArgOK arg) : Keeps (AllTyped (R := R) V) (call str fuel r arg) :=
  (call_typed str fuel r trivial arg ha).keeps

theorem assign_typed {r : Ref} {cb : Callback R.G} (fuel : Nat) {w : World R} (hw : AllTyped V w)
    (h : (w.obj r).Typed V r → ({ w.obj r with wrapper := some cb } : Attrs R).Typed V r) :
    AllTyped V (assignAndReset fuel r cb w).2 := by
  unfold assignAndReset
  rw [run_modify_bind]
  exact reset_typed fuel r trivial _
    (update_typed hw r (fun a => { a with wrapper := some cb }) h w.entropy)

theorem setWrapper_typed (fuel : Nat) (r : Ref) (cb : Callback R.G) {w : World R}
    (hw : AllTyped V w)
    (h1 : ∀ s, (w.obj r).node = some (.wrapOne s) → ∀ v, V s v → cb.Yields [v] [] (V r))
    (h2 : ∀ ss, (w.obj r).node = some (.wrapMany ss) → ∀ d : Dict Val,
      List.Forall₂ (fun ks kv => kv.1 = ks.1 ∧ V ks.2 kv.2) ss d → cb.Yields [] d (V r)) :
    AllTyped V (World.setWrapper str fuel r cb w).2 := by
  rcases hn : (w.obj r).node with _ | node
  · unfold World.setWrapper
    rw [run_get_bind, hn]; exact hw
  · cases node with
    | wrapOne s =>
      rw [setWrapper_one str fuel r s cb w hn, finally_state]
      have hk : AllTyped V (trialOne str fuel s cb w).2 :=
        ((allCall_keeps str fuel s (arg := none) trivial).bind fun v => Keeps.lift _ _) w hw
      have hf := (trialOne_frame str fuel r s cb w hn).node r
      refine assign_typed fuel hk fun _ => ?_
      unfold Attrs.Typed
      dsimp only
      rw [hf, hn]
      rintro cb' ⟨⟩
      exact h1 s hn
    | wrapMany ss =>
      rw [setWrapper_many str fuel r ss cb w hn, bind_apply]
      have hk : AllTyped V (trialMany str fuel ss w).2 := by
        refine mapPyM_keeps ?_ w hw
        intro ke hke
        obtain ⟨ks, _, rfl⟩ := List.mem_map.1 hke
        exact (allCall_keeps str fuel ks.2 (arg := none) trivial).bind fun v => Keeps.pure _ _
      have hf := (trialMany_frame str fuel r ss w hn).node r
      rcases hq : trialMany str fuel ss w with ⟨e | kw, w1⟩ <;> rw [hq] at hk hf
      · exact hk
      · dsimp only at hk hf ⊢
        rw [finally_state]
        change AllTyped V (assignAndReset fuel r cb w1).2
        refine assign_typed fuel hk fun _ => ?_
        unfold Attrs.Typed
        dsimp only
        rw [hf, hn]
        rintro cb' ⟨⟩
        exact h2 ss hn
    | _ =>
      unfold World.setWrapper
      rw [run_get_bind, hn]; exact hw

theorem setAction_typed (fuel : Nat) (r : Ref) (cb : Callback R.G) {w : World R}
    (hw : AllTyped V w)
    (hv : ∀ src single, (w.obj r).node = some (.basedOn src single) →
      ∀ args kwargs, cb.Yields args kwargs (V r)) :
    AllTyped V (World.setAction str fuel r cb w).2 := by
  unfold World.setAction
  rw [run_get_bind]
  rcases hn : (w.obj r).node with _ | node
  · exact hw
  · cases node with
    | basedOn src single =>
      have h1 : AllTyped V (w.upd r fun a => { a with wrapper := some cb }) := by
        refine update_typed hw r (fun a => { a with wrapper := some cb }) (fun _ => ?_) w.entropy
        unfold Attrs.Typed
        dsimp only
        rw [hn]
        rintro cb' ⟨⟩
        exact hv src single hn
      change AllTyped V ((BasedOnFields.trial _ >>= fun args => PyM.finally_
        (PyM.lift (cb.tryMockCall args.1 args.2)) (reset fuel r)) _).2
      refine Keeps.bind (I := AllTyped V) ?_ (fun args => ?_) _ h1
      · unfold BasedOnFields.trial sourceGroup
        dsimp only
        have hm : ∀ fs : List Ref, Keeps (AllTyped (R := R) V) (mapPyM
            (fun (f : SourceField (World R)) => do return (f.name, ← f.call)) (fs.map fun g =>
              { name := (w.obj g).name
                previous := fun v => (v.obj g).cache
                multiValued := multiValued g
                call := call str fuel g none
                reset := reset fuel g
                seed := seed fuel g })) := by
          intro fs
          refine mapPyM_keeps fun f hf => ?_
          obtain ⟨g, _, rfl⟩ := List.mem_map.1 hf
          exact (allCall_keeps str fuel g (arg := none) trivial).bind fun v => Keeps.pure _ _
        rcases src with _ | ⟨a, _ | ⟨b, l⟩⟩
        · exact (hm []).bind fun _ => Keeps.pure _ _
        · exact (allCall_keeps str fuel a (arg := none) trivial).bind fun v => Keeps.pure _ _
        · exact (hm (a :: b :: l)).bind fun _ => Keeps.pure _ _
      · intro v hv'
        rw [finally_state]
        exact reset_typed fuel r trivial _ hv'
    | _ => exact hw

theorem iterOp_typed (r : Ref) (op : IterOp Val) {w : World R} (hw : AllTyped V w)
    (hn : ∀ n, op ≠ .call n) (hv : ∀ f, op = .setFactory f → f.src.All (V r)) :
    AllTyped V ((World.iterAttr r).run op.runIter w).2 := by
  have key : Iterative.AllOf (V r) (w.obj r).iter →
      Iterative.AllOf (V r) (op.runIter (w.obj r).iter).2 := by
    intro h
    cases op with
    | call n => exact absurd rfl (hn n)
    | reset => exact Iterative.reset_keeps _ h
    | setFactory f =>
      change Iterative.AllOf (V r) ((Iterative.setFactory f >>= fun _ => pure []) _).2
      unfold Iterative.setFactory
      rcases hc : Iterative.checkIterFactory f with e | _
      · exact h
      · exact ⟨hv f rfl, fun x hx => by cases hx⟩
    | setResetAfterCall b => exact h
  refine update_typed hw r (fun a => { a with iter := (op.runIter (w.obj r).iter).2 }) (fun h => ?_)
    w.entropy
  unfold Attrs.Typed at h ⊢
  dsimp only
  rcases hn : (w.obj r).node with _ | node
  · trivial
  · rw [hn] at h
    cases node with
    | iterative => exact key h
    | _ => exact h

theorem seqOp_typed (r : Ref) (op : IterOp Val) {w : World R} (hw : AllTyped V w)
    (hn : ∀ n, op ≠ .call n) (hv : ∀ f, op = .setFactory f → f.src.All (V r)) :
    AllTyped V ((World.seqAttr r).run op.runSeq w).2 := by
  have key : Iterative.AllOf (V r) (w.obj r).seq.it →
      Iterative.AllOf (V r) (op.runSeq (w.obj r).seq).2.it := by
    intro h
    cases op with
    | call n => exact absurd rfl (hn n)
    | reset => exact Iterative.reset_keeps _ h
    | setFactory f =>
      change Iterative.AllOf (V r) ((Sequential.setFactory f >>= fun _ => pure []) _).2.it
      rw [bind_apply, seqSetFactory_run]
      rcases hc : Iterative.checkIterFactory f with e | _
      · exact h
      · rcases hd : Sequential.checkSeqIterFactory f with e | _
        · exact h
        · rcases he : Sequential.listOf f with e | l
          · exact h
          · exact ⟨hv f rfl, fun x hx => by cases hx⟩
    | setResetAfterCall b => exact h
  refine update_typed hw r (fun a => { a with seq := (op.runSeq (w.obj r).seq).2 }) (fun h => ?_)
    w.entropy
  unfold Attrs.Typed at h ⊢
  dsimp only
  rcases hn : (w.obj r).node with _ | node
  · trivial
  · rw [hn] at h
    cases node with
    | sequential k => exact key h
    | _ => exact h

theorem _root_.Fauxdoc.Attr.run_drop {σ G α β : Type} (L : Attr σ G) (m : PyM G α) (b : β) (s : σ) :
    (L.run (m >>= fun _ => pure b) s).2 = (L.run m s).2 := by
  unfold Attr.run
  rw [bind_apply]
  rcases m (L.get s) with ⟨_ | _, _⟩ <;> rfl

theorem setFactory_typed (r : Ref) (f : Factory Val) {w : World R} (hw : AllTyped V w)
    (hv : f.src.All (V r)) : AllTyped V (World.setFactory r f w).2 := by
  unfold World.setFactory
  rw [run_get_bind]
  rcases hn : (w.obj r).node with _ | node
  · exact hw
  · cases node with
    | iterative =>
      have := iterOp_typed r (.setFactory f) hw (by simp) (by rintro g ⟨⟩; exact hv)
      rw [show (IterOp.setFactory f).runIter = Iterative.setFactory f >>= fun _ => pure [] from rfl,
        Attr.run_drop] at this
      exact this
    | sequential k =>
      have := seqOp_typed r (.setFactory f) hw (by simp) (by rintro g ⟨⟩; exact hv)
      rw [show (IterOp.setFactory f).runSeq = Sequential.setFactory f >>= fun _ => pure [] from rfl,
        Attr.run_drop] at this
      dsimp only
      rcases hq : (World.seqAttr r).run (Sequential.setFactory f) w with ⟨e | _, w1⟩
      · rw [bind_err hq]
        rw [hq] at this
        exact this
      · rw [bind_ok hq]
        have h1 : (w1.obj r).node = some (.sequential k) := by
          have e : w1 = (World.seqAttr r).set (Sequential.setFactory f (w.obj r).seq).2 w :=
            (congrArg Prod.snd hq).symm
          rw [e]
          simpa [World.seqAttr, World.attr, World.upd] using hn
        rw [hq] at this
        refine update_typed this r (fun a => { a with node := some (.sequential .other) })
          (fun h => ?_) w1.entropy
        unfold Attrs.Typed at h ⊢
        rw [h1] at h
        exact h
    | _ => exact hw

theorem newChoice_typed {w : World R} (hw : AllTyped V w) (kind : ItemsKind) (items : List Val)
    (weights : Option (List K)) (replace roac : Bool) (s : Option Int) (cum : Option (List K))
    (hv : (∃ r, (World.newChoice kind items weights replace roac s cum w).1 = .ok r) →
      ∀ x ∈ items, V w.next x) :
    AllTyped V (World.newChoice kind items weights replace roac s cum w).2 := by
  have he : ∀ e, AllTyped V { w with entropy := e } := fun _ => hw
  unfold World.newChoice at hv ⊢
  rcases hi : (Choice.init items weights replace roac s cum : PyM Nat (ChoiceSt Val R)) w.entropy
    with ⟨x | st, e⟩
  · exact he e
  · rw [hi] at hv
    refine alloc_typed (he e) _ ?_
    obtain ⟨h1, h2, _⟩ := Choice.init_ok hi
    unfold Attrs.Typed
    have hit : st.items = items := h1.1
    refine ⟨(Choice.intact_iff st).2 ⟨?_, [], ?_⟩, ?_⟩
    · rw [hit]; exact h1
    · rw [hit]; exact h2
    · change ∀ x ∈ st.items, V w.next x
      rw [hit]; exact hv ⟨_, rfl⟩

theorem setChild_typed {w : World R} (hw : AllTyped V w) (r : Ref) (label : String) (x : Ref)
    (hv : ((World.setChild r label x w).2.obj r).Typed V r) :
    AllTyped V (World.setChild r label x w).2 := by
  unfold World.setChild at hv ⊢
  rw [run_get_bind] at hv ⊢
  rcases hc : ((w.obj r).node.bind (Node.withChild label x)) with _ | node'
  · exact hw
  · rw [hc] at hv
    refine update_typed hw r (fun a => { a with node := some node' }) (fun _ => ?_) w.entropy
    change ((w.upd r fun a => { a with node := some node' }).obj r).Typed V r at hv
    rwa [upd_obj, if_pos rfl] at hv

theorem setPlain_typed {w : World R} (hw : AllTyped V w) (r : Ref) :
    (∀ name, AllTyped V (World.setName r name w).2) ∧ (∀ hide, AllTyped V (World.setHide r hide w).2) ∧
    (∀ sep, AllTyped V (World.setSeparator r sep w).2) ∧
    ∀ src single, AllTyped V (World.setSourceFields r src single w).2 := by
  have hr := (allTyped_iff.1 hw r)
  refine ⟨fun name => ?_, fun hide => ?_, fun sep => ?_, fun src single => ?_⟩
  · unfold World.setName
    rw [run_get_bind]
    rcases hn : (w.obj r).node with _ | node
    · exact hw
    · unfold Attrs.Typed at hr
      rw [hn] at hr
      cases node with
      | field n e rp g hd =>
        exact update_typed hw r (fun a => { a with node := some (.field name e rp g hd) })
          (fun _ => hr) w.entropy
      | _ => exact hw
  · unfold World.setHide
    rw [run_get_bind]
    rcases hn : (w.obj r).node with _ | node
    · exact hw
    · unfold Attrs.Typed at hr
      rw [hn] at hr
      cases node with
      | field n e rp g hd =>
        exact update_typed hw r (fun a => { a with node := some (.field n e rp g hide) })
          (fun _ => hr) w.entropy
      | _ => exact hw
  · unfold World.setSeparator
    rw [run_get_bind]
    rcases hn : (w.obj r).node with _ | node
    · exact hw
    · unfold Attrs.Typed at hr
      rw [hn] at hr
      cases node with
      | copyFields a b c =>
        exact update_typed hw r (fun x => { x with node := some (.copyFields a b sep) })
          (fun _ => hr) w.entropy
      | _ => exact hw
  · unfold World.setSourceFields
    rw [run_get_bind]
    rcases hn : (w.obj r).node with _ | node
    · exact hw
    · unfold Attrs.Typed at hr
      rw [hn] at hr
      cases node with
      | copyFields a b c =>
        exact update_typed hw r (fun x => { x with node := some (.copyFields src single c) })
          (fun _ => hr) w.entropy
      | basedOn a b =>
        exact update_typed hw r (fun x => { x with node := some (.basedOn src single) })
          (fun _ => hr) w.entropy
      | _ => exact hw

/-- In every store a program can bring about, all objects emit only values in `V`. -/
theorem built_typed {w : World R} (h : Built V str w) : AllTyped V w := by
  induction h with
  | empty w h =>
    rw [allTyped_iff]
    intro r
    unfold Attrs.Typed
    rw [h r]
    trivial
  | newStatic h v hv ih => exact alloc_typed ih _ hv
  | @newIterative w h f rac hv ih =>
    unfold World.newIterative
    rw [bind_apply, lift_apply]
    unfold Iterative.init Iterative.setFactory
    rcases hc : Iterative.checkIterFactory f with e | _
    · exact ih
    · exact alloc_typed ih _ ⟨hv, fun x hx => by cases hx⟩
  | @newSequential w h kind items rac hv ih =>
    unfold World.newSequential
    rw [bind_apply, lift_apply]
    unfold Sequential.init
    by_cases he : items.isEmpty = true
    · rw [if_pos he]; exact ih
    · rw [if_neg he]
      exact alloc_typed ih _ ⟨hv, fun x hx => by cases hx⟩
  | newChoice h kind items weights replace roac s cum hv ih =>
    exact newChoice_typed ih kind items weights replace roac s cum hv
  | @newWord w h fuel length alphabet s hl hv ih =>
    refine Keeps.bind (I := AllTyped V) (reset_typed fuel w.next trivial) (fun _ => ?_) _
      (alloc_typed ih _ ⟨hv, hl⟩)
    refine Keeps.bind ?_ fun _ => Keeps.pure _ _
    unfold updateWordNumUnique
    refine (numUnique_keeps _).bind fun n => ?_
    exact Keeps.bind (fun _ h => h) fun v => (Keeps.lift _ _).bind fun m => setUnique_keeps _ m
  | @newText w h fuel numwords word sep s hn hv ih =>
    refine Keeps.bind (I := AllTyped V) (reset_typed fuel w.next trivial) (fun _ => ?_) _
      (alloc_typed ih _ ⟨hv, hn⟩)
    refine Keeps.bind ?_ fun _ => Keeps.pure _ _
    unfold updateTextNumUnique
    refine (numUnique_keeps _).bind fun n => (numUnique_keeps _).bind fun n' => ?_
    exact Keeps.bind (fun _ h => h) fun v => (Keeps.lift _ _).bind fun m => setUnique_keeps _ m
  | @newWrapOne w h fuel source cb s hv ih =>
    have ha : AllTyped V (alloc (R := R)
        { blank with node := some (.wrapOne source), seed := s } w).2 :=
      alloc_typed ih _ (fun cb hcb => by cases hcb)
    have hr := reset_typed fuel w.next trivial _ ha
    have hn := reset_node fuel w.next w.next (alloc (R := R)
        { blank with node := some (.wrapOne source), seed := s } w).2
    rw [show ((alloc (R := R) { blank with node := some (.wrapOne source), seed := s } w).2.obj
      w.next).node = some (.wrapOne source) by unfold alloc; simp] at hn
    unfold World.newWrapOne
    change AllTyped V ((reset fuel w.next >>= fun _ => World.setWrapper str fuel w.next cb >>= fun _ =>
      pure w.next) (alloc _ w).2).2
    rw [bind_apply]
    rcases hq : reset fuel w.next (alloc (R := R)
        { blank with node := some (.wrapOne source), seed := s } w).2 with ⟨e | u, w1⟩ <;>
      rw [hq] at hr hn
    · exact hr
    · dsimp only at hr hn ⊢
      have := setWrapper_typed (str := str) fuel w.next cb hr
        (fun s' hs => by rw [hn] at hs; cases hs; exact hv) (fun ss hs => by rw [hn] at hs; cases hs)
      rw [bind_apply]
      rcases hq2 : World.setWrapper str fuel w.next cb w1 with ⟨e | u, w2⟩ <;> rw [hq2] at this <;>
        exact this
  | @newWrapMany w h fuel sources cb s hv ih =>
    have ha : AllTyped V (alloc (R := R)
        { blank with node := some (.wrapMany sources), seed := s } w).2 :=
      alloc_typed ih _ (fun cb hcb => by cases hcb)
    have hr := reset_typed fuel w.next trivial _ ha
    have hn := reset_node fuel w.next w.next (alloc (R := R)
        { blank with node := some (.wrapMany sources), seed := s } w).2
    rw [show ((alloc (R := R) { blank with node := some (.wrapMany sources), seed := s } w).2.obj
      w.next).node = some (.wrapMany sources) by unfold alloc; simp] at hn
    unfold World.newWrapMany
    change AllTyped V ((reset fuel w.next >>= fun _ => World.setWrapper str fuel w.next cb >>= fun _ =>
      pure w.next) (alloc _ w).2).2
    rw [bind_apply]
    rcases hq : reset fuel w.next (alloc (R := R)
        { blank with node := some (.wrapMany sources), seed := s } w).2 with ⟨e | u, w1⟩ <;>
      rw [hq] at hr hn
    · exact hr
    · dsimp only at hr hn ⊢
      have := setWrapper_typed (str := str) fuel w.next cb hr
        (fun s' hs => by rw [hn] at hs; cases hs) (fun ss hs => by rw [hn] at hs; cases hs; exact hv)
      rw [bind_apply]
      rcases hq2 : World.setWrapper str fuel w.next cb w1 with ⟨e | u, w2⟩ <;> rw [hq2] at this <;>
        exact this
  | newCopyFields h source single separator hv ih => exact alloc_typed ih _ hv
  | @newBasedOnFields w h fuel source single cb s hv ih =>
    have ha : AllTyped V (alloc (R := R)
        { blank with node := some (.basedOn source single), seed := s } w).2 :=
      alloc_typed ih _ (fun cb hcb => by cases hcb)
    unfold World.newBasedOnFields
    change AllTyped V ((newRng w.next s >>= fun _ => World.setAction str fuel w.next cb >>= fun _ =>
      pure w.next) (alloc _ w).2).2
    refine (newRng_keeps w.next s).bind (fun _ => Keeps.bind (I := AllTyped V) ?_ fun _ =>
      Keeps.pure _ _) _ ha
    exact fun v hv' => setAction_typed fuel w.next cb hv' fun _ _ _ => hv
  | @newField w h fuel name emitter rep gate hide s hr hv ih =>
    exact Keeps.bind (I := AllTyped V) (reset_typed fuel w.next trivial) (fun _ => Keeps.pure _ _) _
      (alloc_typed ih _ ⟨hv, hr⟩)
  | call h fuel r arg ha ih => exact allCall_keeps str fuel r ha _ ih
  | reset h fuel r ih => exact reset_typed fuel r trivial _ ih
  | seed h fuel r s ih => exact seed_typed fuel r s trivial _ ih
  | @document w h fuel fields ih =>
    unfold World.document Schema.call
    rw [run_get_bind]
    have hl : ∀ (fs : Dict Ref) (doc : Dict Val), Keeps (AllTyped (R := R) V)
        (Schema.loop (fun r => (w.obj r).hide) (fun r => World.call str fuel r none) doc fs) := by
      intro fs
      induction fs with
      | nil => exact fun doc => Keeps.pure _ _
      | cons kf fs ihf =>
        intro doc
        unfold Schema.loop
        refine (allCall_keeps str fuel kf.2 (arg := none) trivial).bind fun v => ?_
        split
        · exact ihf _
        · exact ihf _
    exact hl fields [] w ih
  | resetFields h fuel fields ih =>
    rw [resetFields_eq]
    exact doMethod_keeps (fun c _ => reset_typed fuel c trivial) _ ih
  | seedFields h fuel s fields ih =>
    rw [seedFields_eq]
    exact doMethod_keeps (fun c _ => seed_typed fuel c s trivial) _ ih
  | @setRngSeed w h r s ih =>
    exact update_typed ih r (Attrs.setSeed s) (typed_seed s) w.entropy
  | @choiceOp w h r k hk op hok ih =>
    have ht := (ih r trivial).1
    unfold Attrs.Typed at ht
    rw [hk] at ht
    have hst := Choice.Intact.step op (s := ((w.obj r).choice, w.entropy)) ht.1 (by
      intro x hx b hb
      cases b with
      | true => rfl
      | false =>
        obtain ⟨l, hl⟩ := hok hb
        change (op.run ((w.obj r).choice, w.entropy)).1 = _ at hl
        rw [hx] at hl
        cases hl)
    refine update_typed ih r
      (fun a => { a with choice := (op.run ((w.obj r).choice, w.entropy)).2.1 }) (fun _ => ?_) _
    unfold Attrs.Typed
    dsimp only
    rw [hk]
    refine ⟨hst.1, ?_⟩
    rw [hst.2]
    exact ht.2
  | @setValue w h r v hv ih =>
    refine update_typed ih r (fun a => { a with static := ⟨v, _⟩ }) (fun h => ?_) w.entropy
    unfold Attrs.Typed at h ⊢
    dsimp only
    rcases hn : (w.obj r).node with _ | node
    · trivial
    · rw [hn] at h
      cases node with
      | static => exact hv
      | _ => exact h
  | iterOp h r op hn hf ih => exact iterOp_typed r op ih hn fun f e => absurd e (hf f)
  | seqOp h r op hn hf ih => exact seqOp_typed r op ih hn fun f e => absurd e (hf f)
  | setFactory h r f hv ih => exact setFactory_typed r f ih hv
  | setWrapper h fuel r cb h1 h2 ih => exact setWrapper_typed fuel r cb ih h1 h2
  | setAction h fuel r cb hv ih => exact setAction_typed fuel r cb ih fun _ _ _ => hv
  | setChild h r label x hv ih => exact setChild_typed ih r label x hv
  | setName h r name ih => exact (setPlain_typed ih r).1 name
  | setHide h r hide ih => exact (setPlain_typed ih r).2.1 hide
  | setSeparator h r sep ih => exact (setPlain_typed ih r).2.2.1 sep
  | setSourceFields h r src single ih => exact (setPlain_typed ih r).2.2.2 src single

/-- **C29 (emitter graphs, partial).** If every object below `r` does its part (`Attrs.Typed`: in
particular lengths and repeats are not negative and word counts are positive), `r(n)` for `n >= 0`
returns, if it returns, a list of exactly `n` values.  The objects may share children and refer to
each other in cycles.  Missing from the full claim: word counts of zero and `Choice` objects left
broken by a failed assignment, for which it is false, see `C29_zero_words_violated` and
`C29_failed_replace_violated`. -/
theorem C29_partial (V : Ref → Val → Prop) (str : Val → List Char) (fuel : Nat) (r : Ref) (n : Nat)
    (w w' : World R) (v : Val) (ht : ∀ x, Below w r x → (w.obj x).Typed V x)
    (h : World.call str fuel r (some (.int n)) w = (.ok v, w')) :
    ∃ l, v = .list l ∧ l.length = n := by
  have hP : TypedOn V (Below w r) w := fun x hx => ⟨ht x hx, fun c hc => hx.child hc⟩
  have := (call_typed str fuel r (.self r) (some (.int n)) (argOK_int (by omega)) w hP).2
  rw [h] at this
  obtain ⟨l, h1, h2, _⟩ := answers_int (this v rfl)
  exact ⟨l, h1, by exact_mod_cast h2⟩

/-- **C29 (all programs, partial).** In whatever way a program has created, called, reset, seeded and
changed its objects before, `r(n)` for `n >= 0` returns, if it returns, a list of exactly `n` values.
The program must respect what `Built` says: in particular word counts are positive, and no assignment
of `replace = False` has failed. -/
theorem C29_built_partial (V : Ref → Val → Prop) (str : Val → List Char) {w : World R}
    (hb : Built V str w) (fuel : Nat) (r : Ref) (n : Nat) (w' : World R) (v : Val)
    (h : World.call str fuel r (some (.int n)) w = (.ok v, w')) :
    ∃ l, v = .list l ∧ l.length = n :=
  C29_partial V str fuel r n w w' v (fun x _ => (built_typed hb x trivial).1) h

/-- **C60.** Whatever a program does, an emitter emits only values of the set `V r` declared for it:
the items, values and iterators it was given, for `Word` and `Text` strings, for wrappers what their
functions return for values of the sources. -/
theorem C60_values (V : Ref → Val → Prop) (str : Val → List Char) {w : World R}
    (hb : Built V str w) (fuel : Nat) (r : Ref) (w' : World R) (v : Val) :
    (World.call str fuel r none w = (.ok v, w') → V r v) ∧
    ∀ n : Nat, World.call str fuel r (some (.int n)) w = (.ok v, w') →
      ∃ l, v = .list l ∧ ∀ y ∈ l, V r y := by
  refine ⟨fun h => ?_, fun n h => ?_⟩
  · have := (call_typed str fuel r trivial none trivial w (built_typed hb)).2
    rw [h] at this
    exact this v rfl
  · have := (call_typed str fuel r trivial (some (.int n)) (argOK_int (by omega)) w
      (built_typed hb)).2
    rw [h] at this
    obtain ⟨l, h1, _, h3⟩ := answers_int (this v rfl)
    exact ⟨l, h1, h3⟩

/-- **C60 (invariants).** In every store a program can bring about, the items, weights, shuffled list
and position of every `Choice` agree with each other. -/
theorem C60_intact (V : Ref → Val → Prop) (str : Val → List Char) {w : World R}
    (hb : Built V str w) (r : Ref) (k : ItemsKind) (hk : (w.obj r).node = some (.choice k)) :
    (w.obj r).choice.Intact := by
  have := (built_typed hb r trivial).1
  unfold Attrs.Typed at this
  rw [hk] at this
  exact this.1

/-! ### Where the code breaks the contract -/

/-- `Text(Sequential([3, 0]), Choice(['a', 'b']), rng_seed=1)`. -/
def zeroWords : PyM (World demoRng) Unit := do
  let n ← World.newSequential .list [.int 3, .int 0] false
  let c ← World.newChoice .list [.str ['a'], .str ['b']] none true false (some 1) none
  let _ ← World.newText 5 n c none (some 1)

/-- **C29 (finding).** With word counts 3 and 0, `text(2)` gives one text. -/
theorem C29_zero_words_violated : (zeroWords emptyWorld).1 = .ok () ∧
    (World.call demoStr 5 3 (some (.int 2)) (zeroWords emptyWorld).2).1 =
      .ok (.list [.str ['b', ' ', 'b', ' ', 'a']]) := by
  decide +kernel

/-- `c = Choice(['a', 'b'], replace=False, rng_seed=1); c(2); c.replace = True;
c.weights = [1, 0]; c.replace = False`, the last of which raises `ZeroDivisionError`. -/
def failedReplace : PyM (World demoRng) Unit := do
  let c ← World.newChoice .list [.str ['a'], .str ['b']] none false false (some 1) none
  let _ ← World.call demoStr 5 c (some (.int 2))
  let _ ← World.onChoice c (ChoiceOp.setReplace true : ChoiceOp ℚ).run
  let _ ← World.onChoice c (ChoiceOp.setWeights (some [1, 0]) : ChoiceOp ℚ).run
  let _ ← World.onChoice c (ChoiceOp.setReplace false : ChoiceOp ℚ).run

/-- **C29 (finding).** Afterwards `c(2)` returns an empty list. -/
theorem C29_failed_replace_violated : (failedReplace emptyWorld).1 = .error .zeroDivision ∧
    (World.call demoStr 5 0 (some (.int 2)) (failedReplace emptyWorld).2).1 = .ok (.list []) := by
  decide +kernel

/-! ### Example: a program within the conditions -/

/-- Declared values: counts, words, a separator, texts, and what `zeroOf` returns. -/
def demoV (r : Ref) (v : Val) : Prop :=
  match r with
  | 0 => v = .int 1 ∨ v = .int 2
  | 4 => v = .int 0
  | _ => ∃ s, v = .str s

/-- `n = Choice([1, 2], replace_only_after_call=True)`. -/
def demo1 : World demoRng :=
  (World.newChoice .list [.int 1, .int 2] none false true (some 1) none emptyWorld).2
/-- `c = Choice(['a', 'b'], weights=[1, 2])`. -/
def demo2 : World demoRng :=
  (World.newChoice .list [.str ['a'], .str ['b']] (some [1, 2]) true false (some 1) none demo1).2
/-- `sep = Static(' ')`. -/
def demo3 : World demoRng := (World.newStatic (.str [' ']) demo2).2
/-- `t = Text(n, c, sep, rng_seed=5)`. -/
def demo4 : World demoRng := (World.newText 5 0 1 (some 2) (some 5) demo3).2
/-- `m = WrapMany({'n': n, 't': t}, lambda **kwargs: 0)`. -/
def demo5 : World demoRng := (World.newWrapMany demoStr 6 [("n", 0), ("t", 3)] zeroOf (some 7) demo4).2
/-- `t(2)`, then `n.replace = False`. -/
def demo6 : World demoRng := (World.onChoice 0 (ChoiceOp.setReplace false : ChoiceOp ℚ).run
  (World.call demoStr 6 3 (some (.int 2)) demo5).2).2

theorem demo_built : Built demoV demoStr demo6 := by
  have h1 : Built demoV demoStr demo1 := .newChoice (.empty emptyWorld fun _ => rfl) _ _ _ _ _ _ _ (by
    intro _ x hx
    rw [show emptyWorld.next = 0 from rfl]
    simpa [demoV] using hx)
  have h2 : Built demoV demoStr demo2 := .newChoice h1 _ _ _ _ _ _ _ (by
    intro _ x hx
    rw [show demo1.next = 1 by decide +kernel]
    simp only [List.mem_cons, List.not_mem_nil, or_false] at hx
    rcases hx with rfl | rfl <;> exact ⟨_, rfl⟩)
  have h3 : Built demoV demoStr demo3 := .newStatic h2 _ (by
    rw [show demo2.next = 2 by decide +kernel]; exact ⟨_, rfl⟩)
  have h4 : Built demoV demoStr demo4 := .newText h3 _ _ _ _ _ (by
    rintro v (rfl | rfl) i hi <;> cases hi <;> decide) (by
    intro x _
    rw [show demo3.next = 3 by decide +kernel]; exact ⟨_, rfl⟩)
  have h5 : Built demoV demoStr demo5 := .newWrapMany h4 _ _ _ _ (by
    intro d _
    rw [show demo4.next = 4 by decide +kernel]
    exact ⟨fun v hv => by cases hv; rfl, fun g v hv => by cases hv⟩)
  exact .choiceOp (.call h5 _ _ _ (argOK_int (by decide))) 0 .list (by decide +kernel) _ fun _ =>
    ⟨[], by decide +kernel⟩

/-- Everything in this program returns, ... -/
example : (World.call demoStr 6 3 (some (.int 2)) demo5).1 =
    .ok (.list [.str ['b'], .str ['b', ' ', 'a']]) := by decide +kernel
/-- ... and the conditions of the theorems are met by a nontrivial call. -/
example : (World.call demoStr 6 4 (some (.int 1)) demo6).1 = .ok (.list [.int 0]) ∧
    (World.call demoStr 6 4 (some (.int 2)) demo5).1 = .ok (.list [.int 0, .int 0]) := by decide +kernel
example (w' : World demoRng) (v : Val)
    (h : World.call demoStr 6 4 (some (.int 1)) demo6 = (.ok v, w')) :
    ∃ l, v = .list l ∧ l.length = 1 := C29_built_partial _ _ demo_built 6 4 1 w' v h
example : (demo6.obj 0).choice.Intact := C60_intact _ _ demo_built 0 .list (by decide +kernel)
/-- `Built` also covers `Text` without `sep_emitter` and `Field` without `repeat` or `gate`, which
first create a `Static`. -/
example (fuel : Nat) (n c : Ref) (s : Option Int) (w : World R) :
    World.newText fuel n c none s w =
      World.newText fuel n c (some w.next) s (World.newStatic (.str [' ']) w).2 := rfl
example (fuel : Nat) (name : String) (e : Ref) (hide : Bool) (s : Option Int) (w : World R) :
    World.newField fuel name e none none hide s w =
      World.newField fuel name e (some w.next) (some (w.next + 1)) hide s
        (World.newStatic (.bool true) (World.newStatic .none w).2).2 := rfl

end Fauxdoc
