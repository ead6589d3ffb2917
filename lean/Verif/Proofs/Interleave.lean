import Verif.Spec.Interleave
import Verif.Proofs.Program
import Verif.Props.Unrelated
/-
What programs leave alone that keep away from some objects.
-/
set_option linter.unusedSectionVars false
namespace Fauxdoc
open PyM World
variable {K : Type} [Field K] [LinearOrder K] [FloorRing K] [IsStrictOrderedRing K] {R : Rng K}
variable {str : Val → List Char} {P : Ref → Prop}

/-- Still apart, and the objects in `P` are the same. -/
structure Away (P : Ref → Prop) (w0 w : World R) : Prop where
  apart : Secluded P w
  same : ∀ x, P x → w.obj x = w0.obj x

theorem Away.refl {w : World R} (h : Secluded P w) : Away P w w := ⟨h, fun _ _ => rfl⟩

theorem Secluded.of_nodes {w v : World R} (h : Secluded P w) (hn : v.next = w.next)
    (ho : ∀ x, (v.obj x).node = (w.obj x).node) : Secluded P v where
  inside x hx := hn ▸ h.inside x hx
  outside x hx c hc := h.outside x hx c (by unfold Attrs.children at hc ⊢; rwa [ho x] at hc)

theorem Away.step {w0 w v : World R} (h : Away P w0 w) (hn : v.next = w.next)
    (ho : ∀ x, (v.obj x).node = (w.obj x).node) (hs : ∀ x, P x → v.obj x = w.obj x) :
    Away P w0 v := ⟨h.apart.of_nodes hn ho, fun x hx => (hs x hx).trans (h.same x hx)⟩

theorem Away.alloc {w0 w : World R} (h : Away P w0 w) (a : Attrs R)
    (ha : ∀ c ∈ a.children, ¬ P c) : Away P w0 (World.alloc a w).2 where
  apart :=
    { inside := fun x hx => Nat.lt_succ_of_lt (h.apart.inside x hx)
      outside := fun x hx c hc => by
        change c ∈ ((if x = w.next then a else w.obj x) : Attrs R).children at hc
        by_cases hxn : x = w.next
        · rw [if_pos hxn] at hc; exact ha c hc
        · rw [if_neg hxn] at hc; exact h.apart.outside x hx c hc }
  same x hx := by
    change (if x = w.next then a else w.obj x) = _
    rw [if_neg (Nat.ne_of_lt (h.apart.inside x hx))]
    exact h.same x hx

theorem Away.new {w0 w : World R} (h : Away P w0 w) : ¬ P w.next :=
  fun hp => lt_irrefl _ (h.apart.inside _ hp)

theorem Away.update {w0 w : World R} (h : Away P w0 w) {r : Ref} (hr : ¬ P r)
    {f : Attrs R → Attrs R} (hf : ∀ c ∈ (f (w.obj r)).children, ¬ P c) (e : Nat) :
    Away P w0 { w.upd r f with entropy := e } where
  apart :=
    { inside := h.apart.inside
      outside := fun x hx c hc => by
        rw [obj_entropy, upd_obj] at hc
        by_cases hxr : x = r
        · subst hxr; rw [if_pos rfl] at hc; exact hf c hc
        · rw [if_neg hxr] at hc; exact h.apart.outside x hx c hc }
  same x hx := by
    have : x ≠ r := fun e => hr (e ▸ hx)
    rw [obj_entropy, upd_obj, if_neg this]
    exact h.same x hx

theorem Away.plain {w0 w : World R} (h : Away P w0 w) {r : Ref} (hr : ¬ P r)
    {f : Attrs R → Attrs R} (hf : (f (w.obj r)).node = (w.obj r).node) (e : Nat) :
    Away P w0 { w.upd r f with entropy := e } :=
  h.update hr (fun c hc => h.apart.outside r hr c (by unfold Attrs.children at hc ⊢; rwa [hf] at hc)) e

theorem Away.attr {w0 w : World R} (h : Away P w0 w) {r : Ref} (hr : ¬ P r) {β γ : Type}
    {L : Attr (World R) β} {set : β → Attrs R → Attrs R}
    (hs : ∀ b w, L.set b w = w.upd r (set b)) (hn : ∀ b a, (set b a).node = a.node) (m : PyM β γ) :
    Away P w0 (L.run m w).2 := by
  rw [(L.run_state m w).2, hs]
  exact h.plain hr (hn _ _) w.entropy

theorem Away.frame {w0 w v : World R} (h : Away P w0 w)
    (hv : ShapeFrame (fun x => ¬ P x) w v) : Away P w0 v :=
  h.step hv.next hv.node fun x hx => hv.frame x (not_not_intro hx)

theorem call_away {w0 : World R} (fuel : Nat) {r : Ref} (arg : Option Val) (hr : ¬ P r) :
    Keeps (Away P w0) (call str fuel r arg) := by
  intro w hw
  have := call_frame str fuel r arg (fun x => ¬ P x) w hw.apart.outside hr w (Frame.refl _ w)
  exact hw.step this.next this.node fun x hx => this.frame x (not_not_intro hx)

theorem reset_away {w0 : World R} (fuel : Nat) {r : Ref} (hr : ¬ P r) :
    Keeps (Away P w0) (reset fuel r) :=
  fun w hw => hw.frame (reset_frame fuel r (fun x => ¬ P x) w hw.apart.outside hr)

theorem seed_away {w0 : World R} (fuel : Nat) {r : Ref} (s : Option Int) (hr : ¬ P r) :
    Keeps (Away P w0) (seed fuel r s) :=
  fun w hw => hw.frame ((shapeFrame_steps (fun x => ¬ P x) s w hw.apart.outside).seed fuel r hr w w
    ⟨rfl, .refl _ w⟩).2.2

theorem unique_away {w0 : World R} (r : Ref) : Keeps (Away P w0) (numUniqueValues r) :=
  fun w hw => by rw [numUniqueValues_state]; exact hw

theorem assign_away {w0 : World R} (fuel : Nat) {r : Ref} (cb : Callback R.G) (hr : ¬ P r) :
    Keeps (Away P w0) (assignAndReset fuel r cb) := by
  intro v hv
  unfold assignAndReset
  rw [run_modify_bind]
  exact reset_away fuel hr _ (hv.plain hr (f := fun a => { a with wrapper := some cb }) rfl v.entropy)

theorem setWrapper_away {w0 : World R} (fuel : Nat) {r : Ref} (cb : Callback R.G) (hr : ¬ P r) :
    Keeps (Away P w0) (World.setWrapper str fuel r cb) := by
  intro v hv
  have hch := hv.apart.outside r hr
  unfold Attrs.children at hch
  rcases hn : (v.obj r).node with _ | node
  · unfold World.setWrapper
    rw [run_get_bind, hn]; exact hv
  · rw [hn] at hch
    cases node with
    | wrapOne s =>
      rw [setWrapper_one str fuel r s cb v hn, finally_state]
      exact assign_away fuel cb hr _
        (((call_away fuel none (hch s (by simp [Node.childRefs]))).bind fun v => Keeps.lift _ _) v hv)
    | wrapMany ss =>
      rw [setWrapper_many str fuel r ss cb v hn, bind_apply]
      have hk : Away P w0 (trialMany str fuel ss v).2 := by
        refine mapPyM_keeps ?_ v hv
        intro ke hke
        obtain ⟨ks, hks, rfl⟩ := List.mem_map.1 hke
        exact (call_away fuel none (hch ks.2 (List.mem_map_of_mem hks))).bind fun v => Keeps.pure _ _
      rcases hq : trialMany str fuel ss v with ⟨e | kw, w1⟩ <;> rw [hq] at hk
      · exact hk
      · dsimp only at hk ⊢
        rw [finally_state]
        exact assign_away fuel cb hr _ hk
    | _ =>
      unfold World.setWrapper
      rw [run_get_bind, hn]; exact hv

theorem setAction_away {w0 w : World R} (fuel : Nat) {r : Ref} (cb : Callback R.G) (hr : ¬ P r)
    (hg : ∀ g ∈ (w.obj r).sources, ¬ P g) (hw : Away P w0 w) :
    Away P w0 (World.setAction str fuel r cb w).2 := by
  unfold World.setAction
  rw [run_get_bind]
  unfold Attrs.sources at hg
  rcases hn : (w.obj r).node with _ | node
  · exact hw
  · rw [hn] at hg
    cases node with
    | basedOn src single =>
      have h1 : Away P w0 (w.upd r fun a => { a with wrapper := some cb }) :=
        hw.plain hr (f := fun a => { a with wrapper := some cb }) rfl w.entropy
      change Away P w0 ((BasedOnFields.trial _ >>= fun args => PyM.finally_
        (PyM.lift (cb.tryMockCall args.1 args.2)) (reset fuel r)) _).2
      refine Keeps.bind (I := Away P w0) ?_ (fun args => ?_) _ h1
      · unfold BasedOnFields.trial sourceGroup
        dsimp only
        have hm : ∀ fs : List Ref, (∀ g ∈ fs, ¬ P g) → Keeps (Away P w0) (mapPyM
            (fun (f : SourceField (World R)) => do return (f.name, ← f.call)) (fs.map fun g =>
              { name := (w.obj g).name
                previous := fun v => (v.obj g).cache
                multiValued := multiValued g
                call := call str fuel g none
                reset := reset fuel g
                seed := seed fuel g })) := by
          intro fs hfs
          refine mapPyM_keeps fun f hf => ?_
          obtain ⟨g, hg, rfl⟩ := List.mem_map.1 hf
          exact (call_away fuel none (hfs g hg)).bind fun v => Keeps.pure _ _
        rcases src with _ | ⟨x, _ | ⟨y, l⟩⟩
        · exact (hm [] (by simp)).bind fun _ => Keeps.pure _ _
        · exact (call_away fuel none (hg x (by simp [Node.sourceRefs]))).bind fun v => Keeps.pure _ _
        · exact (hm (x :: y :: l) hg).bind fun _ => Keeps.pure _ _
      · intro v hv'
        rw [finally_state]
        exact reset_away fuel hr _ hv'
    | _ => exact hw

theorem newRng_away {w0 : World R} {r : Ref} (s : Option Int) (hr : ¬ P r) :
    Keeps (Away P w0) (newRng r s) := by
  intro v hv
  obtain ⟨g, e, h1, _⟩ := newRng_eq r s v
  rw [h1]
  exact hv.plain hr (f := fun a => { a with rng := g }) rfl e

theorem setUnique_away {w0 : World R} {r : Ref} (q : Option ℚ) (hr : ¬ P r) :
    Keeps (Away P w0) (PyM.modify (upd r fun a => { a with numUnique := q })) :=
  fun v hv => hv.plain hr (f := fun a => { a with numUnique := q }) rfl v.entropy

theorem document_away {w0 : World R} (fuel : Nat) {fields : Dict Ref}
    (hf : ∀ kf ∈ fields, ¬ P kf.2) : Keeps (Away P w0) (World.document str fuel fields) := by
  intro w hw
  unfold World.document Schema.call
  rw [run_get_bind]
  have hl : ∀ (fs : Dict Ref) (doc : Dict Val), (∀ kf ∈ fs, ¬ P kf.2) → Keeps (Away P w0)
      (Schema.loop (fun r => (w.obj r).hide) (fun r => World.call str fuel r none) doc fs) := by
    intro fs
    induction fs with
    | nil => exact fun doc _ => Keeps.pure _ _
    | cons kf fs ihf =>
      intro doc hfs
      have ih := fun doc => ihf doc fun kf hkf => hfs kf (List.mem_cons_of_mem _ hkf)
      unfold Schema.loop
      refine Keeps.bind (call_away fuel none (hfs kf (by simp))) fun v => ?_
      split
      · exact ih _
      · exact ih _
  exact hl fields [] hf w hw

theorem resetFields_away {w0 : World R} (fuel : Nat) {fields : Dict Ref}
    (hf : ∀ kf ∈ fields, ¬ P kf.2) : Keeps (Away P w0) (World.resetFields fuel fields) := by
  rw [resetFields_eq]
  refine doMethod_keeps fun c hc => ?_
  obtain ⟨kf, hkf, rfl⟩ := List.mem_map.1 hc
  exact reset_away fuel (hf kf hkf)

theorem seedFields_away {w0 : World R} (fuel : Nat) (s : Option Int) {fields : Dict Ref}
    (hf : ∀ kf ∈ fields, ¬ P kf.2) : Keeps (Away P w0) (World.seedFields fuel s fields) := by
  rw [seedFields_eq]
  refine doMethod_keeps fun c hc => ?_
  obtain ⟨kf, hkf, rfl⟩ := List.mem_map.1 hc
  exact seed_away fuel s (hf kf hkf)

theorem sources_away {w0 w : World R} (fuel : Nat) (src : List Ref) (single : Bool)
    (hg : ∀ g ∈ src, ¬ P g) (hw : Away P w0 w) :
    Away P w0 ((sourceGroup (fun g => call str fuel g none) (reset fuel) (seed fuel) w src
      single).resetSource w).2 ∧
    ∀ s, Away P w0 ((sourceGroup (fun g => call str fuel g none) (reset fuel) (seed fuel) w src
      single).seedSource s w).2 := by
  unfold SourceGroup.resetSource SourceGroup.seedSource sourceGroup Group.doMethod
  dsimp only
  constructor
  · refine Keeps.forEach (I := Away P w0) (fun b hb => ?_) w hw
    obtain ⟨c, hc, rfl⟩ := List.mem_map.1 hb
    obtain ⟨g, hgs, rfl⟩ := List.mem_map.1 hc
    exact Keeps.ignoring (reset_away fuel (hg g hgs))
  · intro s
    refine Keeps.forEach (I := Away P w0) (fun b hb => ?_) w hw
    obtain ⟨c, hc, rfl⟩ := List.mem_map.1 hb
    obtain ⟨g, hgs, rfl⟩ := List.mem_map.1 hc
    exact Keeps.ignoring (seed_away fuel s (hg g hgs))

theorem newText_away {w0 w : World R} (hw : Away P w0 w) (fuel : Nat) {n wd sp : Ref}
    (s : Option Int) (h1 : ¬ P n) (h2 : ¬ P wd) (h3 : ¬ P sp) :
    Away P w0 ((do
      let r ← World.alloc { blank with node := some (.text n wd sp), seed := s }
      reset fuel r
      updateTextNumUnique r n wd sp
      return r : PyM (World R) Ref) w).2 := by
  have hr := hw.new
  refine Keeps.bind (I := Away P w0) (reset_away fuel hr) (fun _ => ?_) _
    (hw.alloc _ (by simp [Attrs.children, Node.childRefs, h1, h2, h3]))
  refine Keeps.bind ?_ fun _ => Keeps.pure _ _
  unfold updateTextNumUnique
  refine (unique_away _).bind fun n => (unique_away _).bind fun n' => ?_
  exact Keeps.bind (fun _ h => h) fun v => (Keeps.lift _ _).bind fun m => setUnique_away m hr

theorem newField_away {w0 w : World R} (hw : Away P w0 w) (fuel : Nat) (name : String) {e rp g : Ref}
    (hide : Bool) (s : Option Int) (h1 : ¬ P e) (h2 : ¬ P rp) (h3 : ¬ P g) :
    Away P w0 ((do
      let r ← World.alloc { blank with node := some (.field name e rp g hide), seed := s }
      reset fuel r
      return r : PyM (World R) Ref) w).2 :=
  Keeps.bind (I := Away P w0) (reset_away fuel hw.new) (fun _ => Keeps.pure _ _) _
    (hw.alloc _ (by simp [Attrs.children, Node.childRefs, h1, h2, h3]))

theorem newStatic_away {w0 w : World R} (hw : Away P w0 w) (v : Val) :
    Away P w0 (newStatic v w).2 ∧ ∃ r, (newStatic v w).1 = .ok r ∧ ¬ P r :=
  ⟨hw.alloc _ (by simp [Attrs.children, Node.childRefs]), _, rfl, hw.new⟩

theorem withChild_childRefs {label : String} {x : Ref} {node node' : Node}
    (h : node.withChild label x = some node') {c : Ref} (hc : c ∈ Node.childRefs (some node')) :
    c = x ∨ c ∈ Node.childRefs (some node) := by
  cases node with
  | wrapMany ss =>
    cases h
    change c ∈ (ss.set label x).map (·.2) at hc
    change c = x ∨ c ∈ ss.map (·.2)
    induction ss with
    | nil => simpa [Dict.set] using hc
    | cons kv ss ih =>
      obtain ⟨k, v⟩ := kv
      rw [Dict.set_cons] at hc
      by_cases hk : k = label
      · rw [if_pos hk] at hc
        simp only [List.map_cons, List.mem_cons] at hc ⊢
        tauto
      · rw [if_neg hk] at hc
        simp only [List.map_cons, List.mem_cons] at hc ⊢
        rcases hc with hc | hc
        · exact .inr (.inl hc)
        · rcases ih hc with h | h
          · exact .inl h
          · exact .inr (.inr h)
  | word _ _ | text _ _ _ | wrapOne _ | field _ _ _ _ _ =>
    dsimp only [Node.withChild] at h
    split_ifs at h <;> cases h <;>
    simp only [Node.childRefs, List.mem_cons, List.not_mem_nil, or_false] at hc ⊢ <;> tauto
  | _ => cases h

theorem newBasedOn_away {w0 w : World R} (fuel : Nat) {r : Ref} (cb : Callback R.G) (s : Option Int)
    (hr : ¬ P r) (hg : ∀ g ∈ (w.obj r).sources, ¬ P g) (hw : Away P w0 w) :
    Away P w0 ((do newRng r s; World.setAction str fuel r cb; return r : PyM (World R) Ref) w).2 := by
  rw [bind_apply]
  have h2 := newRng_away s hr w hw
  obtain ⟨g, e, h3, _⟩ := newRng_eq r s w
  rw [h3] at h2
  have hs : ∀ x ∈ ((newRng r s w).2.obj r).sources, ¬ P x := by
    rw [h3]
    intro x hx
    rw [obj_entropy, upd_obj, if_pos rfl] at hx
    exact hg x hx
  rw [h3] at hs ⊢
  exact Keeps.bind (I := Away P w0) (fun _ _ => setAction_away fuel cb hr hs h2)
    (fun _ => Keeps.pure _ _) _ h2

/-- Steps that do not touch `P` leave it alone. -/
theorem Foreign.away {w0 w v : World R} (h : Foreign P str w v) (hw : Away P w0 w) :
    Away P w0 v := by
  have hn := hw.new
  cases h with
  | newStatic x => exact (newStatic_away hw x).1
  | newIterative f rac =>
    unfold World.newIterative
    rw [bind_apply, lift_apply]
    rcases Iterative.init f rac with e | st
    · exact hw
    · exact hw.alloc _ (by simp [Attrs.children, Node.childRefs])
  | newSequential kind items rac =>
    unfold World.newSequential
    rw [bind_apply, lift_apply]
    rcases Sequential.init items rac with e | st
    · exact hw
    · exact hw.alloc _ (by simp [Attrs.children, Node.childRefs])
  | newChoice kind items weights replace roac s cum =>
    unfold World.newChoice
    have he : ∀ e, Away P w0 { w with entropy := e } := fun e =>
      hw.step rfl (fun _ => rfl) fun _ _ => rfl
    rcases (Choice.init items weights replace roac s cum : PyM Nat (ChoiceSt Val R)) w.entropy
      with ⟨x | st, e⟩
    · exact he e
    · exact (he e).alloc _ (by simp [Attrs.children, Node.childRefs])
  | newWord fuel s h1 h2 =>
    refine Keeps.bind (I := Away P w0) (reset_away fuel hn) (fun _ => ?_) _
      (hw.alloc _ (by simp [Attrs.children, Node.childRefs, h1, h2]))
    refine Keeps.bind ?_ fun _ => Keeps.pure _ _
    unfold updateWordNumUnique
    refine (unique_away _).bind fun n => ?_
    exact Keeps.bind (fun _ h => h) fun v => (Keeps.lift _ _).bind fun m => setUnique_away m hn
  | @newText fuel n wd sep s h1 h2 h3 =>
    rcases sep with _ | sp
    · exact newText_away (newStatic_away hw _).1 fuel s h1 h2 hn
    · exact newText_away hw fuel s h1 h2 (h3 sp rfl)
  | newWrapOne fuel cb s h1 =>
    exact Keeps.bind (I := Away P w0) (reset_away fuel hn)
      (fun _ => (setWrapper_away fuel cb hn).bind fun _ => Keeps.pure _ _) _
      (hw.alloc _ (by simp [Attrs.children, Node.childRefs, h1]))
  | newWrapMany fuel cb s h1 =>
    refine Keeps.bind (I := Away P w0) (reset_away fuel hn)
      (fun _ => (setWrapper_away fuel cb hn).bind fun _ => Keeps.pure _ _) _ (hw.alloc _ ?_)
    intro c hc
    obtain ⟨ks, hks, rfl⟩ := List.mem_map.1 hc
    exact h1 ks hks
  | newCopyFields source single sep =>
    exact hw.alloc _ (by simp [Attrs.children, Node.childRefs])
  | @newBasedOnFields fuel source single cb s h1 =>
    refine newBasedOn_away fuel cb s hn (fun g hg => h1 g ?_)
      (hw.alloc { blank with node := some (.basedOn source single), seed := s }
        (by simp [Attrs.children, Node.childRefs]))
    change g ∈ ((if w.next = w.next then _ else _ : Attrs R)).sources at hg
    rw [if_pos rfl] at hg
    exact hg
  | @newField fuel name e rep gate hide s h1 h2 h3 =>
    rcases rep with _ | rp <;> rcases gate with _ | g
    · have ha := (newStatic_away hw .none).1
      exact newField_away (newStatic_away ha (.bool true)).1 fuel name hide s h1 hn ha.new
    · exact newField_away (newStatic_away hw .none).1 fuel name hide s h1 hn (h3 g rfl)
    · exact newField_away (newStatic_away hw (.bool true)).1 fuel name hide s h1 (h2 rp rfl) hn
    · exact newField_away hw fuel name hide s h1 (h2 rp rfl) (h3 g rfl)
  | call fuel arg hr => exact call_away fuel arg hr w hw
  | reset fuel hr => exact reset_away fuel hr w hw
  | seed fuel s hr => exact seed_away fuel s hr w hw
  | document fuel hf => exact document_away fuel hf w hw
  | resetFields fuel hf => exact resetFields_away fuel hf w hw
  | seedFields fuel s hf => exact seedFields_away fuel s hf w hw
  | setRngSeed s hr => exact hw.plain hr (Attrs.setSeed_node _ _) w.entropy
  | @choiceOp r op hr =>
    exact hw.plain hr (f := fun a => { a with
      choice := (op.run ((w.obj r).choice, w.entropy)).2.1 }) rfl _
  | setValue v hr =>
    exact hw.attr hr (set := fun b a => { a with static := b }) (fun _ _ => rfl) (fun _ _ => rfl) _
  | iterOp op hr =>
    exact hw.attr hr (set := fun b a => { a with iter := b }) (fun _ _ => rfl) (fun _ _ => rfl) _
  | seqOp op hr =>
    exact hw.attr hr (set := fun b a => { a with seq := b }) (fun _ _ => rfl) (fun _ _ => rfl) _
  | @setFactory r f hr =>
    unfold World.setFactory
    rw [run_get_bind]
    rcases hnd : (w.obj r).node with _ | node
    · exact hw
    · cases node with
      | iterative =>
        exact hw.attr hr (set := fun b a => { a with iter := b }) (fun _ _ => rfl) (fun _ _ => rfl) _
      | sequential k =>
        refine Keeps.bind (I := Away P w0) (fun v hv => hv.attr hr
          (set := fun b a => { a with seq := b }) (fun _ _ => rfl) (fun _ _ => rfl) _)
          (fun _ v hv => ?_) w hw
        exact hv.update hr (f := fun a => { a with node := some (.sequential .other) })
          (by simp [Attrs.children, Node.childRefs]) v.entropy
      | _ => exact hw
  | setWrapper fuel cb hr => exact setWrapper_away fuel cb hr w hw
  | setAction fuel cb hr hg => exact setAction_away fuel cb hr hg hw
  | @setChild r x label hr hx =>
    unfold World.setChild
    rw [run_get_bind]
    rcases hnd : (w.obj r).node with _ | node
    · exact hw
    · change Away P w0 ((match node.withChild label x with
        | some node => PyM.modify (upd r fun a => { a with node := some node })
        | none => PyM.raise .attributeError : PyM (World R) Unit) w).2
      rcases hc : node.withChild label x with _ | node'
      · exact hw
      · refine hw.update hr (f := fun a => { a with node := some node' }) (fun c hcc => ?_) w.entropy
        rcases withChild_childRefs hc hcc with h | h
        · exact h ▸ hx
        · exact hw.apart.outside r hr c (by unfold Attrs.children; rw [hnd]; exact h)
  | @setName r name hr =>
    unfold World.setName
    rw [run_get_bind]
    rcases hnd : (w.obj r).node with _ | node
    · exact hw
    · cases node with
      | field n e rp g hd =>
        refine hw.update hr (f := fun a => { a with node := some (.field name e rp g hd) })
          (fun c hc => hw.apart.outside r hr c ?_) w.entropy
        unfold Attrs.children at hc ⊢
        rw [hnd]; exact hc
      | _ => exact hw
  | @setHide r hide hr =>
    unfold World.setHide
    rw [run_get_bind]
    rcases hnd : (w.obj r).node with _ | node
    · exact hw
    · cases node with
      | field n e rp g hd =>
        refine hw.update hr (f := fun a => { a with node := some (.field n e rp g hide) })
          (fun c hc => hw.apart.outside r hr c ?_) w.entropy
        unfold Attrs.children at hc ⊢
        rw [hnd]; exact hc
      | _ => exact hw
  | @setSeparator r sep hr =>
    unfold World.setSeparator
    rw [run_get_bind]
    rcases hnd : (w.obj r).node with _ | node
    · exact hw
    · cases node with
      | copyFields src single sp =>
        exact hw.update hr (f := fun a => { a with node := some (.copyFields src single sep) })
          (by simp [Attrs.children, Node.childRefs]) w.entropy
      | _ => exact hw
  | @setSourceFields r source single hr =>
    unfold World.setSourceFields
    rw [run_get_bind]
    rcases hnd : (w.obj r).node with _ | node
    · exact hw
    · cases node with
      | copyFields src sg sp =>
        exact hw.update hr (f := fun a => { a with node := some (.copyFields source single sp) })
          (by simp [Attrs.children, Node.childRefs]) w.entropy
      | basedOn src sg =>
        exact hw.update hr (f := fun a => { a with node := some (.basedOn source single) })
          (by simp [Attrs.children, Node.childRefs]) w.entropy
      | _ => exact hw
  | @resetSource fuel r hr hg =>
    unfold World.resetSource
    rw [run_get_bind]
    unfold Attrs.sources at hg
    rcases hnd : (w.obj r).node with _ | node
    · exact hw
    · rw [hnd] at hg
      cases node with
      | copyFields src single sp => exact (sources_away fuel src single hg hw).1
      | basedOn src single => exact (sources_away fuel src single hg hw).1
      | _ => exact hw
  | @seedSource fuel r s hr hg =>
    unfold World.seedSource
    rw [run_get_bind]
    unfold Attrs.sources at hg
    rcases hnd : (w.obj r).node with _ | node
    · exact hw
    · rw [hnd] at hg
      cases node with
      | basedOn src single => exact (sources_away fuel src single hg hw).2 s
      | _ => exact hw

/-! ### Uses of the objects in `P` -/

theorem Act.kept (a : Act) (w : World R) : Kept w (a.run str w).2 := by
  cases a with
  | call fuel r arg =>
    exact Keeps.bind (I := Kept w) (fun v hv => hv.trans (call_kept str fuel r arg v))
      (fun _ => Keeps.pure _ _) w (.refl w)
  | reset fuel r =>
    exact Keeps.bind (I := Kept w) (fun v hv => hv.trans (reset_kept fuel r v))
      (fun _ => Keeps.pure _ _) w (.refl w)
  | seed fuel r z =>
    exact Keeps.bind (I := Kept w) (fun v hv => hv.trans (seed_kept fuel r (some z) v))
      (fun _ => Keeps.pure _ _) w (.refl w)
  | document fuel fields =>
    exact Keeps.bind (I := Kept w) (fun v hv => hv.trans (document_kept fuel fields v))
      (fun _ => Keeps.pure _ _) w (.refl w)
  | resetFields fuel fields =>
    exact Keeps.bind (I := Kept w) (fun v hv => hv.trans (resetFields_kept fuel fields v))
      (fun _ => Keeps.pure _ _) w (.refl w)
  | seedFields fuel z fields =>
    exact Keeps.bind (I := Kept w) (fun v hv => hv.trans (seedFields_kept fuel (some z) fields v))
      (fun _ => Keeps.pure _ _) w (.refl w)

section
variable {nodes : Ref → Option Node}

theorem agree_call {β : Type} {m : PyM (World R) β}
    (hm : ∀ wrappers, Rel (Same nodes wrappers P) m m)
    (hc : ∀ (w : World R) x, ((m w).2.obj x).config = (w.obj x).config) :
    Rel (Agree nodes P P P) m m := by
  intro w v h
  obtain ⟨h1, h2⟩ := hm _ w v (h.toSame (fun _ hx => hx) fun _ hx => hx)
  refine ⟨h1, h2.node, fun x hx => ?_, fun x hx => ?_, h2.same, fun x hx hr => ?_⟩
  · rw [← h2.same x hx]; exact h2.node x hx
  · rw [h2.same x hx]
  · obtain ⟨z, hz1, hz2⟩ := h.seeds x hx hr
    exact ⟨z, (rngSeed_of_config (hc w x)).trans hz1, (rngSeed_of_config (hc v x)).trans hz2⟩

theorem agree_reset (hP : ∀ r, P r → ∀ c ∈ Node.childRefs (nodes r), P c) (fuel : Nat) {r : Ref}
    (hr : P r) : Rel (Agree (R := R) nodes P P P) (reset fuel r) (reset fuel r) := by
  intro w v h
  by_cases hran : Node.isRandom (nodes r) = true
  · have := reset_agree hP fuel hr hr hran w v h
    exact ⟨this.1, this.2.1⟩
  · have hsd : SeedsIn nodes (some 0) (· = r) w v := fun t ht hn => by
      subst ht; exact absurd hn hran
    obtain ⟨h1, h2, _⟩ := ((agree_steps nodes P P P 0 hP).withSeeds (· = r)).reset fuel r hr
      (fun _ _ h => h.2) w v ⟨h, hsd⟩
    exact ⟨h1, h2⟩

theorem Act.agree (hP : ∀ r, P r → ∀ c ∈ Node.childRefs (nodes r), P c)
    (hsrc : ∀ r, P r → ∀ g ∈ Node.sourceRefs (nodes r), P g) (a : Act) (ha : a.On P) :
    Rel (Agree (R := R) nodes P P P) (a.run str) (a.run str) := by
  cases a with
  | call fuel r arg =>
    refine Rel.bind (agree_call (fun wr => (same_steps nodes wr P hP hsrc).call str fuel r ha
      arg) fun w x => ?_) fun v => Rel.pure _ _
    exact C56_configuration str fuel r arg w x
  | reset fuel r => exact Rel.bind (agree_reset hP fuel ha) fun _ => Rel.pure _ _
  | seed fuel r z =>
    exact Rel.bind ((agree_steps nodes P P P z hP).seed fuel r ha) fun _ => Rel.pure _ _
  | document fuel fields =>
    refine Rel.bind (agree_call (fun wr => document_same hP hsrc str fuel fields ha)
      fun w x => ?_) fun v => Rel.pure _ _
    exact C56_document str fuel fields w x
  | resetFields fuel fields =>
    refine Rel.bind ?_ fun _ => Rel.pure _ _
    rw [resetFields_eq]
    refine Group.doMethod_rel fun c hc => ?_
    obtain ⟨kf, hkf, rfl⟩ := List.mem_map.1 hc
    exact agree_reset hP fuel (ha kf hkf)
  | seedFields fuel z fields =>
    refine Rel.bind ?_ fun _ => Rel.pure _ _
    rw [seedFields_eq]
    refine Group.doMethod_rel fun c hc => ?_
    obtain ⟨kf, hkf, rfl⟩ := List.mem_map.1 hc
    exact (agree_steps nodes P P P z hP).seed fuel _ (ha kf hkf)

theorem agree_away {w u v : World R} (h : Agree nodes P P P w v) (hu : Away P w u) :
    Agree nodes P P P u v where
  left x hx := by rw [hu.same x hx]; exact h.left x hx
  right := h.right
  shape x hx := by rw [hu.same x hx]; exact h.shape x hx
  same x hx := by rw [hu.same x hx]; exact h.same x hx
  seeds x hx := by rw [hu.same x hx]; exact h.seeds x hx

theorem agree_self {w : World R} (h : SelfContained P w) :
    Agree (fun x => (w.obj x).node) P P P w w where
  left _ _ := rfl
  right _ _ := rfl
  shape _ _ := rfl
  same _ _ := rfl
  seeds x hx hr := by
    obtain ⟨z, hz⟩ := Option.ne_none_iff_exists'.1 (h.seeded x hx (by rw [Attrs.random_eq]; exact hr))
    exact ⟨z, hz, hz⟩

theorem woven_agree (hP : ∀ r, P r → ∀ c ∈ Node.childRefs (nodes r), P c)
    (hsrc : ∀ r, P r → ∀ g ∈ Node.sourceRefs (nodes r), P g) {w v : World R} {as : List Act}
    {os : List (Except Err Outcome)} (h : Woven P str w as os v) (u : World R)
    (hw : Secluded P w) (hA : Agree nodes P P P w u) :
    os = (runActs str as u).1 ∧ Agree nodes P P P v (runActs str as u).2 := by
  induction h generalizing u with
  | nil w => exact ⟨rfl, hA⟩
  | own ha h ih =>
    rename_i w v a as os
    obtain ⟨h1, h2⟩ := Act.agree (str := str) hP hsrc a ha w u hA
    have hk := a.kept (str := str) w
    obtain ⟨h3, h4⟩ := ih _ (hw.of_nodes hk.next fun x => node_of_base (hk.base x)) h2
    exact ⟨by unfold runActs; dsimp only; rw [h1, h3], h4⟩
  | other h h' ih =>
    have := h.away (.refl hw)
    exact ih u this.apart (agree_away hA this)

end

end Fauxdoc
