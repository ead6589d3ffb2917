import Verif.Proofs.World2
import Verif.Spec.WorldDemo
/-
C56, C57: generating data changes neither configurations nor unrelated objects.
-/
set_option linter.unusedSectionVars false
namespace Fauxdoc
open PyM
variable {K : Type} [Field K] [LinearOrder K] [FloorRing K] {R : Rng K}

theorem Below.trans {w : World R} {a b c : Ref} (h : Below w a b) (h' : Below w b c) :
    Below w a c := by
  induction h with
  | self => exact h'
  | step hc _ ih => exact .step hc (ih h')

theorem Below.child {w : World R} {a b c : Ref} (h : Below w a b) (hc : c ∈ (w.obj b).children) :
    Below w a c := h.trans (.step hc (.self c))

/-- **C56.** Whatever object is called in whatever way, and whether or not the call raises, no object
changes its class, children, sources, names, flags, items, weights, factories, wrapper functions or
seeds. -/
theorem C56_configuration (str : Val → List Char) (fuel : Nat) (r : Ref) (arg : Option Val)
    (w : World R) : SameConfig w (World.call str fuel r arg w).2 :=
  (World.call_frame str fuel r arg (fun _ => True) w (fun _ _ _ _ => trivial) trivial w
    (.refl _ w)).config

/-- **C56 (attribute by attribute).** -/
theorem C56_attributes (str : Val → List Char) (fuel : Nat) (r x : Ref) (arg : Option Val)
    (w : World R) :
    let a := w.obj x
    let b := (World.call str fuel r arg w).2.obj x
    b.node = a.node ∧ b.items = a.items ∧ b.rngSeed = a.rngSeed ∧ b.wrapper = a.wrapper ∧
    b.numUnique = a.numUnique ∧ b.static = a.static ∧
    b.choice.items = a.choice.items ∧ b.choice.weights = a.choice.weights ∧
    b.choice.cumWeights = a.choice.cumWeights ∧ b.choice.replace = a.choice.replace ∧
    b.choice.roac = a.choice.roac ∧ b.iter.factory = a.iter.factory ∧
    b.iter.resetAfterCall = a.iter.resetAfterCall ∧ b.seq.items = a.seq.items ∧
    b.seq.it.factory = a.seq.it.factory ∧ b.seq.it.resetAfterCall = a.seq.it.resetAfterCall := by
  intro a b
  have h : b.config = a.config := C56_configuration str fuel r arg w x
  have key : ∀ {β : Type} (f : Attrs R → β), (∀ a, f a.config = f a) → f b = f a := by
    intro β f hf
    rw [← hf b, h, hf a]
  have hch : ∀ {β : Type} (f : ChoiceSt Val R → β), (∀ c, f c.config = f c) → ∀ a : Attrs R,
      f a.config.choice = f a.choice := by
    intro β f hf a
    unfold Attrs.config
    split <;> first | rfl | exact hf _
  have hcs : b.choice.rngSeed = a.choice.rngSeed := key (·.choice.rngSeed)
    (hch (·.rngSeed) fun c => by unfold ChoiceSt.config; split <;> rfl)
  have hci : b.choice.items = a.choice.items := key (·.choice.items)
    (hch (·.items) fun c => by unfold ChoiceSt.config; split <;> rfl)
  have hn : b.node = a.node := key (·.node) World.config_node
  have hst : b.static = a.static := key (·.static) fun a => by unfold Attrs.config; split <;> rfl
  have hsi : b.seq.items = a.seq.items :=
    key (·.seq.items) fun a => by unfold Attrs.config; split <;> rfl
  have hsd : b.seed = a.seed := key (·.seed) fun a => by unfold Attrs.config; split <;> rfl
  refine ⟨hn, ?_, ?_, key (·.wrapper) World.config_wrapper,
    key (·.numUnique) fun a => by unfold Attrs.config; split <;> rfl, hst, hci,
    key (·.choice.weights) (hch (·.weights) fun c => by unfold ChoiceSt.config; split <;> rfl),
    key (·.choice.cumWeights) (hch (·.cumWeights) fun c => by unfold ChoiceSt.config; split <;> rfl),
    key (·.choice.replace) (hch (·.replace) fun c => by unfold ChoiceSt.config; split <;> rfl),
    key (·.choice.roac) (hch (·.roac) fun c => by unfold ChoiceSt.config; split <;> rfl),
    key (·.iter.factory) fun a => by unfold Attrs.config; split <;> rfl,
    key (·.iter.resetAfterCall) fun a => by unfold Attrs.config; split <;> rfl, hsi,
    key (·.seq.it.factory) fun a => by unfold Attrs.config; split <;> rfl,
    key (·.seq.it.resetAfterCall) fun a => by unfold Attrs.config; split <;> rfl⟩
  · unfold Attrs.items
    rw [hn, hci, hst, hsi]
  · unfold Attrs.rngSeed
    rw [hn, hcs, hsd]

/-- **C57.** A call changes the state of no object other than the called one and the emitters below
it (source fields of `CopyFields` and `BasedOnFields` are not below). -/
theorem C57_only_below (str : Val → List Char) (fuel : Nat) (r x : Ref) (arg : Option Val)
    (w : World R) (h : ¬ Below w r x) : (World.call str fuel r arg w).2.obj x = w.obj x :=
  (World.call_frame str fuel r arg (Below w r) w (fun _ hr _ hc => hr.child hc) (.self r) w
    (.refl _ w)).frame x h

theorem World.document_frame (str : Val → List Char) (fuel : Nat) (fields : Dict Ref)
    (P : Ref → Prop) (w : World R) (hP : ∀ r, P r → ∀ c ∈ (w.obj r).children, P c)
    (hf : ∀ kf ∈ fields, P kf.2) : World.Frame P w (World.document str fuel fields w).2 := by
  have h : Rel (fun v v' => v = v' ∧ World.Frame P w v)
      (Schema.loop (fun r => (w.obj r).hide) (fun r => World.call str fuel r none) [] fields)
      (Schema.loop (fun r => (w.obj r).hide) (fun r => World.call str fuel r none) [] fields) :=
    Schema.loop_rel fields [] fun kf hkf =>
      ⟨rfl, (World.call_frame str fuel kf.2 none P w hP (hf kf hkf)).rel⟩
  exact (h w w ⟨rfl, .refl _ w⟩).2.2

/-- **C56 (schemas).** Generating a document changes no configuration. -/
theorem C56_document (str : Val → List Char) (fuel : Nat) (fields : Dict Ref) (w : World R) :
    SameConfig w (World.document str fuel fields w).2 :=
  (World.document_frame str fuel fields (fun _ => True) w (fun _ _ _ _ => trivial)
    fun _ _ => trivial).config

/-- **C57 (schemas).** Generating a document changes only its fields and the emitters below them. -/
theorem C57_document (str : Val → List Char) (fuel : Nat) (fields : Dict Ref) (x : Ref)
    (w : World R) (h : ∀ kf ∈ fields, ¬ Below w kf.2 x) :
    (World.document str fuel fields w).2.obj x = w.obj x :=
  (World.document_frame str fuel fields (fun y => ∃ kf ∈ fields, Below w kf.2 y) w
    (fun _ ⟨kf, h1, h2⟩ _ hc => ⟨kf, h1, h2.child hc⟩) fun kf h1 => ⟨kf, h1, .self _⟩).frame x
    fun ⟨kf, h1, h2⟩ => h kf h1 h2

/-! ### Examples -/

/-- Building the schema works, ... -/
example : (demoSchema emptyWorld).1 = .ok demoFields := by decide +kernel
/-- ... it produces documents (`n` starts at 2 because `BasedOnFields` called it once), ... -/
example : (World.document demoStr 5 demoFields demoWorld).1 =
    .ok [("n", .int 2), ("tags", .list [.str ['x'], .str ['y']]), ("copy", .str "2-8".toList),
      ("pair", .list [.int 2, .int 2])] := by decide +kernel
/-- ... generating one changes generator states and caches below, ... -/
example : ((World.document demoStr 5 demoFields demoWorld).2.obj 8).choice.rng ≠
    (demoWorld.obj 8).choice.rng := by decide +kernel
example : ((World.document demoStr 5 demoFields demoWorld).2.obj 3).cache ≠
    (demoWorld.obj 3).cache := by decide +kernel
/-- ... and calling `copy` does not touch its source `n`. -/
example : ¬ Below demoWorld 15 3 := by
  have hc : (demoWorld.obj 15).children = [12, 13, 14] := by decide +kernel
  have h12 : (demoWorld.obj 12).children = [] := by decide +kernel
  have h13 : (demoWorld.obj 13).children = [] := by decide +kernel
  have h14 : (demoWorld.obj 14).children = [] := by decide +kernel
  intro h
  cases h with
  | step hm h =>
    rw [hc] at hm
    simp only [List.mem_cons, List.not_mem_nil, or_false] at hm
    rcases hm with rfl | rfl | rfl <;> cases h with
    | step hm _ => first | (rw [h12] at hm; cases hm) | (rw [h13] at hm; cases hm) | (rw [h14] at hm; cases hm)

end Fauxdoc
