import Verif.Spec.World
import Verif.Proofs.ClassRel
import Verif.Proofs.Choice4
/-
Calls in the object store: what any relation between stores must satisfy to be respected by calls.
-/
set_option linter.unusedSectionVars false
namespace Fauxdoc
open PyM
variable {K : Type} [Field K] [LinearOrder K] [FloorRing K] {R : Rng K}

/-- A `Choice` without `replace_only_after_call` is drawn from all at once by a `Text`. -/
theorem Choice.roacInfo_of_not {s : ChoiceSt Val R × Nat} (h : s.1.roac = false) :
    Choice.roacInfo s = (.ok none, s) := by
  unfold Choice.roacInfo
  rw [Choice.self_bind, h]
  rfl

namespace World

/-- The steps that calls of the objects in `P` consist of respect the relation `S`.  `nodes` and
`wrappers` are the classes and wrapper functions of these objects in all related stores. -/
structure CallSteps (nodes : Ref → Option Node) (wrappers : Ref → Option (Callback R.G))
    (P : Ref → Prop) (S : World R → World R → Prop) : Prop where
  left : ∀ w v r, S w v → P r → (w.obj r).node = nodes r ∧ (w.obj r).wrapper = wrappers r
  right : ∀ w v r, S w v → P r → (v.obj r).node = nodes r ∧ (v.obj r).wrapper = wrappers r
  closed : ∀ r, P r → ∀ c ∈ Node.childRefs (nodes r), P c
  source : ∀ w v r, S w v → P r → ∀ g ∈ Node.sourceRefs (nodes r),
    (w.obj g).name = (v.obj g).name ∧ (w.obj g).cache = (v.obj g).cache ∧
      multiValued g w = multiValued g v
  choice : ∀ r k, P r → nodes r = some (.choice k) →
    (∀ arg, Rel S (onChoice r (Choice.child arg)) (onChoice r (Choice.child arg))) ∧
    Rel S (onChoice r Choice.roacInfo) (onChoice r Choice.roacInfo) ∧
    (Rel S (onChoice r Choice.reset) (onChoice r Choice.reset) ∨
      ∀ w v, S w v → (w.obj r).choice.roac = false)
  static : ∀ r, P r → nodes r = some .static → ChildRel S (staticChild r) (staticChild r)
  iter : ∀ r, P r → nodes r = some .iterative → ChildRel S (iterChild r) (iterChild r)
  seq : ∀ r k, P r → nodes r = some (.sequential k) → ChildRel S (seqChild r) (seqChild r)
  rng : ∀ r, P r → Node.hasWrapper (nodes r) = true → AttrRel S (rngAttr r) (rngAttr r)
  cache : ∀ r n e rp g h, P r → nodes r = some (.field n e rp g h) →
    ∀ x, Rel S (PyM.modify ((cacheAttr r).set x)) (PyM.modify ((cacheAttr r).set x))

variable {nodes : Ref → Option Node} {wrappers : Ref → Option (Callback R.G)} {P : Ref → Prop}
  {S : World R → World R → Prop}

theorem CallSteps.group (h : CallSteps nodes wrappers P S) {r : Ref} (hr : P r)
    {c c' : Ref → PyM (World R) Val} {rs rs' : Ref → PyM (World R) Unit}
    {sd sd' : Ref → Option Int → PyM (World R) Unit} {w v s t : World R} {src : List Ref}
    {single : Bool} (hsrc : Node.sourceRefs (nodes r) = src) (hwv : S w v) (hst : S s t) :
    GroupAt s t (sourceGroup c rs sd w src single) (sourceGroup c' rs' sd' v src single) where
  single := rfl
  fields := by
    unfold sourceGroup
    dsimp only
    rw [List.forall₂_map_left_iff, List.forall₂_map_right_iff, List.forall₂_same]
    intro g hg
    rw [← hsrc] at hg
    exact ⟨(h.source w v r hwv hr g hg).1, (h.source s t r hst hr g hg).2.1,
      (h.source s t r hst hr g hg).2.2⟩

theorem CallSteps.wordRel (h : CallSteps nodes wrappers P S) {r : Ref} (hr : P r) (fuel : Nat)
    {c : Child (World R)} (hc : ChildRel S c c) :
    WordRel S ⟨c, reset fuel r, roacInfo r⟩ ⟨c, reset fuel r, roacInfo r⟩ where
  call := hc
  roac := by
    refine Rel.get_bind fun w v hwv => ?_
    rw [(h.left w v r hwv hr).1, (h.right w v r hwv hr).1]
    rcases hn : nodes r with _ | node
    · exact ⟨rfl, hwv⟩
    · cases node with
      | choice k => exact (h.choice r k hr hn).2.1 w v hwv
      | _ => exact ⟨rfl, hwv⟩
  reset := by
    by_cases hk : ∃ k, nodes r = some (.choice k)
    · obtain ⟨k, hk⟩ := hk
      rcases (h.choice r k hr hk).2.2 with hres | hroac
      · refine Or.inl ?_
        cases fuel with
        | zero => exact Rel.raise S _
        | succ fuel =>
          unfold World.reset
          refine Rel.get_bind fun w v hwv => ?_
          rw [(h.left w v r hwv hr).1, (h.right w v r hwv hr).1, hk]
          exact hres w v hwv
      · refine Or.inr fun s r' t e s0 hs => ?_
        unfold roacInfo at e
        dsimp only at e
        rw [PyM.run_get_bind, (h.left s s0 r hs hr).1, hk] at e
        change onChoice r Choice.roacInfo s = _ at e
        unfold onChoice at e
        rw [Choice.roacInfo_of_not (hroac s s0 hs)] at e
        cases e; rfl
    · refine Or.inr fun s r' t e s0 hs => ?_
      unfold roacInfo at e
      dsimp only at e
      rw [PyM.run_get_bind, (h.left s s0 r hs hr).1] at e
      rcases hn : nodes r with _ | node
      · rw [hn] at e; cases e; rfl
      · rw [hn] at e
        cases node with
        | choice k => exact absurd ⟨k, hn⟩ hk
        | _ => cases e; rfl

/-- Calls respect every relation that their steps respect. -/
theorem CallSteps.call (h : CallSteps nodes wrappers P S) (str : Val → List Char) :
    ∀ (fuel : Nat) (r : Ref), P r → ChildRel S (World.call str fuel r) (World.call str fuel r) := by
  intro fuel
  induction fuel with
  | zero => intro r _ arg; exact Rel.raise S _
  | succ fuel ih =>
    intro r hr arg
    unfold World.call
    refine Rel.get_bind fun w v hwv => ?_
    obtain ⟨n1, w1⟩ := h.left w v r hwv hr
    obtain ⟨n2, w2⟩ := h.right w v r hwv hr
    have hcl := h.closed r hr
    rw [n1, w1, n2, w2]
    cases hn : nodes r with
    | none => exact ⟨rfl, hwv⟩
    | some node =>
      rw [hn] at hcl
      cases node with
      | choice k => exact (h.choice r k hr hn).1 arg w v hwv
      | static => exact h.static r hr hn arg w v hwv
      | iterative => exact h.iter r hr hn arg w v hwv
      | sequential k => exact h.seq r k hr hn arg w v hwv
      | word l c =>
        exact Word.call_rel (ih l (hcl l (by simp [Node.childRefs])))
          (ih c (hcl c (by simp [Node.childRefs]))) arg w v hwv
      | text n wd s =>
        have hwd := hcl wd (by simp [Node.childRefs])
        exact Text.call_rel (h.wordRel hwd fuel (ih wd hwd))
          (ih n (hcl n (by simp [Node.childRefs]))) (ih s (hcl s (by simp [Node.childRefs])))
          arg w v hwv
      | wrapOne s =>
        cases wrappers r with
        | none => exact ⟨rfl, hwv⟩
        | some cb =>
          exact WrapOne.call_rel (h.rng r hr (by rw [hn]; rfl)) cb (ih s (hcl s (by simp [Node.childRefs]))) arg w v
            hwv
      | wrapMany ss =>
        cases wrappers r with
        | none => exact ⟨rfl, hwv⟩
        | some cb =>
          refine WrapMany.call_rel (h.rng r hr (by rw [hn]; rfl)) cb ?_ arg w v hwv
          rw [List.forall₂_map_left_iff, List.forall₂_map_right_iff, List.forall₂_same]
          intro ks hks
          exact ⟨rfl, ih ks.2 (hcl ks.2 (List.mem_map_of_mem hks))⟩
      | copyFields src single sep =>
        exact CopyFields.call_rel str sep
          (fun s t hst => h.group hr (by rw [hn]; rfl) hwv hst) arg w v hwv
      | basedOn src single =>
        cases wrappers r with
        | none => exact ⟨rfl, hwv⟩
        | some cb =>
          exact BasedOnFields.call_rel (h.rng r hr (by rw [hn]; rfl)) cb
            (fun s t hst => h.group hr (by rw [hn]; rfl) hwv hst) arg w v hwv
      | field n e rp g hd =>
        cases arg with
        | some x => exact ⟨rfl, hwv⟩
        | none =>
          exact Field.call_rel (h.cache r n e rp g hd hr hn)
            (ih e (hcl e (by simp [Node.childRefs]))) (ih rp (hcl rp (by simp [Node.childRefs])))
            (ih g (hcl g (by simp [Node.childRefs]))) w v hwv

end World
end Fauxdoc
