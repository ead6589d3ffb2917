import Verif.Proofs.Halt2
/-
Any two recursion limits that exceed the nesting depth of an object give the same results.
-/
set_option linter.unusedSectionVars false
namespace Fauxdoc
open PyM
variable {K : Type} [Field K] [LinearOrder K] [FloorRing K] [IsStrictOrderedRing K] {R : Rng K}

namespace World
variable {P : Ref → Prop} {depth : Ref → Nat} {nodes : Ref → Option Node}

/-- The same store, with objects of the given classes. -/
def SameAs (nodes : Ref → Option Node) (w v : World R) : Prop := w = v ∧ NodesAs nodes w

theorem children_of_nodes {w : World R} (h : NodesAs nodes w) (r : Ref) :
    (w.obj r).children = Node.childRefs (nodes r) := by
  unfold Attrs.children
  rw [h r]

theorem call_nodes (str : Val → List Char) (fuel : Nat) (r : Ref) (arg : Option Val) :
    Keeps (NodesAs (R := R) nodes) (call str fuel r arg) := by
  intro w hw x
  rw [node_of_shape (call_alike str w fuel r arg w (fun _ => rfl) x)]
  exact hw x

theorem mixinReset_fuel {f g : Ref → PyM (World R) Unit} {r : Ref}
    (h : ∀ c ∈ Node.childRefs (nodes r), Rel (SameAs nodes) (f c) (g c)) :
    Rel (SameAs nodes) (mixinReset f r) (mixinReset g r) := by
  unfold mixinReset
  refine Rel.get_bind ?_
  rintro w v ⟨rfl, hw⟩
  rw [← children_of_nodes hw r] at h
  exact (Keeps.rel (setChildSeeds_nodes _ _)).bind (fun _ => (Keeps.rel (newRng_nodes _ _)).bind
    fun _ => Group.doMethod_rel h) w w ⟨rfl, hw⟩

theorem mixinSeed_nodes (r : Ref) (s : Option Int) :
    Keeps (NodesAs (R := R) nodes) (mixinSeed r s) := by
  intro v hv
  unfold mixinSeed
  rw [run_modify_bind]
  exact newRng_nodes r s _ (nodesAs_upd hv r (fun a => { a with seed := s }) v.entropy rfl)

theorem mixinChildSeed_fuel {f g : Ref → Option Int → PyM (World R) Unit} {r : Ref} {s : Option Int}
    (h : ∀ c ∈ Node.childRefs (nodes r), Rel (SameAs nodes) (f c s) (g c s)) :
    Rel (SameAs nodes) (mixinChildSeed f r s) (mixinChildSeed g r s) := by
  unfold mixinChildSeed
  refine Rel.get_bind ?_
  rintro w v ⟨rfl, hw⟩
  rw [← children_of_nodes hw r] at h
  exact (Group.doMethod_rel h).bind (fun _ => Rel.ignoring (Keeps.rel (mixinSeed_nodes r s)))
    w w ⟨rfl, hw⟩

theorem reset_fuel (hR : Ranked P depth nodes) : ∀ (f g : Nat) (r : Ref), P r → depth r < f →
    depth r < g → Rel (SameAs (R := R) nodes) (reset f r) (reset g r) := by
  intro f
  induction f with
  | zero => intro g r _ h; exact absurd h (Nat.not_lt_zero _)
  | succ f ih =>
    intro g r hr hf hg
    rcases g with _ | g
    · exact absurd hg (Nat.not_lt_zero _)
    have hk : ∀ c ∈ Node.childRefs (nodes r), Rel (SameAs (R := R) nodes) (reset f c) (reset g c) :=
      fun c hc => ih g c (hR r hr c hc).1 ((hR r hr c hc).2.trans_le (Nat.le_of_lt_succ hf))
        ((hR r hr c hc).2.trans_le (Nat.le_of_lt_succ hg))
    have hmix := mixinReset_fuel hk
    rintro w v ⟨rfl, hw⟩
    have hkeep := reset_nodes (nodes := nodes) (f + 1) r w hw
    unfold reset at hkeep ⊢
    rw [run_get_bind] at hkeep ⊢
    rw [run_get_bind]
    rcases hn : (w.obj r).node with _ | node
    · exact ⟨rfl, rfl, hw⟩
    · rw [hn] at hkeep
      have htwice : Rel (SameAs nodes) (do
          mixinReset (reset f) r
          let a := (← PyM.get).obj r
          setChildSeeds a.children a.seed
          Group.doMethod (a.children.map some) (reset f) : PyM (World R) Unit) (do
          mixinReset (reset g) r
          let a := (← PyM.get).obj r
          setChildSeeds a.children a.seed
          Group.doMethod (a.children.map some) (reset g) : PyM (World R) Unit) := by
        refine hmix.bind fun _ => Rel.get_bind ?_
        rintro s t ⟨rfl, hs⟩
        have hk := hk
        rw [← children_of_nodes hs r] at hk
        exact (Keeps.rel (setChildSeeds_nodes _ _)).bind (fun _ => Group.doMethod_rel hk) s s ⟨rfl, hs⟩
      cases node with
      | choice k => exact ⟨rfl, rfl, hkeep⟩
      | static => exact ⟨rfl, rfl, hkeep⟩
      | iterative => exact ⟨rfl, rfl, hkeep⟩
      | sequential k => exact ⟨rfl, rfl, hkeep⟩
      | copyFields a b c => exact ⟨rfl, rfl, hkeep⟩
      | basedOn a b => exact ⟨rfl, rfl, hkeep⟩
      | word l c => exact htwice w w ⟨rfl, hw⟩
      | text n wd s => exact htwice w w ⟨rfl, hw⟩
      | wrapOne s => exact hmix w w ⟨rfl, hw⟩
      | wrapMany ss => exact hmix w w ⟨rfl, hw⟩
      | field n e rp g' h =>
        refine hmix.bind (fun _ => Keeps.rel fun v hv => ?_) w w ⟨rfl, hw⟩
        exact nodesAs_upd hv r (fun a => { a with cache := Val.none }) v.entropy rfl

theorem seed_fuel (hR : Ranked P depth nodes) : ∀ (f g : Nat) (r : Ref) (s : Option Int), P r →
    depth r < f → depth r < g → Rel (SameAs (R := R) nodes) (seed f r s) (seed g r s) := by
  intro f
  induction f with
  | zero => intro g r s _ h; exact absurd h (Nat.not_lt_zero _)
  | succ f ih =>
    intro g r s hr hf hg
    rcases g with _ | g
    · exact absurd hg (Nat.not_lt_zero _)
    have hk : ∀ c ∈ Node.childRefs (nodes r), ∀ s,
        Rel (SameAs (R := R) nodes) (seed f c s) (seed g c s) :=
      fun c hc s => ih g c s (hR r hr c hc).1 ((hR r hr c hc).2.trans_le (Nat.le_of_lt_succ hf))
        ((hR r hr c hc).2.trans_le (Nat.le_of_lt_succ hg))
    have hmix := mixinChildSeed_fuel (s := s) fun c hc => hk c hc s
    rintro w v ⟨rfl, hw⟩
    have hkeep := seed_nodes (nodes := nodes) (f + 1) r s w hw
    unfold seed at hkeep ⊢
    rw [run_get_bind] at hkeep ⊢
    rw [run_get_bind]
    rcases hn : (w.obj r).node with _ | node
    · exact ⟨rfl, rfl, hw⟩
    · rw [hn] at hkeep
      have htwice : Rel (SameAs nodes) (do
          mixinChildSeed (seed f) r s
          let a := (← PyM.get).obj r
          Group.doMethod (a.children.map some) (seed f · a.seed) : PyM (World R) Unit) (do
          mixinChildSeed (seed g) r s
          let a := (← PyM.get).obj r
          Group.doMethod (a.children.map some) (seed g · a.seed) : PyM (World R) Unit) := by
        refine hmix.bind fun _ => Rel.get_bind ?_
        rintro s t ⟨rfl, hs⟩
        have hk := hk
        rw [← children_of_nodes hs r] at hk
        exact Group.doMethod_rel (fun c hc => hk c hc _) s s ⟨rfl, hs⟩
      cases node with
      | choice k => exact ⟨rfl, rfl, hkeep⟩
      | static => exact ⟨rfl, rfl, hkeep⟩
      | iterative => exact ⟨rfl, rfl, hkeep⟩
      | sequential k => exact ⟨rfl, rfl, hkeep⟩
      | copyFields a b c => exact ⟨rfl, rfl, hkeep⟩
      | basedOn a b => exact ⟨rfl, rfl, hkeep⟩
      | word l c => exact htwice w w ⟨rfl, hw⟩
      | text n wd s => exact htwice w w ⟨rfl, hw⟩
      | wrapOne s => exact hmix w w ⟨rfl, hw⟩
      | wrapMany ss => exact hmix w w ⟨rfl, hw⟩
      | field n e rp g' h => exact hmix w w ⟨rfl, hw⟩

theorem call_fuel (str : Val → List Char) (hR : Ranked P depth nodes) :
    ∀ (f g : Nat) (r : Ref), P r → depth r < f → depth r < g →
    ChildRel (SameAs (R := R) nodes) (call str f r) (call str g r) := by
  intro f
  induction f with
  | zero => intro g r _ h; exact absurd h (Nat.not_lt_zero _)
  | succ f ih =>
    intro g r hr hf hg arg
    rcases g with _ | g
    · exact absurd hg (Nat.not_lt_zero _)
    have hk : ∀ c ∈ Node.childRefs (nodes r),
        ChildRel (SameAs (R := R) nodes) (call str f c) (call str g c) ∧ 
        Rel (SameAs (R := R) nodes) (reset f c) (reset g c) :=
      fun c hc =>
        have h1 := (hR r hr c hc).2.trans_le (Nat.le_of_lt_succ hf)
        have h2 := (hR r hr c hc).2.trans_le (Nat.le_of_lt_succ hg)
        ⟨ih g c (hR r hr c hc).1 h1 h2, reset_fuel hR f g c (hR r hr c hc).1 h1 h2⟩
    have hrng : AttrRel (SameAs (R := R) nodes) (rngAttr r) (rngAttr r) := fun m =>
      Keeps.rel fun v hv => nodesAs_upd hv r (fun a => { a with rng := (m (v.obj r).rng).2 }) v.entropy
        rfl
    rintro w v ⟨rfl, hw⟩
    have hkeep := call_nodes (nodes := nodes) str (f + 1) r arg w hw
    unfold call at hkeep ⊢
    rw [run_get_bind] at hkeep ⊢
    rw [run_get_bind]
    rw [← hw r] at hk
    rcases hn : (w.obj r).node with _ | node
    · exact ⟨rfl, rfl, hw⟩
    · rw [hn] at hkeep hk
      cases node with
      | choice k => exact ⟨rfl, rfl, hkeep⟩
      | static => exact ⟨rfl, rfl, hkeep⟩
      | iterative => exact ⟨rfl, rfl, hkeep⟩
      | sequential k => exact ⟨rfl, rfl, hkeep⟩
      | word l c =>
        exact Word.call_rel (hk l (by simp [Node.childRefs])).1 (hk c (by simp [Node.childRefs])).1 arg w w
          ⟨rfl, hw⟩
      | text n wd s =>
        have hwd := hk wd (by simp [Node.childRefs])
        refine Text.call_rel ⟨hwd.1, ?_, .inl hwd.2⟩ (hk n (by simp [Node.childRefs])).1
          (hk s (by simp [Node.childRefs])).1 arg w w ⟨rfl, hw⟩
        exact Keeps.rel fun v hv => by rw [roacInfo_same]; exact hv
      | wrapOne s =>
        rcases hwr : (w.obj r).wrapper with _ | cb
        · exact ⟨rfl, rfl, hw⟩
        · exact WrapOne.call_rel hrng cb (hk s (by simp [Node.childRefs])).1 arg w w ⟨rfl, hw⟩
      | wrapMany ss =>
        rcases hwr : (w.obj r).wrapper with _ | cb
        · exact ⟨rfl, rfl, hw⟩
        · refine WrapMany.call_rel hrng cb ?_ arg w w ⟨rfl, hw⟩
          rw [List.forall₂_map_left_iff, List.forall₂_map_right_iff, List.forall₂_same]
          intro ks hks
          exact ⟨rfl, (hk ks.2 (List.mem_map_of_mem hks)).1⟩
      | copyFields src single sep =>
        refine CopyFields.call_rel str sep ?_ arg w w ⟨rfl, hw⟩
        rintro s t ⟨rfl, hs⟩
        refine ⟨rfl, ?_⟩
        unfold sourceGroup
        dsimp only
        rw [List.forall₂_map_left_iff, List.forall₂_map_right_iff, List.forall₂_same]
        exact fun g _ => ⟨rfl, rfl, rfl⟩
      | basedOn src single =>
        rcases hwr : (w.obj r).wrapper with _ | cb
        · exact ⟨rfl, rfl, hw⟩
        · refine BasedOnFields.call_rel hrng cb ?_ arg w w ⟨rfl, hw⟩
          rintro s t ⟨rfl, hs⟩
          refine ⟨rfl, ?_⟩
          unfold sourceGroup
          dsimp only
          rw [List.forall₂_map_left_iff, List.forall₂_map_right_iff, List.forall₂_same]
          exact fun g _ => ⟨rfl, rfl, rfl⟩
      | field n e rp g' h =>
        cases arg with
        | some x => exact ⟨rfl, rfl, hw⟩
        | none =>
          refine Field.call_rel (fun x => Keeps.rel fun v hv => ?_)
            (hk e (by simp [Node.childRefs])).1 (hk rp (by simp [Node.childRefs])).1
            (hk g' (by simp [Node.childRefs])).1 w w ⟨rfl, hw⟩
          exact nodesAs_upd hv r (fun a => { a with cache := x }) v.entropy rfl

end World
end Fauxdoc
