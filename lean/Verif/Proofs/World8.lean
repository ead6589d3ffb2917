import Verif.Proofs.World7
/-
Seeding in the object store.
-/
set_option linter.unusedSectionVars false
namespace Fauxdoc
open PyM
variable {K : Type} [Field K] [LinearOrder K] [FloorRing K] {R : Rng K}

namespace World
variable {nodes : Ref → Option Node} {P X Y T : Ref → Prop} {s : Option Int}
  {S : World R → World R → Prop}

theorem setSeed_not_choice {a : Attrs R} (h : Node.isChoice a.node = false) (z : Option Int) :
    a.setSeed z = { a with seed := z } := by
  unfold Attrs.setSeed
  split
  · next hk => rw [hk] at h; cases h
  · rfl

theorem mixinSeed_run {r : Ref} {w : World R} (h : Node.isChoice (w.obj r).node = false)
    (z : Option Int) : mixinSeed r z w = newRng r z (w.upd r (Attrs.setSeed z)) := by
  unfold mixinSeed
  rw [PyM.run_modify_bind]
  congr 1
  unfold World.upd
  rw [setSeed_not_choice h]

/-- `RandomMixin.seed` of an object that is not a `Choice`. -/
theorem ResetSteps.mixinSeed (h : ResetSteps nodes P s S) {r : Ref} (hr : P r)
    (hran : Node.isRandom (nodes r) = true) (hch : Node.isChoice (nodes r) = false) (w v : World R)
    (hwv : S w v) : ∃ w' v', mixinSeed r s w = (.ok (), w') ∧ mixinSeed r s v = (.ok (), v') ∧
      S w' v' ∧ SeedsIn nodes s (· = r) w' v' := by
  have hl := h.left w v r hwv hr
  have hrt := h.right w v r hwv hr
  rw [mixinSeed_run (by rw [hl]; exact hch), mixinSeed_run (by rw [hrt]; exact hch)]
  have h1 := h.setSeed r w v hwv hr hran
  have hsd : SeedsIn nodes s (· = r) (w.upd r (Attrs.setSeed s)) (v.upd r (Attrs.setSeed s)) := by
    intro t ht _
    subst ht
    rw [upd_obj, upd_obj, if_pos rfl, if_pos rfl]
    exact ⟨Attrs.setSeed_rngSeed s _, Attrs.setSeed_rngSeed s _⟩
  have e : ∀ u : World R, (u.obj r).node = nodes r → ((u.upd r (Attrs.setSeed s)).obj r).seed = s := by
    intro u hu
    rw [upd_obj, if_pos rfl, setSeed_not_choice (by rw [hu]; exact hch)]
  have := (h.withSeeds (· = r)).newRng r _ _ ⟨h1, hsd⟩ hr hran hch (e w hl) (e v hrt)
  exact ⟨_, _, Prod.ext (newRng_ok _ _ _) rfl, Prod.ext (newRng_ok _ _ _) rfl, this.1, this.2⟩

/-- `RandomWithChildrenMixin.seed`. -/
theorem ResetSteps.mixinChildSeed (h : ResetSteps nodes P s S)
    {f : Ref → Option Int → PyM (World R) Unit} (hf : ∀ c, P c → Rel S (f c s) (f c s))
    {r : Ref} (hr : P r) (hran : Node.isRandom (nodes r) = true)
    (hch : Node.isChoice (nodes r) = false) (w v : World R) (hwv : S w v) :
    (mixinChildSeed f r s w).1 = (mixinChildSeed f r s v).1 ∧
    S (mixinChildSeed f r s w).2 (mixinChildSeed f r s v).2 ∧
    ((mixinChildSeed f r s w).1 = .ok () →
      SeedsIn nodes s (· = r) (mixinChildSeed f r s w).2 (mixinChildSeed f r s v).2) := by
  have hdo := Group.doMethod_rel (S := S) (l := Node.childRefs (nodes r)) (f := (f · s))
    (f' := (f · s)) (fun c hc => hf c (h.closed r hr c hc)) w v hwv
  unfold World.mixinChildSeed
  rw [PyM.run_get_bind, PyM.run_get_bind]
  unfold Attrs.children
  rw [h.left w v r hwv hr, h.right w v r hwv hr, PyM.bind_apply, PyM.bind_apply]
  rcases hd : Group.doMethod ((Node.childRefs (nodes r)).map some) (f · s) w with ⟨x | u, w1⟩ <;>
    rcases hd' : Group.doMethod ((Node.childRefs (nodes r)).map some) (f · s) v with ⟨x' | u', v1⟩ <;>
    rw [hd, hd'] at hdo
  · obtain ⟨h1, h2⟩ := hdo
    cases h1
    exact ⟨rfl, h2, fun h => by cases h⟩
  · cases hdo.1
  · cases hdo.1
  · obtain ⟨w2, v2, e1, e2, h1, h2⟩ := h.mixinSeed hr hran hch w1 v1 hdo.2
    dsimp only
    unfold PyM.ignoring
    rw [e1, e2]
    exact ⟨rfl, h1, fun _ => h2⟩

/-- `Choice.seed`. -/
theorem onChoice_seed (r : Ref) {k : ItemsKind} {w : World R} (hk : (w.obj r).node = some (.choice k))
    (z : Option Int) :
    onChoice r (Choice.seed z) w = onChoice r Choice.reset (w.upd r (Attrs.setSeed z)) := by
  have hz : (w.obj r).setSeed z = { w.obj r with choice := { (w.obj r).choice with rngSeed := z } } := by
    unfold Attrs.setSeed
    split
    · rfl
    · next h => exact absurd hk (h k)
  have hob : (w.upd r (Attrs.setSeed z)).obj r =
      { w.obj r with choice := { (w.obj r).choice with rngSeed := z } } := by
    rw [upd_obj, if_pos rfl, hz]
  unfold onChoice
  rw [hob, Choice.seed_reset]
  change (match Choice.reset (({ (w.obj r).choice with rngSeed := z } : ChoiceSt Val R), w.entropy) with
    | (res, (c, e)) => (res, { w.upd r (fun a => { a with choice := c }) with entropy := e }) :
      Except Err PUnit × World R) =
    match Choice.reset (({ (w.obj r).choice with rngSeed := z } : ChoiceSt Val R), w.entropy) with
    | (res, (c, e)) => (res, { (w.upd r (Attrs.setSeed z)).upd r (fun a => { a with choice := c })
        with entropy := e })
  rcases Choice.reset (({ (w.obj r).choice with rngSeed := z } : ChoiceSt Val R), w.entropy) with
    ⟨res, c, e⟩
  dsimp only
  rw [Prod.mk.injEq]
  refine ⟨rfl, ?_⟩
  congr 1
  funext x
  rw [upd_obj, upd_obj, hob]
  by_cases hx : x = r
  · rw [if_pos hx, if_pos hx]
  · rw [if_neg hx, if_neg hx, upd_obj, if_neg hx]

theorem ResetSteps.onChoiceSeed (h : ResetSteps nodes P s S) {r : Ref} (hr : P r) {k : ItemsKind}
    (hk : nodes r = some (.choice k)) :
    ∀ w v, S w v → Step S (onChoice r (Choice.seed s)) (onChoice r (Choice.seed s)) w v := by
  intro w v hwv
  have hl := (h.left w v r hwv hr).trans hk
  have hrt := (h.right w v r hwv hr).trans hk
  unfold Step
  rw [onChoice_seed r hl, onChoice_seed r hrt]
  have e : ∀ u : World R, (u.obj r).node = some (.choice k) →
      ((u.upd r (Attrs.setSeed s)).obj r).choice.rngSeed = s := by
    intro u hu
    rw [upd_obj, if_pos rfl]
    unfold Attrs.setSeed
    rw [hu]
  exact h.choice r k _ _ (h.setSeed r w v hwv hr (by rw [hk]; rfl)) hr hk (e w hl) (e v hrt)

/-- Any relation that the steps of resetting respect is respected by `seed`. -/
theorem ResetSteps.seed (fuel : Nat) (h : ResetSteps nodes P s S) :
    ∀ r, P r → Rel S (seed fuel r s) (seed fuel r s) := by
  induction fuel with
  | zero => intro r hr; exact Rel.raise S _
  | succ fuel ih =>
    intro r hr
    unfold World.seed
    refine Rel.get_bind fun w v hwv => ?_
    dsimp only
    rw [h.left w v r hwv hr, h.right w v r hwv hr]
    have mix := fun hran hch => h.mixinChildSeed (f := World.seed fuel) ih hr hran hch w v hwv
    have twice : Node.isRandom (nodes r) = true → Node.isChoice (nodes r) = false →
        Step S (do
          World.mixinChildSeed (World.seed fuel) r s
          let a := (← PyM.get).obj r
          Group.doMethod (a.children.map some) (World.seed fuel · a.seed))
        (do
          World.mixinChildSeed (World.seed fuel) r s
          let a := (← PyM.get).obj r
          Group.doMethod (a.children.map some) (World.seed fuel · a.seed)) w v := by
      intro hran hch
      obtain ⟨a, b, c⟩ := mix hran hch
      unfold Step
      rw [PyM.bind_apply, PyM.bind_apply]
      rcases hm : World.mixinChildSeed (World.seed fuel) r s w with ⟨x | u, w1⟩ <;>
        rcases hm' : World.mixinChildSeed (World.seed fuel) r s v with ⟨x' | u', v1⟩ <;>
        rw [hm, hm'] at a b c
      · cases a; exact ⟨rfl, b⟩
      · cases a
      · cases a
      · dsimp only at b c ⊢
        rw [PyM.run_get_bind, PyM.run_get_bind]
        have hb := c rfl r rfl hran
        rw [rngSeed_not_choice (by rw [h.left w1 v1 r b hr]; exact hch),
          rngSeed_not_choice (by rw [h.right w1 v1 r b hr]; exact hch)] at hb
        unfold Attrs.children
        rw [hb.1, hb.2, h.left w1 v1 r b hr, h.right w1 v1 r b hr]
        exact Group.doMethod_rel (S := S) (l := Node.childRefs (nodes r))
          (f := (World.seed fuel · s)) (f' := (World.seed fuel · s))
          (fun c hc => ih c (h.closed r hr c hc)) w1 v1 b
    rcases hn : nodes r with _ | node
    · exact ⟨rfl, hwv⟩
    · rw [hn] at mix twice
      cases node with
      | choice k => exact h.onChoiceSeed hr hn w v hwv
      | static => exact ⟨rfl, hwv⟩
      | iterative => exact ⟨rfl, hwv⟩
      | sequential k => exact ⟨rfl, hwv⟩
      | word l a => exact twice rfl rfl
      | text n wd sp => exact twice rfl rfl
      | wrapOne x => exact ⟨(mix rfl rfl).1, (mix rfl rfl).2.1⟩
      | wrapMany x => exact ⟨(mix rfl rfl).1, (mix rfl rfl).2.1⟩
      | copyFields a b c => exact ⟨rfl, hwv⟩
      | basedOn a b =>
        obtain ⟨w1, v1, e1, e2, h1, _⟩ := h.mixinSeed hr (by rw [hn]; rfl) (by rw [hn]; rfl) w v hwv
        dsimp only
        rw [e1, e2]
        exact ⟨rfl, h1⟩
      | field n e rp g hd => exact ⟨(mix rfl rfl).1, (mix rfl rfl).2.1⟩

/-! ### What seeding achieves -/

/-- Visiting several objects: what each visit achieves and later visits keep holds in the end. -/
theorem doMethod_all {ι σ : Type} {I : σ → Prop} {Q : ι → σ → Prop} {f : ι → PyM σ Unit}
    (l : List ι) (hI : ∀ c ∈ l, Keeps I (f c))
    (hQ : ∀ c ∈ l, ∀ d ∈ l, Keeps (fun w => I w ∧ Q c w) (f d))
    (hf : ∀ c ∈ l, ∀ w w' x, I w → f c w = (x, w') → x = .ok () ∨ x = .error .attributeError → Q c w')
    (w w' : σ) (hw : I w) (h : Group.doMethod (l.map some) f w = (.ok (), w')) :
    I w' ∧ ∀ c ∈ l, Q c w' := by
  induction l generalizing w with
  | nil => cases h; exact ⟨hw, by simp⟩
  | cons c l ih =>
    rw [doMethod_cons] at h
    have key : ∀ (x : Except Err Unit) (w1 : σ), f c w = (x, w1) →
        x = .ok () ∨ x = .error .attributeError →
        Group.doMethod (l.map some) f w1 = (.ok (), w') → I w' ∧ ∀ c' ∈ c :: l, Q c' w' := by
      intro x w1 h1 hx h2
      have hI1 : I w1 := by
        have := hI c (by simp) w hw
        rw [h1] at this; exact this
      have hq := hf c (by simp) w w1 x hw h1 hx
      obtain ⟨h3, h4⟩ := ih (fun c hc => hI c (by simp [hc]))
        (fun c hc d hd => hQ c (by simp [hc]) d (by simp [hd])) (fun c hc => hf c (by simp [hc]))
        w1 hI1 h2
      have hk : Keeps (fun w => I w ∧ Q c w) (Group.doMethod (l.map some) f) :=
        (Group.doMethod_rel fun d hd => (hQ c (by simp) d (by simp [hd])).rel).keeps
      have := hk w1 ⟨hI1, hq⟩
      rw [h2] at this
      refine ⟨h3, fun c' hc' => ?_⟩
      rcases List.mem_cons.1 hc' with rfl | hc'
      · exact this.2
      · exact h4 c' hc'
    rcases h1 : f c w with ⟨e | u, w1⟩
    · rw [h1] at h
      dsimp only at h
      by_cases he : e = .attributeError
      · rw [if_pos he] at h; exact key _ _ h1 (by rw [he]; exact .inr rfl) h
      · rw [if_neg he] at h; cases h
    · rw [h1] at h; exact key _ _ h1 (.inl rfl) h

/-- `seed` keeps freshly seeded objects freshly seeded. -/
theorem seed_keep (hP : ∀ r, P r → ∀ c ∈ Node.childRefs (nodes r), P c) (fuel : Nat) {r : Ref}
    (hr : P r) : Keeps (Inv (R := R) nodes P s X Y) (seed fuel r s) :=
  ((inv_steps nodes P X Y s hP).seed fuel r hr).keeps

/-- Everything below `r` is freshly seeded. -/
def SeededBelow (nodes : Ref → Option Node) (s : Option Int) (r : Ref) (w : World R) : Prop :=
  ∀ y, BelowN nodes r y → (w.obj y).Seeded s

abbrev NoInv (nodes : Ref → Option Node) (P : Ref → Prop) (s : Option Int) (w : World R) : Prop :=
  Inv nodes P s (fun _ => False) (fun _ => False) w

/-- Seeding several objects. -/
theorem doSeed_fresh (hP : ∀ r, P r → ∀ c ∈ Node.childRefs (nodes r), P c) {fuel : Nat}
    (ih : ∀ c, P c → ∀ (w w' : World R) (x : Except Err Unit), NoInv nodes P s w →
      seed fuel c s w = (x, w') → x = .ok () ∨ x = .error .attributeError → SeededBelow nodes s c w')
    {l : List Ref} (hl : ∀ c ∈ l, P c) (w w' : World R) (hw : NoInv nodes P s w)
    (h : Group.doMethod (l.map some) (seed fuel · s) w = (.ok (), w')) :
    NoInv nodes P s w' ∧ ∀ c ∈ l, SeededBelow nodes s c w' :=
  doMethod_all (I := NoInv nodes P s) (Q := fun c w => SeededBelow nodes s c w) l
    (fun c hc => seed_keep hP fuel (hl c hc))
    (fun c hc d hd u hu => by
      have := seed_keep (R := R) (s := s) (X := BelowN nodes c) (Y := fun _ => False) hP fuel (hl d hd)
        u ⟨hu.1.node, hu.2, fun _ h => h.elim⟩
      exact ⟨this.weaken (fun _ h => h.elim) (fun _ h => h.elim), this.seeded⟩)
    (fun c hc u u' x hu he hx => ih c (hl c hc) u u' x hu he hx) w w' hw h

/-- A successful `RandomWithChildrenMixin.seed`. -/
theorem mixinChildSeed_fresh (hP : ∀ r, P r → ∀ c ∈ Node.childRefs (nodes r), P c) {fuel : Nat}
    (ih : ∀ c, P c → ∀ (w w' : World R) (x : Except Err Unit), NoInv nodes P s w →
      seed fuel c s w = (x, w') → x = .ok () ∨ x = .error .attributeError → SeededBelow nodes s c w')
    {r : Ref} (hr : P r) (hran : Node.isRandom (nodes r) = true)
    (hch : Node.isChoice (nodes r) = false) (w w' : World R) (hw : NoInv nodes P s w)
    (h : mixinChildSeed (seed fuel) r s w = (.ok (), w')) :
    Inv nodes P s (BelowN nodes r) (fun _ => False) w' := by
  unfold mixinChildSeed at h
  rw [PyM.run_get_bind] at h
  unfold Attrs.children at h
  rw [hw.node r hr, PyM.bind_apply] at h
  rcases hd : Group.doMethod ((Node.childRefs (nodes r)).map some) (seed fuel · s) w with ⟨x | u, w1⟩
  · rw [hd] at h; cases h
  · rw [hd] at h
    dsimp only at h
    obtain ⟨h1, h2⟩ := doSeed_fresh hP ih (hP r hr) w w1 hw hd
    have hI : Inv nodes P s (fun y => ∃ c ∈ Node.childRefs (nodes r), BelowN nodes c y)
        (fun _ => False) w1 :=
      ⟨h1.node, fun x ⟨c, hc, hx⟩ => h2 c hc x hx, fun _ h => h.elim⟩
    obtain ⟨w2, v2, e1, e2, ⟨e3, h3⟩, h4⟩ := (inv_steps nodes P _ _ s hP).mixinSeed hr hran hch w1 w1
      ⟨rfl, hI⟩
    subst e3
    unfold PyM.ignoring at h
    rw [e1] at h
    cases h
    refine ⟨h3.node, fun y hy => ?_, fun _ h => h.elim⟩
    rcases hy.cases with rfl | hy
    · rw [mixinSeed_run (by rw [h1.node y hr]; exact hch)] at e1
      obtain ⟨g, e, hg1, hg2⟩ := newRng_eq y s (w1.upd y (Attrs.setSeed s))
      rw [hg1] at e1
      have e1' := congrArg (fun p : Except Err Unit × World R => p.2.obj y) e1
      have hob : w'.obj y = { ((w1.upd y (Attrs.setSeed s)).obj y) with rng := g } :=
        e1'.symm.trans (if_pos rfl)
      have hn2 : (w'.obj y).node = nodes y := h3.node y hr
      refine seeded_of_rng (by rw [hn2]; exact hran) (by rw [hn2]; exact hch) ?_ ?_
      · have := (h4 y rfl hran).1
        rwa [rngSeed_not_choice (by rw [hn2]; exact hch)] at this
      · intro z hz
        rw [hob]
        exact (hg2 z hz).1
    · exact h3.seeded y hy

theorem seeded_not_random {a : Attrs R} (h : Node.isRandom a.node = false) : a.Seeded s := by
  obtain ⟨node, _, _, _, _, _, _, _, _, _⟩ := a
  rcases node with _ | (_ | _ | _ | _ | _ | _ | _ | _ | _ | _ | _) <;>
    trivial

/-- After seeding, everything below is freshly seeded. -/
theorem seed_fresh (hP : ∀ r, P r → ∀ c ∈ Node.childRefs (nodes r), P c) (fuel : Nat) :
    ∀ r, P r → ∀ (w w' : World R) (x : Except Err Unit), NoInv nodes P s w →
      seed fuel r s w = (x, w') → x = .ok () ∨ x = .error .attributeError →
      SeededBelow nodes s r w' := by
  induction fuel with
  | zero =>
    intro r hr w w' x _ h hx
    unfold seed at h
    cases h
    rcases hx with hx | hx <;> cases hx
  | succ fuel ih =>
    intro r hr w w' x hw h hx
    have hkeep := seed_keep (R := R) (s := s) (X := fun _ => False) (Y := fun _ => False) hP (fuel + 1)
      hr w hw
    rw [h] at hkeep
    have hnode := hw.node r hr
    have leaf : Node.childRefs (nodes r) = [] → (w'.obj r).Seeded s → SeededBelow nodes s r w' := by
      intro hc h1 y hy
      rcases hy.cases with rfl | ⟨c, hc', _⟩
      · exact h1
      · rw [hc] at hc'; cases hc'
    have plain : Node.childRefs (nodes r) = [] → Node.isRandom (nodes r) = false →
        SeededBelow nodes s r w' := fun hc hn =>
      leaf hc (seeded_not_random (by rw [hkeep.node r hr]; exact hn))
    unfold seed at h
    rw [PyM.run_get_bind] at h
    dsimp only at h
    rw [hnode] at h
    have mixErr : ∀ (u : World R), (mixinChildSeed (seed fuel) r s u).1 ≠ .error .attributeError := by
      intro u
      unfold mixinChildSeed
      rw [PyM.run_get_bind, PyM.bind_apply]
      have := Group.C58_no_attribute_error ((u.obj r).children.map some) (seed fuel · s) u
      rcases hd : Group.doMethod ((u.obj r).children.map some) (seed fuel · s) u with ⟨z | _, u1⟩
      · rw [hd] at this; exact this
      · dsimp only
        unfold PyM.ignoring
        have hms : (mixinSeed r s u1).1 = .ok () := by
          unfold mixinSeed
          rw [PyM.run_modify_bind]
          exact newRng_ok _ _ _
        rcases hm : mixinSeed r s u1 with ⟨z | _, u2⟩
        · rw [hm] at hms; cases hms
        · simp
    have once : Node.isRandom (nodes r) = true → Node.isChoice (nodes r) = false →
        mixinChildSeed (seed fuel) r s w = (x, w') → SeededBelow nodes s r w' := by
      intro hran hch h
      have hx' : x = .ok () := hx.resolve_right fun hx => mixErr w (by rw [h]; exact hx)
      subst hx'
      exact (mixinChildSeed_fresh hP ih hr hran hch w w' hw h).seeded
    have twice : Node.isRandom (nodes r) = true → Node.isChoice (nodes r) = false →
        ((do
          mixinChildSeed (seed fuel) r s
          let a := (← PyM.get).obj r
          Group.doMethod (a.children.map some) (seed fuel · a.seed)) w : Except Err Unit × World R) =
          (x, w') → SeededBelow nodes s r w' := by
      intro hran hch h
      rw [PyM.bind_apply] at h
      rcases hm : mixinChildSeed (seed fuel) r s w with ⟨z | u, w1⟩
      · have := mixErr w
        rw [hm] at h this
        cases h
        rcases hx with hx | hx
        · cases hx
        · cases hx; exact absurd rfl this
      · rw [hm] at h
        dsimp only at h
        rw [PyM.run_get_bind] at h
        have h1 := mixinChildSeed_fresh hP ih hr hran hch w w1 hw hm
        have hsd : (w1.obj r).seed = s := by
          have := seeded_rngSeed (h1.seeded r (.self r)) (by rw [h1.node r hr]; exact hran)
          rwa [rngSeed_not_choice (by rw [h1.node r hr]; exact hch)] at this
        rw [hsd] at h
        unfold Attrs.children at h
        rw [h1.node r hr] at h
        have hk : Keeps (Inv nodes P s (BelowN nodes r) (fun _ => False))
            (Group.doMethod ((Node.childRefs (nodes r)).map some) (seed (R := R) fuel · s)) :=
          (Group.doMethod_rel fun d hd => (seed_keep hP fuel (hP r hr d hd)).rel).keeps
        have := hk w1 h1
        rw [h] at this
        exact this.seeded
    rcases hn : nodes r with _ | node
    · exact plain (by rw [hn]; rfl) (by rw [hn]; rfl)
    · rw [hn] at h once twice
      cases node with
      | choice k =>
        have hk := hnode.trans hn
        dsimp only at h
        rw [onChoice_seed r hk] at h
        obtain ⟨h1, h2⟩ := onChoice_obj r r Choice.reset (w.upd r (Attrs.setSeed s))
        rw [h] at h1 h2
        have hsd : ((w.upd r (Attrs.setSeed s)).obj r).choice.rngSeed = s := by
          rw [upd_obj, if_pos rfl]
          unfold Attrs.setSeed
          rw [hk]
        refine leaf (by rw [hn]; rfl) ?_
        unfold Attrs.Seeded
        rw [hkeep.node r hr, hn]
        dsimp only
        rw [h1, if_pos rfl]
        refine ⟨(Choice.reset_rngSeed _).trans hsd, fun z hz => ?_⟩
        refine (Choice.reset_cases (hsd.trans hz) _).2.2.1 ?_
        refine Eq.trans h2.symm (hx.resolve_right fun hx => ?_)
        exact Choice.reset_error _ (h2.symm.trans hx)
      | static => exact plain (by rw [hn]; rfl) (by rw [hn]; rfl)
      | iterative => exact plain (by rw [hn]; rfl) (by rw [hn]; rfl)
      | sequential k => exact plain (by rw [hn]; rfl) (by rw [hn]; rfl)
      | word l a => exact twice rfl rfl h
      | text n wd sp => exact twice rfl rfl h
      | wrapOne z => exact once rfl rfl h
      | wrapMany z => exact once rfl rfl h
      | copyFields a b c => exact plain (by rw [hn]; rfl) (by rw [hn]; rfl)
      | basedOn a b =>
        dsimp only at h
        rw [mixinSeed_run (by rw [hnode, hn]; rfl)] at h
        obtain ⟨g, e, hg1, hg2⟩ := newRng_eq r s (w.upd r (Attrs.setSeed s))
        rw [hg1] at h
        have hob : w'.obj r = { ((w.upd r (Attrs.setSeed s)).obj r) with rng := g } :=
          (congrArg (fun p : Except Err Unit × World R => p.2.obj r) h).symm.trans (if_pos rfl)
        have hn2 : (w'.obj r).node = nodes r := hkeep.node r hr
        refine leaf (by rw [hn]; rfl)
          (seeded_of_rng (by rw [hn2, hn]; rfl) (by rw [hn2, hn]; rfl) ?_ ?_)
        · rw [hob, upd_obj, if_pos rfl, setSeed_not_choice (by rw [hnode, hn]; rfl)]
        · intro z hz
          rw [hob]
          exact (hg2 z hz).1
      | field n e rp g hd => exact once rfl rfl h

end World
end Fauxdoc
