import Verif.Proofs.World5
/-
What `reset` achieves: every object below is freshly seeded and rewound.
-/
set_option linter.unusedSectionVars false
namespace Fauxdoc
open PyM
variable {K : Type} [Field K] [LinearOrder K] [FloorRing K] {R : Rng K}

namespace World
variable {nodes : Ref → Option Node} {P X Y : Ref → Prop} {s : Option Int}

theorem doMethod_cons {ι σ : Type} (c : ι) (l : List ι) (f : ι → PyM σ Unit) (w : σ) :
    Group.doMethod ((c :: l).map some) f w =
      match f c w with
      | (.ok _, w1) => Group.doMethod (l.map some) f w1
      | (.error e, w1) =>
        if e = .attributeError then Group.doMethod (l.map some) f w1 else (.error e, w1) := by
  change (PyM.ignoring .attributeError (f c) >>= fun _ => Group.doMethod (l.map some) f) w = _
  rw [PyM.bind_apply]
  unfold PyM.ignoring
  rcases f c w with ⟨e | u, w1⟩
  · by_cases h : e = .attributeError
    · simp [h]
    · simp [h]
  · rfl

/-- Everything below `r` is freshly seeded and rewound. -/
def FreshBelow (nodes : Ref → Option Node) (s : Option Int) (r : Ref) (w : World R) : Prop :=
  ∀ y, BelowN nodes r y → (w.obj y).Seeded s ∧ (w.obj y).Rewound

/-- The steps of `reset` keep an invariant of one store and the seeds of `T`. -/
abbrev Keep (nodes : Ref → Option Node) (P : Ref → Prop) (s : Option Int) (X Y T : Ref → Prop)
    (w v : World R) : Prop :=
  (w = v ∧ Inv nodes P s X Y w) ∧ SeedsIn nodes s T w v

theorem keep_steps (hP : ∀ r, P r → ∀ c ∈ Node.childRefs (nodes r), P c) (X Y T : Ref → Prop) :
    ResetSteps (R := R) nodes P s (Keep nodes P s X Y T) :=
  (inv_steps nodes P X Y s hP).withSeeds T

/-- `reset` keeps freshly seeded objects freshly seeded. -/
theorem reset_keep (hP : ∀ r, P r → ∀ c ∈ Node.childRefs (nodes r), P c) {X Y T : Ref → Prop}
    (fuel : Nat) {r : Ref} (hr : P r) (hT : T r) :
    Rel (Keep (R := R) nodes P s X Y T) (reset fuel r) (reset fuel r) :=
  (keep_steps hP X Y T).reset fuel r hr fun _ _ h => h.2.mono fun _ ht => ht ▸ hT

theorem doMethod_keep (hP : ∀ r, P r → ∀ c ∈ Node.childRefs (nodes r), P c) {X Y T : Ref → Prop}
    (fuel : Nat) {l : List Ref} (hl : ∀ c ∈ l, P c) (hT : ∀ c ∈ l, T c) :
    Rel (Keep (R := R) nodes P s X Y T) (Group.doMethod (l.map some) (reset fuel))
      (Group.doMethod (l.map some) (reset fuel)) :=
  Group.doMethod_rel fun c hc => reset_keep hP fuel (hl c hc) (hT c hc)

theorem Inv.fresh {w : World R} {r : Ref} (h : Inv nodes P s X Y w) (hf : FreshBelow nodes s r w) :
    Inv nodes P s (BelowN nodes r) (BelowN nodes r) w :=
  ⟨h.node, fun x hx => (hf x hx).1, fun x hx => (hf x hx).2⟩

theorem Inv.weaken {w : World R} {X' Y' : Ref → Prop} (h : Inv nodes P s X Y w)
    (hX : ∀ x, X' x → X x) (hY : ∀ x, Y' x → Y x) : Inv nodes P s X' Y' w :=
  ⟨h.node, fun x hx => h.seeded x (hX x hx), fun x hx => h.rewound x (hY x hx)⟩

/-- Resetting several objects. -/
theorem doMethod_fresh (hP : ∀ r, P r → ∀ c ∈ Node.childRefs (nodes r), P c) {fuel : Nat}
    (ih : ∀ c, P c → ∀ (w w' : World R) (x : Except Err Unit), Inv nodes P s (fun _ => False)
      (fun _ => False) w →
      SeedsIn nodes s (· = c) w w → reset fuel c w = (x, w') →
      x = .ok () ∨ x = .error .attributeError → FreshBelow nodes s c w')
    (l : List Ref) (hl : ∀ c ∈ l, P c) (w w' : World R)
    (hw : Inv nodes P s (fun _ => False) (fun _ => False) w)
    (hs : SeedsIn nodes s (· ∈ l) w w)
    (h : Group.doMethod (l.map some) (reset fuel) w = (.ok (), w')) :
    ∀ c ∈ l, FreshBelow nodes s c w' := by
  induction l generalizing w with
  | nil => simp
  | cons c l ihl =>
    rw [doMethod_cons] at h
    have hkeep := reset_keep (R := R) (s := s) hP (X := fun _ => False) (Y := fun _ => False)
      (T := (· ∈ c :: l)) fuel (hl c (by simp)) (by simp) w w ⟨⟨rfl, hw⟩, hs⟩
    have key : ∀ (x : Except Err Unit) (w1 : World R), reset fuel c w = (x, w1) →
        x = .ok () ∨ x = .error .attributeError →
        Group.doMethod (l.map some) (reset fuel) w1 = (.ok (), w') →
        ∀ c' ∈ c :: l, FreshBelow nodes s c' w' := by
      intro x w1 h1 hx h2 c' hc'
      rw [h1] at hkeep
      have hf := ih c (hl c (by simp)) w w1 x hw (hs.mono fun t ht => by simp [ht]) h1 hx
      rcases List.mem_cons.1 hc' with rfl | hc'
      · have := doMethod_keep (R := R) (s := s) hP (X := BelowN nodes c') (Y := BelowN nodes c')
          (T := (· ∈ l)) fuel (fun c hc => hl c (by simp [hc])) (fun c hc => hc) w1 w1
          ⟨⟨rfl, hkeep.2.1.2.fresh hf⟩, hkeep.2.2.mono fun t ht => by simp [ht]⟩
        rw [h2] at this
        have := this.2.1.2
        exact fun y hy => ⟨this.seeded y hy, this.rewound y hy⟩
      · exact ihl (fun c hc => hl c (by simp [hc])) w1 hkeep.2.1.2
          (hkeep.2.2.mono fun t ht => by simp [ht]) h2 c' hc'
    rcases h1 : reset fuel c w with ⟨e | u, w1⟩
    · rw [h1] at h
      dsimp only at h
      by_cases he : e = .attributeError
      · rw [if_pos he] at h
        exact key _ _ h1 (by rw [he]; exact .inr rfl) h
      · rw [if_neg he] at h; cases h
    · rw [h1] at h
      exact key _ _ h1 (.inl rfl) h

/-- `mixinReset` in steps. -/
theorem mixinReset_run {f : Ref → PyM (World R) Unit} {r : Ref} {w w1 : World R}
    {z : Option Int} (h1 : (w.obj r).seed = z) (h2 : (w.obj r).node = nodes r)
    (h3 : setChildSeeds (Node.childRefs (nodes r)) z w = (.ok (), w1)) :
    mixinReset f r w = Group.doMethod ((Node.childRefs (nodes r)).map some) f (newRng r z w1).2 := by
  unfold mixinReset
  rw [PyM.run_get_bind]
  unfold Attrs.children
  rw [h1, h2, PyM.bind_ok h3]
  have : newRng r z w1 = (.ok (), (newRng r z w1).2) := Prod.ext (newRng_ok r z w1) rfl
  rw [PyM.bind_ok this]

theorem seeded_of_rng {a : Attrs R} (hr : Node.isRandom a.node = true)
    (hc : Node.isChoice a.node = false) (h1 : a.seed = s)
    (h2 : ∀ z, s = some z → a.rng = R.ofSeed z) : a.Seeded s := by
  obtain ⟨node, _, _, _, _, _, _, _, _, _⟩ := a
  rcases node with _ | (_ | _ | _ | _ | _ | _ | _ | _ | _ | _ | _)
  case some.choice => cases hc
  all_goals trivial

/-- A successful `mixinReset`: the object and everything below its children. -/
theorem mixinReset_fresh (hP : ∀ r, P r → ∀ c ∈ Node.childRefs (nodes r), P c) {fuel : Nat}
    (ih : ∀ c, P c → ∀ (w w' : World R) (x : Except Err Unit), Inv nodes P s (fun _ => False)
      (fun _ => False) w →
      SeedsIn nodes s (· = c) w w → reset fuel c w = (x, w') →
      x = .ok () ∨ x = .error .attributeError → FreshBelow nodes s c w')
    {r : Ref} (hr : P r) (hran : Node.isRandom (nodes r) = true)
    (hch : Node.isChoice (nodes r) = false) (w w' : World R)
    (hw : Inv nodes P s (fun _ => False) (fun _ => False) w)
    (hs : SeedsIn nodes s (· = r) w w)
    (h : mixinReset (reset fuel) r w = (.ok (), w')) :
    Inv nodes P s (BelowN nodes r) (fun y => ∃ c ∈ Node.childRefs (nodes r), BelowN nodes c y) w' ∧
    SeedsIn nodes s (· = r) w' w' := by
  have hsteps := inv_steps (R := R) nodes P (fun _ => False) (fun _ => False) s hP
  obtain ⟨w1, v1, e1, e2, ⟨e3, h1⟩, h2⟩ := hsteps.setChildSeeds (Node.childRefs (nodes r)) (hP r hr)
    (· = r) w w ⟨rfl, hw⟩ hs
  subst e3
  have hsd : ∀ u : World R, (u.obj r).node = nodes r → (u.obj r).rngSeed = s →
      (u.obj r).seed = s := by
    intro u hu1 hu2
    rwa [rngSeed_not_choice (by rw [hu1]; exact hch)] at hu2
  have hsw := hsd w (hw.node r hr) (hs r rfl hran).1
  have hsw1 := hsd w1 (h1.node r hr) (h2 r (.inl rfl) hran).1
  rw [mixinReset_run hsw (hw.node r hr) e1] at h
  -- the object itself is seeded from here on
  have hself : ((newRng r s w1).2.obj r).Seeded s := by
    obtain ⟨g, e, hg1, hg2⟩ := newRng_eq r s w1
    rw [hg1]
    change ((w1.upd r fun a => { a with rng := g }).obj r).Seeded s
    rw [upd_obj, if_pos rfl]
    exact seeded_of_rng (by rw [h1.node r hr]; exact hran) (by rw [h1.node r hr]; exact hch) hsw1
      fun z hz => (hg2 z hz).1
  have hk := (hsteps.withSeeds (fun t => t = r ∨ t ∈ Node.childRefs (nodes r))).newRng r w1 w1
    ⟨⟨rfl, h1⟩, h2⟩ hr hran hch hsw1 hsw1
  have hI : Inv nodes P s (· = r) (fun _ => False) (newRng r s w1).2 :=
    ⟨hk.1.2.node, fun x hx => hx ▸ hself, fun _ hx => hx.elim⟩
  have hfin := doMethod_keep (R := R) (s := s) hP (X := (· = r)) (Y := fun _ => False)
    (T := fun t => t = r ∨ t ∈ Node.childRefs (nodes r)) fuel (hP r hr) (fun c hc => .inr hc) _ _
    ⟨⟨rfl, hI⟩, hk.2⟩
  have hall := doMethod_fresh hP ih (Node.childRefs (nodes r)) (hP r hr) _ w' hk.1.2
    (hk.2.mono fun t ht => .inr ht) h
  rw [h] at hfin
  refine ⟨⟨hfin.2.1.2.node, fun y hy => ?_, fun y hy => ?_⟩, hfin.2.2.mono fun t ht => .inl ht⟩
  · rcases hy.cases with rfl | ⟨c, hc, hy⟩
    · exact hfin.2.1.2.seeded y rfl
    · exact (hall c hc y hy).1
  · obtain ⟨c, hc, hy⟩ := hy
    exact (hall c hc y hy).2

/-- After a successful reset, everything below is freshly seeded and rewound. -/
theorem reset_fresh (hP : ∀ r, P r → ∀ c ∈ Node.childRefs (nodes r), P c) (fuel : Nat) :
    ∀ r, P r → ∀ (w w' : World R) (x : Except Err Unit),
      Inv nodes P s (fun _ => False) (fun _ => False) w →
      SeedsIn nodes s (· = r) w w → reset fuel r w = (x, w') →
      x = .ok () ∨ x = .error .attributeError → FreshBelow nodes s r w' := by
  induction fuel with
  | zero =>
    intro r hr w w' x _ _ h hx
    unfold reset at h
    cases h
    rcases hx with hx | hx <;> cases hx
  | succ fuel ih =>
    intro r hr w w' x hw hs h hx
    have hnode := hw.node r hr
    -- objects without children
    have leaf : Node.childRefs (nodes r) = [] → (w'.obj r).Seeded s → (w'.obj r).Rewound →
        FreshBelow nodes s r w' := by
      intro hc h1 h2 y hy
      rcases hy.cases with rfl | ⟨c, hc', _⟩
      · exact ⟨h1, h2⟩
      · rw [hc] at hc'; cases hc'
    rcases hn : nodes r with _ | node
    · refine leaf (by rw [hn]; rfl) ?_ ?_ <;>
      · have : (w'.obj r).node = none := by
          have := (reset_keep (R := R) (s := s) (X := fun _ => False) (Y := fun _ => False) hP
            (T := (· = r)) (fuel + 1) hr rfl w w ⟨⟨rfl, hw⟩, hs⟩).2.1.2.node r hr
          rw [h, hn] at this
          exact this
        first | unfold Attrs.Seeded | unfold Attrs.Rewound
        rw [this]; trivial
    · have hne : x = .ok () := by
        refine hx.resolve_right fun hx => ?_
        have := reset_attributeError (fuel + 1) r w (by rw [hnode, hn]; simp)
        rw [h] at this; exact this hx
      subst hne
      have mix := fun hran hch w'' => mixinReset_fresh hP ih hr hran hch w w'' hw hs
      unfold reset at h
      rw [PyM.run_get_bind] at h
      dsimp only at h
      rw [hnode] at h
      -- `Word` and `Text` reset their children twice
      have twice : Node.isRandom (nodes r) = true → Node.isChoice (nodes r) = false →
          (∀ n e rp g hd, nodes r ≠ some (.field n e rp g hd)) →
          Node.isRandom (nodes r) = true → (∀ u : World R, (u.obj r).node = nodes r → (u.obj r).Rewound) →
          ((do
            mixinReset (reset fuel) r
            let a := (← PyM.get).obj r
            setChildSeeds a.children a.seed
            Group.doMethod (a.children.map some) (reset fuel)) w : Except Err Unit × World R) =
            (.ok (), w') → FreshBelow nodes s r w' := by
        intro hran hch _ _ hrw h
        rw [PyM.bind_apply] at h
        rcases hm : mixinReset (reset fuel) r w with ⟨e | u, w1⟩
        · rw [hm] at h; cases h
        · rw [hm] at h
          dsimp only at h
          rw [PyM.run_get_bind] at h
          obtain ⟨h1, h2⟩ := mix hran hch w1 hm
          have hsd := (h2 r rfl hran).1
          rw [rngSeed_not_choice (by rw [h1.node r hr]; exact hch)] at hsd
          unfold Attrs.children at h
          rw [hsd, h1.node r hr] at h
          obtain ⟨w2, v2, e1, e2, ⟨e3, h3⟩, h4⟩ := (inv_steps (R := R) nodes P _ _ s hP).setChildSeeds
            (Node.childRefs (nodes r)) (hP r hr) (· = r) w1 w1 ⟨rfl, h1⟩ h2
          subst e3
          rw [PyM.bind_ok e1] at h
          have := doMethod_keep (R := R) (s := s) hP fuel (hP r hr) (fun c hc => Or.inr hc) w2 w2
            ⟨⟨rfl, h3⟩, h4⟩
          rw [h] at this
          have := this.2.1.2
          intro y hy
          refine ⟨this.seeded y hy, ?_⟩
          rcases hy.cases with rfl | hy
          · exact hrw w' (this.node y hr)
          · exact this.rewound y hy
      have once : Node.isRandom (nodes r) = true → Node.isChoice (nodes r) = false →
          (∀ u : World R, (u.obj r).node = nodes r → (u.obj r).Rewound) →
          mixinReset (reset fuel) r w = (.ok (), w') → FreshBelow nodes s r w' := by
        intro hran hch hrw h
        obtain ⟨h1, h2⟩ := mix hran hch w' h
        intro y hy
        refine ⟨h1.seeded y hy, ?_⟩
        rcases hy.cases with rfl | hy
        · exact hrw w' (h1.node y hr)
        · exact h1.rewound y hy
      have hrw : (∀ n e rp g hd, nodes r ≠ some (.field n e rp g hd)) →
          nodes r ≠ some .iterative → (∀ k, nodes r ≠ some (.sequential k)) →
          (∀ k, nodes r ≠ some (.choice k)) → ∀ u : World R, (u.obj r).node = nodes r → (u.obj r).Rewound := by
        intro h1 h2 h3 h4 u hu
        unfold Attrs.Rewound
        rw [hu]
        split
        · next hk => exact absurd hk (h4 _)
        · next hk => exact absurd hk h2
        · next hk => exact absurd hk (h3 _)
        · next hk => exact absurd hk (h1 _ _ _ _ _)
        · trivial
      rw [hn] at h once twice hrw mix
      cases node with
      | choice k =>
        have hsd := (hs r rfl (by rw [hn]; rfl)).1
        unfold Attrs.rngSeed at hsd
        rw [hnode, hn] at hsd
        obtain ⟨h1, h2⟩ := onChoice_obj r r Choice.reset w
        dsimp only at h
        rw [h] at h1 h2
        have hnode' : (w'.obj r).node = some (.choice k) := by
          rw [h1, if_pos rfl]; exact hnode.trans hn
        refine leaf (by rw [hn]; rfl) ?_ ?_
        · unfold Attrs.Seeded
          rw [hnode']
          dsimp only
          rw [h1, if_pos rfl]
          exact ⟨(Choice.reset_rngSeed _).trans hsd, fun z hz =>
            (Choice.reset_cases (hsd.trans hz) w.entropy).2.2.1 h2.symm⟩
        · unfold Attrs.Rewound
          rw [hnode']
          dsimp only
          rw [h1, if_pos rfl]
          exact Choice.reset_rewound _ (.inl h2.symm)
      | static =>
        cases h
        refine leaf (by rw [hn]; rfl) ?_ (hrw (by simp) (by simp) (by simp) (by simp) w (hnode.trans hn))
        unfold Attrs.Seeded; rw [hnode, hn]; trivial
      | iterative =>
        have e : w' = w.upd r (fun a => { a with iter := (Iterative.reset (w.obj r).iter).2 }) := by
          rw [← iter_run]; exact (congrArg Prod.snd h).symm
        subst e
        refine leaf (by rw [hn]; rfl) ?_ ?_
        · unfold Attrs.Seeded
          rw [upd_obj, if_pos rfl]
          dsimp only
          rw [hnode, hn]; trivial
        · unfold Attrs.Rewound
          rw [upd_obj, if_pos rfl]
          dsimp only
          rw [hnode, hn]; rfl
      | sequential k =>
        have e : w' = w.upd r (fun a => { a with
            seq := (Sequential.onIt Iterative.reset (w.obj r).seq).2 }) := by
          rw [← seq_run]; exact (congrArg Prod.snd h).symm
        subst e
        refine leaf (by rw [hn]; rfl) ?_ ?_
        · unfold Attrs.Seeded
          rw [upd_obj, if_pos rfl]
          dsimp only
          rw [hnode, hn]; trivial
        · unfold Attrs.Rewound
          rw [upd_obj, if_pos rfl]
          dsimp only
          rw [hnode, hn]; rfl
      | word l a => exact twice rfl rfl (by simp) rfl (hrw (by simp) (by simp) (by simp) (by simp)) h
      | text n wd sp => exact twice rfl rfl (by simp) rfl (hrw (by simp) (by simp) (by simp) (by simp)) h
      | wrapOne z => exact once rfl rfl (hrw (by simp) (by simp) (by simp) (by simp)) h
      | wrapMany z => exact once rfl rfl (hrw (by simp) (by simp) (by simp) (by simp)) h
      | copyFields a b c =>
        cases h
        refine leaf (by rw [hn]; rfl) ?_ (hrw (by simp) (by simp) (by simp) (by simp) w (hnode.trans hn))
        unfold Attrs.Seeded; rw [hnode, hn]; trivial
      | basedOn a b =>
        have hsd := (hs r rfl (by rw [hn]; rfl)).1
        rw [rngSeed_not_choice (by rw [hnode, hn]; rfl)] at hsd
        dsimp only at h
        obtain ⟨g, e, hg1, hg2⟩ := newRng_eq r s w
        rw [hsd, hg1] at h
        cases h
        have hob : (({ w.upd r (fun a => { a with rng := g }) with entropy := e } : World R).obj r) =
            { w.obj r with rng := g } := by
          exact if_pos rfl
        refine leaf (by rw [hn]; rfl) ?_ (hrw (by simp) (by simp) (by simp) (by simp) _ ?_)
        · rw [hob]
          exact seeded_of_rng (by dsimp only; rw [hnode, hn]; rfl) (by dsimp only; rw [hnode, hn]; rfl)
            hsd fun z hz => (hg2 z hz).1
        · rw [hob]; exact hnode.trans hn
      | field n e rp g hd =>
        dsimp only at h
        unfold Field.reset at h
        rw [PyM.bind_apply] at h
        rcases hm : mixinReset (reset fuel) r w with ⟨z | u, w1⟩
        · rw [hm] at h; cases h
        · rw [hm] at h
          obtain ⟨h1, h2⟩ := mix rfl rfl w1 hm
          have e' : w' = (cacheAttr r).set .none w1 := (congrArg Prod.snd h).symm
          have h3 := (inv_steps (R := R) nodes P _ _ s hP).cache r n e rp g hd w1 w1 ⟨rfl, h1⟩ hr hn
          rw [← e'] at h3
          intro y hy
          refine ⟨h3.2.seeded y hy, ?_⟩
          rcases hy.cases with rfl | hy
          · unfold Attrs.Rewound
            rw [h3.2.node y hr, hn]
            dsimp only
            rw [e', cache_set, upd_obj, if_pos rfl]
          · exact h3.2.rewound y (by rw [hn] at hy; exact hy)

end World
end Fauxdoc
