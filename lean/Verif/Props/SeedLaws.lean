import Verif.Proofs.SeedLaws
/-
C106: laws of `seed`, `reset` and `rng_seed`.
-/
set_option linter.unusedSectionVars false
namespace Fauxdoc
open PyM
variable {K : Type} [Field K] [LinearOrder K] [FloorRing K] {R : Rng K}

/-! ### The last seed counts -/

/-- **C106 (seeding again).** `seed(z)` after `seed(y)`, whatever `y` is and whether or not it was
accepted everywhere, has the same outcome as `seed(z)` alone, and if it succeeds leaves every object
the same. -/
theorem C106_seed_twice (fuel fuel' : Nat) (r : Ref) (y : Option Int) (z : Int) (w : World R) :
    (World.seed fuel r (some z) (World.seed fuel' r y w).2).1 = (World.seed fuel r (some z) w).1 ∧
    ((World.seed fuel r (some z) w).1 = .ok () → ∀ x,
      (World.seed fuel r (some z) (World.seed fuel' r y w).2).2.obj x =
        (World.seed fuel r (some z) w).2.obj x) := by
  have hF := World.seed_shapeFrame fuel' r y w
  obtain ⟨h1, h2⟩ := World.seed_law fuel r z w (World.seed fuel' r y w).2
    (fun x => (hF.shape x).symm) (World.seed_idle fuel' r y w) (fun x hx => (hF.frame x hx).symm)
  exact ⟨h1.symm, fun hok x => (h2 hok x).symm⟩

/-- **C106 (seeding a part first).** Seeding an object below `r` before `r` itself makes no
difference. -/
theorem C106_seed_part (fuel fuel' : Nat) (r c : Ref) (y : Option Int) (z : Int) (w : World R)
    (hc : Below w r c) :
    (World.seed fuel r (some z) (World.seed fuel' c y w).2).1 = (World.seed fuel r (some z) w).1 ∧
    ((World.seed fuel r (some z) w).1 = .ok () → ∀ x,
      (World.seed fuel r (some z) (World.seed fuel' c y w).2).2.obj x =
        (World.seed fuel r (some z) w).2.obj x) := by
  have hF := World.seed_shapeFrame fuel' c y w
  obtain ⟨h1, h2⟩ := World.seed_law fuel r z w (World.seed fuel' c y w).2
    (fun x => (hF.shape x).symm) (World.seed_idle fuel' c y w)
    (fun x hx => (hF.frame x fun h => hx (hc.trans h)).symm)
  exact ⟨h1.symm, fun hok x => (h2 hok x).symm⟩

/-- **C106 (seeding a schema again).** -/
theorem C106_seed_fields_twice (fuel fuel' : Nat) (fields : Dict Ref) (y : Option Int) (z : Int)
    (w : World R) :
    (World.seedFields fuel (some z) fields (World.seedFields fuel' y fields w).2).1 =
      (World.seedFields fuel (some z) fields w).1 ∧
    ((World.seedFields fuel (some z) fields w).1 = .ok () → ∀ x,
      (World.seedFields fuel (some z) fields (World.seedFields fuel' y fields w).2).2.obj x =
        (World.seedFields fuel (some z) fields w).2.obj x) := by
  rw [World.seedFields_eq, World.seedFields_eq]
  have hF := World.seedAll_frame fuel' (fields.map (·.2)) y w
  obtain ⟨h1, h2⟩ := World.seedAll_law fuel (fields.map (·.2)) z w _
    (fun x => (hF.shape x).symm) (World.seedAll_idle fuel' (fields.map (·.2)) y w)
    (fun x hx => (hF.frame x hx).symm)
  exact ⟨h1.symm, fun hok x => (h2 hok x).symm⟩

/-! ### Resetting again -/

/-- **C106 (resetting again).** A second `reset()` of an object with a seed succeeds like the first
and changes nothing. -/
theorem C106_reset_twice (fuel : Nat) (r : Ref) (w : World R) (hr : (w.obj r).random = true)
    (hz : (w.obj r).rngSeed ≠ none) (hok : (World.reset fuel r w).1 = .ok ()) :
    (World.reset fuel r (World.reset fuel r w).2).1 = .ok () ∧ ∀ x,
      (World.reset fuel r (World.reset fuel r w).2).2.obj x = (World.reset fuel r w).2.obj x := by
  obtain ⟨z, hz⟩ := Option.ne_none_iff_exists'.1 hz
  have hF := World.reset_shapeFrame fuel r w
  obtain ⟨h1, h2⟩ := World.reset_law fuel r z w (World.reset fuel r w).2
    (fun x => (hF.shape x).symm) hr hz ((World.reset_seed fuel r w hr).trans hz)
    (fun x hx => (hF.frame x hx).symm)
  exact ⟨h1 ▸ hok, fun x => (h2 hok x).symm⟩

/-- **C106 (resetting or seeding a part first).** What has been done to an object strictly below `r`
by `reset()` or `seed(y)` makes no difference to `reset()` of `r`. -/
theorem C106_reset_part (fuel fuel' : Nat) (r c : Ref) (y : Option Int) (w : World R)
    (hr : (w.obj r).random = true) (hz : (w.obj r).rngSeed ≠ none) (hc : Below w r c)
    (hcr : ¬ Below w c r) :
    (∀ v, v = (World.reset fuel' c w).2 ∨ v = (World.seed fuel' c y w).2 →
      (World.reset fuel r v).1 = (World.reset fuel r w).1 ∧
      ((World.reset fuel r w).1 = .ok () → ∀ x,
        (World.reset fuel r v).2.obj x = (World.reset fuel r w).2.obj x)) := by
  obtain ⟨z, hz⟩ := Option.ne_none_iff_exists'.1 hz
  intro v hv
  have hF : World.ShapeFrame (Below w c) w v := by
    rcases hv with rfl | rfl
    · exact World.reset_shapeFrame fuel' c w
    · exact World.seed_shapeFrame fuel' c y w
  obtain ⟨h1, h2⟩ := World.reset_law fuel r z w v (fun x => (hF.shape x).symm) hr hz
    (by rw [hF.frame r hcr]; exact hz) (fun x hx => (hF.frame x fun h => hx (hc.trans h)).symm)
  exact ⟨h1.symm, fun hok x => (h2 hok x).symm⟩

/-- **C106 (resetting a schema again).** A second `reset_fields()` changes nothing, if every field has
a seed and none is used as an emitter below another. -/
theorem C106_reset_fields_twice (fuel : Nat) (fields : Dict Ref) (w : World R)
    (hr : ∀ kf ∈ fields, (w.obj kf.2).random = true)
    (hz : ∀ kf ∈ fields, (w.obj kf.2).rngSeed ≠ none)
    (hroot : ∀ kf ∈ fields, ∀ kd ∈ fields, Below w kd.2 kf.2 → kd.2 = kf.2)
    (hok : (World.resetFields fuel fields w).1 = .ok ()) :
    (World.resetFields fuel fields (World.resetFields fuel fields w).2).1 = .ok () ∧ ∀ x,
      (World.resetFields fuel fields (World.resetFields fuel fields w).2).2.obj x =
        (World.resetFields fuel fields w).2.obj x := by
  rw [World.resetFields_eq] at hok ⊢
  have hF := World.resetAll_frame fuel (fields.map (·.2)) w
  have hr' : ∀ c ∈ fields.map (·.2), (w.obj c).random = true := by
    intro c hc
    obtain ⟨kf, hkf, rfl⟩ := List.mem_map.1 hc
    exact hr kf hkf
  have hs := World.resetAll_rngSeed fuel (fields.map (·.2)) w hr' (by
    intro c hc d hd hb
    obtain ⟨kf, hkf, rfl⟩ := List.mem_map.1 hc
    obtain ⟨kd, hkd, rfl⟩ := List.mem_map.1 hd
    exact hroot kf hkf kd hkd hb)
  obtain ⟨h1, h2⟩ := World.resetAll_law fuel (fields.map (·.2)) w _ (fun x => (hF.shape x).symm)
    hr' (fun c hc => by
      obtain ⟨kf, hkf, rfl⟩ := List.mem_map.1 hc
      obtain ⟨z, hz⟩ := Option.ne_none_iff_exists'.1 (hz kf hkf)
      exact ⟨z, hz, (hs kf.2 hc).trans hz⟩)
    (fun x hx => (hF.frame x hx).symm)
  exact ⟨h1 ▸ hok, fun x => (h2 hok x).symm⟩

/-! ### Setting the attribute -/

/-- **C106 (attribute).** Assigning `rng_seed` and resetting does the same as seeding and resetting. -/
theorem C106_assign (fuel fuel' : Nat) (r : Ref) (z : Int) (w : World R)
    (hr : (w.obj r).random = true) (hok : (World.seed fuel' r (some z) w).1 = .ok ()) :
    (World.reset fuel r (w.upd r (Attrs.setSeed (some z)))).1 =
      (World.reset fuel r (World.seed fuel' r (some z) w).2).1 ∧
    ((World.reset fuel r (World.seed fuel' r (some z) w).2).1 = .ok () → ∀ x,
      (World.reset fuel r (w.upd r (Attrs.setSeed (some z)))).2.obj x =
        (World.reset fuel r (World.seed fuel' r (some z) w).2).2.obj x) := by
  have hF := World.seed_shapeFrame fuel' r (some z) w
  have hn := hF.node r
  have hr' : ((World.seed fuel' r (some z) w).2.obj r).random = true := by
    unfold Attrs.random at hr ⊢
    rw [hn]; exact hr
  have hsh : ∀ x, ((World.seed fuel' r (some z) w).2.obj x).shape =
      ((w.upd r (Attrs.setSeed (some z))).obj x).shape := by
    intro x
    rw [hF.shape, World.upd_obj]
    by_cases hx : x = r
    · subst hx; rw [if_pos rfl, World.shape_setSeed _ hr]
    · rw [if_neg hx]
  obtain ⟨h1, h2⟩ := World.reset_law fuel r z (World.seed fuel' r (some z) w).2
    (w.upd r (Attrs.setSeed (some z))) hsh hr'
    (World.seeded_rngSeed (C53_seed fuel' r (some z) w hok r (.self r)) hr')
    (by rw [World.upd_obj, if_pos rfl]; exact Attrs.setSeed_rngSeed _ _)
    (fun x hx => by
      have hb : ¬ Below w r x := fun h => hx ((World.Below.congr fun y => hF.node y).2 h)
      have hne : x ≠ r := fun e => hb (by rw [e]; exact .self r)
      rw [hF.frame x hb, World.upd_obj, if_neg hne])
  exact ⟨h1.symm, fun hok x => (h2 hok x).symm⟩

/-! ### The order of seeding and resetting -/

/-- **C106 (order).** Seeding and then resetting leaves every object as resetting and then seeding
does, whatever seed there was before. -/
theorem C106_order (fuel : Nat) (r : Ref) (z : Int) (w w1 w2 v1 v2 : World R)
    (hr : (w.obj r).random = true)
    (hw1 : World.seed fuel r (some z) w = (.ok (), w1)) (hw2 : World.reset fuel r w1 = (.ok (), w2))
    (hv1 : World.reset fuel r w = (.ok (), v1)) (hv2 : World.seed fuel r (some z) v1 = (.ok (), v2)) :
    ∀ x, w2.obj x = v2.obj x := by
  have f1 := World.seed_shapeFrame fuel r (some z) w
  have f2 := World.reset_shapeFrame fuel r w1
  have g1 := World.reset_shapeFrame fuel r w
  have g2 := World.seed_shapeFrame fuel r (some z) v1
  have i2 := World.seed_idle fuel r (some z) v1
  rw [hw1] at f1
  rw [hw2] at f2
  rw [hv1] at g1
  rw [hv2] at g2 i2
  have b1 : ∀ x, Below w1 r x ↔ Below w r x := fun x => World.Below.congr f1.node
  have b2 : ∀ x, Below v1 r x ↔ Below w r x := fun x => World.Below.congr g1.node
  have hr1 : (w1.obj r).random = true := by
    unfold Attrs.random at hr ⊢
    rw [f1.node]; exact hr
  have s1 := C53_seed fuel r (some z) w (by rw [hw1]) r (.self r)
  rw [hw1] at s1
  have c1 := fun x hx => C53_reset fuel r w1 hr1 (by rw [hw2]) x ((b1 x).2 hx)
  rw [hw2, World.seeded_rngSeed s1 hr1] at c1
  have c2 := fun x hx => C53_reset fuel r w hr (by rw [hv1]) x hx
  rw [hv1] at c2
  have c3 := fun x hx => C53_seed fuel r (some z) v1 (by rw [hv2]) x ((b2 x).2 hx)
  rw [hv2] at c3
  refine World.same_objects (A := Below w r) (z := z) (fun x => ?_) (fun x hx => (c1 x hx).1) c3
    (fun x hx => ?_) (fun x hx => ?_)
  · rw [f2.shape, f1.shape, g2.shape, g1.shape]
  · have := World.sameProgress_of_rewound (a := w2.obj x) (b := v1.obj x)
      (by rw [f2.node, f1.node, g1.node]) (c1 x hx).2 (c2 x hx).2
    unfold World.SameProgress at this ⊢
    rw [← (i2 x).1, ← (i2 x).2.1, ← (i2 x).2.2]
    exact this
  · rw [f2.frame x (fun h => hx ((b1 x).1 h)), f1.frame x hx,
      g2.frame x (fun h => hx ((b2 x).1 h)), g1.frame x hx]

/-- **C106 (order, schemas).** The same for `seed_fields(z)` and `reset_fields()`. -/
theorem C106_order_fields (fuel : Nat) (fields : Dict Ref) (z : Int) (w w1 w2 v1 v2 : World R)
    (hw1 : World.seedFields fuel (some z) fields w = (.ok (), w1))
    (hw2 : World.resetFields fuel fields w1 = (.ok (), w2))
    (hv1 : World.resetFields fuel fields w = (.ok (), v1))
    (hv2 : World.seedFields fuel (some z) fields v1 = (.ok (), v2)) :
    ∀ x, w2.obj x = v2.obj x := by
  rw [World.seedFields_eq] at hw1 hv2
  rw [World.resetFields_eq] at hw2 hv1
  set l := fields.map (·.2)
  have f1 := World.seedAll_frame fuel l (some z) w
  have f2 := World.resetAll_frame fuel l w1
  have g1 := World.resetAll_frame fuel l w
  have g2 := World.seedAll_frame fuel l (some z) v1
  have i2 := World.seedAll_idle fuel l (some z) v1
  rw [hw1] at f1
  rw [hw2] at f2
  rw [hv1] at g1
  rw [hv2] at g2 i2
  have b1 := World.under_congr f1.shape l
  have b2 := World.under_congr g1.shape l
  have s1 := World.seedAll_seeded fuel l (some z) w (by rw [hw1])
  rw [hw1] at s1
  have c1 := fun x hx => World.resetAll_seeded fuel l (some z) w1
    (fun c hc hn => World.seeded_rngSeed (s1 c ⟨c, hc, .self c⟩) hn) (by rw [hw2]) x ((b1 x).2 hx)
  have c1' := fun x hx => World.resetAll_rewound fuel l w1 (by rw [hw2]) x ((b1 x).2 hx)
  rw [hw2] at c1 c1'
  have c2 := fun x hx => World.resetAll_rewound fuel l w (by rw [hv1]) x hx
  rw [hv1] at c2
  have c3 := fun x hx => World.seedAll_seeded fuel l (some z) v1 (by rw [hv2]) x ((b2 x).2 hx)
  rw [hv2] at c3
  refine World.same_objects (A := World.Under w l) (z := z) (fun x => ?_) c1 c3
    (fun x hx => ?_) (fun x hx => ?_)
  · rw [f2.shape, f1.shape, g2.shape, g1.shape]
  · have := World.sameProgress_of_rewound (a := w2.obj x) (b := v1.obj x)
      (by rw [f2.node, f1.node, g1.node]) (c1' x hx) (c2 x hx)
    unfold World.SameProgress at this ⊢
    rw [← (i2 x).1, ← (i2 x).2.1, ← (i2 x).2.2]
    exact this
  · rw [f2.frame x (fun h => hx ((b1 x).1 h)), f1.frame x hx,
      g2.frame x (fun h => hx ((b2 x).1 h)), g1.frame x hx]

/-! ### Without a seed -/

/-- Two words of three without repetition, with no seed; one document has been made. -/
def noSeedWorld : World demoRng :=
  ((do
    let words ← World.newChoice .list [.str ['x'], .str ['y'], .str ['z']] none false true none none
    let _ ← World.newField 5 "tags" words none none false none
    World.document demoStr 5 [("tags", 3)]) emptyWorld).2

/-- **C106 (needs a seed).** With `None` for a seed, neither `reset()` nor `seed(None)` twice is the
same as once: the documents differ. -/
theorem C106_none_violated :
    World.documents demoStr 5 [("tags", 3)] 3 (World.reset 5 3 (World.reset 5 3 noSeedWorld).2).2 ≠
      World.documents demoStr 5 [("tags", 3)] 3 (World.reset 5 3 noSeedWorld).2 ∧
    World.documents demoStr 5 [("tags", 3)] 3 (World.seed 5 3 none (World.seed 5 3 none noSeedWorld).2).2
      ≠ World.documents demoStr 5 [("tags", 3)] 3 (World.seed 5 3 none noSeedWorld).2 := by
  decide +kernel

/-- **C106 (seeding is not resetting).** Seeding before or after does not rewind: the counter goes
on. -/
theorem C106_seed_only_violated :
    World.documents demoStr 5 [("n", 3)] 1
        (World.seed 5 3 (some 9) (World.document demoStr 5 [("n", 3)] demoWorld').2).2 ≠
      World.documents demoStr 5 [("n", 3)] 1
        (World.reset 5 3 (World.seed 5 3 (some 9) (World.document demoStr 5 [("n", 3)] demoWorld').2).2).2 := by
  decide +kernel

/-! ### Examples -/

/-- Two words of three without repetition, with the seed 4; one document has been made.  The emitter is
object 0, the field object 3. -/
def usedWorld : World demoRng :=
  ((do
    let words ← World.newChoice .list [.str ['x'], .str ['y'], .str ['z']] none false true none none
    let _ ← World.newField 5 "tags" words none none false (some 4)
    World.document demoStr 5 [("tags", 3)]) emptyWorld).2

example : (usedWorld.obj 3).random = true ∧ (usedWorld.obj 3).rngSeed = some 4 := by decide +kernel
example : (World.reset 5 3 usedWorld).1 = .ok () ∧ (World.seed 5 3 (some 9) usedWorld).1 = .ok () := by
  decide +kernel
example : (World.reset 5 3 (World.seed 5 3 (some 9) usedWorld).2).1 = .ok () := by decide +kernel
example : (World.seed 5 3 (some 9) (World.reset 5 3 usedWorld).2).1 = .ok () := by decide +kernel
/-- The first reset did change something. -/
example : (World.call demoStr 5 3 none usedWorld).1 ≠
    (World.call demoStr 5 3 none (World.reset 5 3 usedWorld).2).1 := by decide +kernel
/-- So did seeding. -/
example : (usedWorld.obj 0).choice.rngSeed ≠
    ((World.seed 5 3 (some 9) usedWorld).2.obj 0).choice.rngSeed := by decide +kernel
/-- The emitter 0 is strictly below the field 3. -/
example : Below usedWorld 3 0 ∧ ¬ Below usedWorld 0 3 := by
  refine ⟨.step (c := 0) (by decide +kernel) (.self 0), fun h => ?_⟩
  have := h.mem [0] (by decide +kernel) (by decide)
  revert this
  decide
/-- The schema `kind`, `copy`. -/
example : (World.resetFields 5 [("kind", 3), ("copy", 7)] orderWorld).1 = .ok () ∧
    (World.seedFields 5 (some 9) [("kind", 3), ("copy", 7)] orderWorld).1 = .ok () := by
  decide +kernel
example : (World.resetFields 5 [("kind", 3), ("copy", 7)]
    (World.seedFields 5 (some 9) [("kind", 3), ("copy", 7)] orderWorld).2).1 = .ok () := by
  decide +kernel
example : (World.seedFields 5 (some 9) [("kind", 3), ("copy", 7)]
    (World.resetFields 5 [("kind", 3), ("copy", 7)] orderWorld).2).1 = .ok () := by decide +kernel
example : ∀ kf ∈ ([("kind", 3), ("copy", 7)] : Dict Ref), (orderWorld.obj kf.2).random = true ∧
    (orderWorld.obj kf.2).rngSeed ≠ none := by decide +kernel
example : ∀ kf ∈ ([("kind", 3), ("copy", 7)] : Dict Ref), ∀ kd ∈ ([("kind", 3), ("copy", 7)] : Dict Ref),
    Below orderWorld kd.2 kf.2 → kd.2 = kf.2 := by
  have h1 : ¬ Below orderWorld 3 7 := fun h =>
    absurd (h.mem [3, 0, 1, 2] (by decide +kernel) (by decide)) (by decide)
  have h2 : ¬ Below orderWorld 7 3 := fun h =>
    absurd (h.mem [7, 4, 5, 6] (by decide +kernel) (by decide)) (by decide)
  intro kf hkf kd hkd hb
  simp only [List.mem_cons, List.not_mem_nil, or_false] at hkf hkd
  rcases hkf with rfl | rfl <;> rcases hkd with rfl | rfl
  · rfl
  · exact absurd hb h2
  · exact absurd hb h1
  · rfl

end Fauxdoc
