import Verif.Proofs.World9
/-
C55: what `seed_fields` determines.
-/
set_option linter.unusedSectionVars false
namespace Fauxdoc
open PyM
variable {K : Type} [Field K] [LinearOrder K] [FloorRing K] {R : Rng K}

namespace World
variable {nodes : Ref → Option Node} {wrappers : Ref → Option (Callback R.G)} {P X T : Ref → Prop}

/-! ### Positions -/

/-- All objects in `P` have got equally far in both stores. -/
def SameSpots (P : Ref → Prop) (w v : World R) : Prop :=
  ∀ x, P x → (w.obj x).position = (v.obj x).position

theorem SameSpots.upd {w v : World R} (h : SameSpots P w v) (r : Ref) {f g : Attrs R → Attrs R}
    (hfg : P r → (f (w.obj r)).position = (g (v.obj r)).position) (e e' : Nat) :
    SameSpots P { w.upd r f with entropy := e } { v.upd r g with entropy := e' } := by
  intro x hx
  change ((w.upd r f).obj x).position = ((v.upd r g).obj x).position
  rw [upd_obj, upd_obj]
  by_cases hxr : x = r
  · subst hxr; rw [if_pos rfl, if_pos rfl]; exact hfg hx
  · rw [if_neg hxr, if_neg hxr]; exact h x hx

theorem position_setSeed (s : Option Int) (a : Attrs R) : (a.setSeed s).position = a.position := by
  unfold Attrs.setSeed
  split <;> rfl

theorem spots_steps (nodes : Ref → Option Node) (P : Ref → Prop) (s : Int)
    (hP : ∀ r, P r → ∀ c ∈ Node.childRefs (nodes r), P c) :
    ResetSteps (R := R) nodes P (some s)
      (fun w v => Agree nodes P (fun _ => False) (fun _ => False) w v ∧ SameSpots P w v) where
  left w v r h hr := h.1.left r hr
  right w v r h hr := h.1.right r hr
  closed := hP
  setSeed r w v h hr hn := ⟨(agree_steps nodes P _ _ s hP).setSeed r w v h.1 hr hn,
    h.2.upd r (fun hx => by rw [position_setSeed, position_setSeed]; exact h.2 r hx)
      w.entropy v.entropy⟩
  newRng r w v h hr hn hc h1 h2 := ⟨(agree_steps nodes P _ _ s hP).newRng r w v h.1 hr hn hc h1 h2, by
    rw [newRng_seeded, newRng_seeded]
    exact h.2.upd r (f := fun a => { a with rng := R.ofSeed s })
      (g := fun a => { a with rng := R.ofSeed s }) (fun hx => h.2 r hx) w.entropy v.entropy⟩
  choice r k w v h hr hk h1 h2 := by
    obtain ⟨a, b⟩ := (agree_steps nodes P _ _ s hP).choice r k w v h.1 hr hk h1 h2
    exact ⟨a, b, h.2.upd r (f := fun a => { a with
        choice := (Choice.reset ((w.obj r).choice, w.entropy)).2.1 })
      (g := fun a => { a with choice := (Choice.reset ((v.obj r).choice, v.entropy)).2.1 })
      (fun hx => h.2 r hx) _ _⟩
  iter r w v h hr hk := ⟨(agree_steps nodes P _ _ s hP).iter r w v h.1 hr hk, by
    rw [iter_run, iter_run]
    refine h.2.upd r (f := fun a => { a with iter := (Iterative.reset (w.obj r).iter).2 })
      (g := fun a => { a with iter := (Iterative.reset (v.obj r).iter).2 }) (fun hx => ?_)
      w.entropy v.entropy
    unfold Attrs.position
    dsimp only
    rw [h.1.left r hr, h.1.right r hr, hk]
    rfl⟩
  seq r k w v h hr hk := ⟨(agree_steps nodes P _ _ s hP).seq r k w v h.1 hr hk, by
    rw [seq_run, seq_run]
    refine h.2.upd r (f := fun a => { a with
        seq := (Sequential.onIt Iterative.reset (w.obj r).seq).2 })
      (g := fun a => { a with seq := (Sequential.onIt Iterative.reset (v.obj r).seq).2 })
      (fun hx => ?_) w.entropy v.entropy
    unfold Attrs.position
    dsimp only
    rw [h.1.left r hr, h.1.right r hr, hk]
    rfl⟩
  cache r n e rp g hd w v h hr hk := ⟨(agree_steps nodes P _ _ s hP).cache r n e rp g hd w v h.1 hr hk,
    by
      rw [cache_set, cache_set]
      exact h.2.upd r (f := fun a => { a with cache := .none }) (g := fun a => { a with cache := .none })
        (fun hx => h.2 r hx) w.entropy v.entropy⟩

/-- Freshly seeded objects are determined, but for a field's last value, by shape and position. -/
theorem seeded_near {s : Int} {a b : Attrs R} (ha : a.Seeded (some s)) (hb : b.Seeded (some s))
    (hp : a.position = b.position) (h : a.shape = b.shape) :
    ({ a with cache := .none } : Attrs R) = { b with cache := .none } := by
  have hn := node_of_shape h
  by_cases hf : ∃ n e rp g hd, a.node = some (.field n e rp g hd)
  · obtain ⟨n, e, rp, g, hd, hf⟩ := hf
    have hf' : b.node = some (.field n e rp g hd) := hn ▸ hf
    refine seeded_ext (s := s) ?_ ?_ ?_ ?_
    · exact seeded_congr (a := a) rfl rfl rfl rfl ha
    · exact seeded_congr (a := b) rfl rfl rfl rfl hb
    · unfold SameProgress
      dsimp only
      rw [hf]
    · exact (shape_setCache _ hf).trans (h.trans (shape_setCache _ hf').symm)
  · have : a = b := by
      refine seeded_ext ha hb ?_ h
      unfold SameProgress
      unfold Attrs.position at hp
      rw [← hn] at hp
      rcases hk : a.node with _ | node
      · trivial
      · rw [hk] at hp
        cases node with
        | iterative => exact Option.some.inj hp
        | sequential k => exact Option.some.inj hp
        | field n e rp g hd => exact absurd ⟨n, e, rp, g, hd, hk⟩ hf
        | _ => trivial
    rw [this]

/-! ### Documents -/

theorem BelowN.trans {a b c : Ref} (h : BelowN nodes a b) (h' : BelowN nodes b c) :
    BelowN nodes a c := by
  induction h with
  | self => exact h'
  | step hc _ ih => exact .step hc (ih h')

/-- A run through the fields, sources first. -/
theorem loop_sameBut (hP : ∀ r, P r → ∀ c ∈ Node.childRefs (nodes r), P c) (str : Val → List Char)
    (fuel : Nat) (hide hide' : Ref → Bool) (fields : Dict Ref) (done : List Ref)
    (hdone : ∀ g ∈ done, P g) (hf : ∀ kf ∈ fields, P kf.2)
    (hfield : ∀ kf ∈ fields, ∃ n e rp g hd, nodes kf.2 = some (.field n e rp g hd))
    (hhide : ∀ kf ∈ fields, hide kf.2 = hide' kf.2)
    (hord : ∀ pre k f post, fields = pre ++ (k, f) :: post → ∀ x, BelowN nodes f x →
      ∀ g ∈ Node.sourceRefs (nodes x), g ∈ done ∨ ∃ kf ∈ pre, kf.2 = g)
    (doc : Dict Val) (w v : World R) (h : SameBut nodes wrappers P (· ∉ done) w v) :
    (Schema.loop hide (fun r => call str fuel r none) doc fields w).1 =
      (Schema.loop hide' (fun r => call str fuel r none) doc fields v).1 ∧
    SameBut nodes wrappers P (fun _ => True)
      (Schema.loop hide (fun r => call str fuel r none) doc fields w).2
      (Schema.loop hide' (fun r => call str fuel r none) doc fields v).2 := by
  induction fields generalizing done doc w v with
  | nil => exact ⟨rfl, h.clean fun _ _ _ hn => absurd trivial hn⟩
  | cons kf fs ih =>
    obtain ⟨k, f⟩ := kf
    have hPf : P f := hf (k, f) (by simp)
    obtain ⟨n, e, rp, g, hd, hnf⟩ := hfield (k, f) (by simp)
    dsimp only at hnf
    obtain ⟨h1, h2⟩ := (sameBut_steps nodes wrappers P (BelowN nodes f) (· ∉ done) hP
      (fun r hr => hr.mem hP hPf)
      (fun r hr c hc => (BelowN.trans hr (.step hc (.self c))))
      (fun r hr g hg => by
        rcases hord [] k f fs rfl r hr g hg with hd | ⟨_, hm, _⟩
        · exact ⟨hdone g hd, fun hn => hn hd⟩
        · cases hm)).call str fuel f (.self f) none w v h
    unfold Schema.loop
    rw [PyM.bind_apply, PyM.bind_apply]
    have hnw := (h.node f hPf).trans hnf
    have hnv : (v.obj f).node = some (.field n e rp g hd) := by
      rw [← h.get hPf (·.node) fun _ => rfl]; exact hnw
    rcases hw : call str fuel f none w with ⟨x | y, w1⟩ <;>
      rcases hv : call str fuel f none v with ⟨x' | y', v1⟩ <;> rw [hw, hv] at h1 h2
    · cases h1; exact ⟨rfl, h2.clean fun _ _ _ hn => absurd trivial hn⟩
    · cases h1
    · cases h1
    · cases h1
      dsimp only at h2 ⊢
      have h3 : SameBut nodes wrappers P (· ∉ f :: done) w1 v1 := by
        refine h2.clean fun x _ hx hnx => ?_
        have hxf : x = f := by
          by_contra hne
          exact hnx (by simp [hne]; exact hx)
        subst hxf
        rw [call_field_cache str fuel x w w1 y hnw hw, call_field_cache str fuel x v v1 y hnv hv]
      have ih' := fun doc => ih (f :: done)
        (fun g hg => by
          rcases List.mem_cons.1 hg with rfl | hg
          · exact hPf
          · exact hdone g hg)
        (fun kf hkf => hf kf (List.mem_cons_of_mem _ hkf))
        (fun kf hkf => hfield kf (List.mem_cons_of_mem _ hkf))
        (fun kf hkf => hhide kf (List.mem_cons_of_mem _ hkf))
        (fun pre k' f' post he x hx g hg => by
          rcases hord ((k, f) :: pre) k' f' post (by rw [he]; rfl) x hx g hg with hd | ⟨kf, hm, hkf⟩
          · exact .inl (List.mem_cons_of_mem _ hd)
          · rcases List.mem_cons.1 hm with rfl | hm
            · exact .inl (by rw [← hkf]; exact List.mem_cons_self)
            · exact .inr ⟨kf, hm, hkf⟩) doc w1 v1 h3
      have hh := hhide (k, f) (by simp)
      dsimp only at hh
      rw [hh]
      by_cases hb : hide' f = true
      · rw [if_pos hb, if_pos hb]; exact ih' doc
      · rw [if_neg hb, if_neg hb]; exact ih' _

theorem documents_sameBut (hP : ∀ r, P r → ∀ c ∈ Node.childRefs (nodes r), P c)
    (str : Val → List Char) (fuel : Nat) (fields : Dict Ref) (hf : ∀ kf ∈ fields, P kf.2)
    (hfield : ∀ kf ∈ fields, ∃ n e rp g hd, nodes kf.2 = some (.field n e rp g hd))
    (hord : ∀ pre k f post, fields = pre ++ (k, f) :: post → ∀ x, BelowN nodes f x →
      ∀ g ∈ Node.sourceRefs (nodes x), ∃ kf ∈ pre, kf.2 = g)
    (k : Nat) (w v : World R) (h : SameBut nodes wrappers P (fun _ => True) w v) :
    documents str fuel fields k w = documents str fuel fields k v := by
  induction k generalizing w v with
  | zero => rfl
  | succ k ih =>
    obtain ⟨h1, h2⟩ := loop_sameBut hP str fuel (fun r => (w.obj r).hide) (fun r => (v.obj r).hide)
      fields [] (by simp) hf hfield (fun kf hkf => h.get (hf kf hkf) (·.hide) fun _ => rfl)
      (fun pre k f post he x hx g hg => .inr (hord pre k f post he x hx g hg)) [] w v
      (h.clean fun _ _ _ hn => absurd (by simp) hn)
    have hd : ∀ u : World R, document str fuel fields u =
        Schema.loop (fun r => (u.obj r).hide) (fun r => call str fuel r none) [] fields u := by
      intro u
      unfold document Schema.call
      rw [PyM.run_get_bind]
    unfold documents
    rw [hd w, hd v, h1, ih _ _ h2]

end World

/-- **C55 (partial).** `seed_fields(s)` has the same outcome and is followed by the same documents in
any two stores in which the schema's fields and the emitters below them are configured alike, whatever
their generators, shuffles, seeds and last values, provided that
* the `Iterative` and `Sequential` emitters are at the same positions, and
* every field comes after the source fields its emitters read.
Both conditions are needed: `C55_position_violated`, `C55_order_violated`. -/
theorem C55_alike_partial (str : Val → List Char) (fuel : Nat) (fields : Dict Ref) (s : Int)
    (w v : World R)
    (hshape : ∀ kf ∈ fields, ∀ x, Below w kf.2 x → (w.obj x).shape = (v.obj x).shape)
    (hpos : ∀ kf ∈ fields, ∀ x, Below w kf.2 x → (w.obj x).position = (v.obj x).position)
    (hfield : ∀ kf ∈ fields, (w.obj kf.2).isField = true)
    (hord : SourcesFirst w fields) :
    (World.seedFields fuel (some s) fields w).1 = (World.seedFields fuel (some s) fields v).1 ∧
    ((World.seedFields fuel (some s) fields w).1 = .ok () → ∀ fuel' k,
      World.documents str fuel' fields k (World.seedFields fuel (some s) fields w).2 =
        World.documents str fuel' fields k (World.seedFields fuel (some s) fields v).2) := by
  have hP : ∀ r, (∃ kf ∈ fields, Below w kf.2 r) → ∀ c ∈ Node.childRefs (w.obj r).node,
      ∃ kf ∈ fields, Below w kf.2 c := fun r ⟨kf, h1, h2⟩ c hc => ⟨kf, h1, h2.child hc⟩
  set P : Ref → Prop := fun x => ∃ kf ∈ fields, Below w kf.2 x with hPdef
  set nodes : Ref → Option Node := fun x => (w.obj x).node with hnodes
  have hA : World.Agree nodes P (fun _ => False) (fun _ => False) w v :=
    ⟨fun _ _ => rfl, fun x ⟨kf, h1, h2⟩ => (World.node_of_shape (hshape kf h1 x h2)).symm,
      fun x ⟨kf, h1, h2⟩ => hshape kf h1 x h2, fun _ h => h.elim, fun _ h => h.elim⟩
  have hl : ∀ c ∈ fields.map (·.2), P c := by
    intro c hc
    obtain ⟨kf, hkf, rfl⟩ := List.mem_map.1 hc
    exact ⟨kf, hkf, .self _⟩
  rw [World.seedFields_eq]
  obtain ⟨h1, h2, _⟩ := (Group.doMethod_rel (l := fields.map (·.2)) fun c hc =>
    (World.spots_steps (R := R) nodes P s hP).seed fuel c (hl c hc)) w v
    ⟨hA, fun x ⟨kf, h1, h2⟩ => hpos kf h1 x h2⟩
  have h3 : World.SameSpots P _ _ := ‹_›
  refine ⟨h1, fun hok fuel' k => ?_⟩
  have hfr : ∀ u : World R, (∀ x, P x → (u.obj x).node = nodes x) →
      (Group.doMethod ((fields.map (·.2)).map some) (World.seed fuel · (some s)) u).1 = .ok () →
      ∀ x, P x → ((Group.doMethod ((fields.map (·.2)).map some)
        (World.seed fuel · (some s)) u).2.obj x).Seeded (some s) := by
    intro u hu hk x ⟨kf, hkf, hx⟩
    rcases hq : Group.doMethod ((fields.map (·.2)).map some) (World.seed fuel · (some s)) u with
      ⟨y, u'⟩
    rw [hq] at hk
    dsimp only at hk
    subst hk
    rw [hq]
    exact (World.doSeed_fresh hP (fun c hc => World.seed_fresh hP fuel c hc) hl u u'
      ⟨hu, fun _ h => h.elim, fun _ h => h.elim⟩ hq).2 kf.2 (List.mem_map_of_mem hkf) x
      ((World.BelowN.iff w kf.2 x).2 hx)
  have s1 := hfr w hA.left hok
  have s2 := hfr v hA.right (h1 ▸ hok)
  refine World.documents_sameBut (P := P) (nodes := nodes)
    (wrappers := fun x => ((Group.doMethod ((fields.map (·.2)).map some)
        (World.seed fuel · (some s)) w).2.obj x).wrapper) hP str fuel' fields
    (fun kf hkf => ⟨kf, hkf, .self _⟩) (fun kf hkf => ?_)
    (fun pre k f post he x hx g hg => hord pre k f post he x ((World.BelowN.iff w f x).1 hx) g hg) k
    _ _ ⟨h2.left, fun _ _ => rfl, fun x hx => ?_, fun _ _ hn => absurd trivial hn, fun x k hx hk => ?_⟩
  · have := hfield kf hkf
    unfold Attrs.isField at this
    rw [hnodes]
    dsimp only
    rcases hn : (w.obj kf.2).node with _ | node
    · rw [hn] at this; cases this
    · rw [hn] at this
      cases node with
      | field n e rp g hd => exact ⟨n, e, rp, g, hd, rfl⟩
      | _ => cases this
  · exact World.seeded_near (s1 x hx) (s2 x hx) (h3 x hx) (h2.shape x hx)
  · have hs := World.seeded_rngSeed (s1 x hx) (by rw [h2.left x hx, hk]; rfl)
    unfold Attrs.rngSeed at hs
    rw [h2.left x hx, hk] at hs
    exact ⟨s, hs⟩

namespace World

theorem seed_shape (fuel : Nat) (r : Ref) (s : Option Int) (w : World R) :
    ∀ x, ((seed fuel r s w).2.obj x).shape = (w.obj x).shape := by
  have := (shapeFrame_steps (fun _ => True) s w (fun _ _ _ _ => trivial)).seed fuel r trivial w w
    ⟨rfl, .refl _ w⟩
  exact this.2.2.shape

theorem longHistory_shape {str : Val → List Char} {w v : World R} (h : LongHistory str w v) :
    ∀ x, (v.obj x).shape = (w.obj x).shape := by
  induction h with
  | start => exact fun _ => rfl
  | @use v u _ h' ih =>
    refine fun x => Eq.trans ?_ (ih x)
    cases h' with
    | use h'' => exact (use_keeps h'').1 x
    | seed fuel r s => exact seed_shape fuel r s v x
    | seedFields fuel s fields =>
      rw [seedFields_eq]
      have hk : Keeps (fun u : World R => ∀ x, (u.obj x).shape = (v.obj x).shape)
          (Group.doMethod ((fields.map (·.2)).map some) (seed fuel · s)) := by
        refine (Group.doMethod_rel fun r _ => Keeps.rel fun u h1 => ?_).keeps
        exact fun x => (seed_shape fuel r s u x).trans (h1 x)
      exact hk v (fun _ => rfl) x

end World

/-- **C55 (partial, histories).** In a schema without `Iterative` and `Sequential` emitters in which
every field comes after the source fields its emitters read, `seed_fields(s)` is followed by the same
documents whatever has been called, generated, reset or seeded before. -/
theorem C55_history_partial (str : Val → List Char) (fuel : Nat) (fields : Dict Ref) (s : Int)
    (w v : World R) (hist : LongHistory str w v)
    (hpos : ∀ kf ∈ fields, ∀ x, Below w kf.2 x → (w.obj x).position = none)
    (hfield : ∀ kf ∈ fields, (w.obj kf.2).isField = true)
    (hord : SourcesFirst w fields) :
    (World.seedFields fuel (some s) fields w).1 = (World.seedFields fuel (some s) fields v).1 ∧
    ((World.seedFields fuel (some s) fields w).1 = .ok () → ∀ fuel' k,
      World.documents str fuel' fields k (World.seedFields fuel (some s) fields w).2 =
        World.documents str fuel' fields k (World.seedFields fuel (some s) fields v).2) := by
  have hs := World.longHistory_shape hist
  refine C55_alike_partial str fuel fields s w v (fun _ _ x _ => (hs x).symm)
    (fun kf hkf x hx => ?_) hfield hord
  have h1 := hpos kf hkf x hx
  rw [h1]
  unfold Attrs.position at h1 ⊢
  rw [World.node_of_shape (hs x)]
  rcases hn : (w.obj x).node with _ | node
  · rfl
  · rw [hn] at h1
    cases node with
    | iterative => cases h1
    | sequential k => cases h1
    | _ => rfl

/-! ### Violations -/

/-- **C55 (violated by positions).** `seed_fields(1)` twice, with one document in between: the field
over `Sequential([1, 2, 3])` goes on where it was. -/
theorem C55_position_violated : ∃ v, History demoStr demoWorld v ∧
    (World.seedFields 5 (some 1) [("n", 3)] demoWorld).1 = .ok () ∧
    (World.seedFields 5 (some 1) [("n", 3)] v).1 = .ok () ∧
    World.documents demoStr 5 [("n", 3)] 1 (World.seedFields 5 (some 1) [("n", 3)] demoWorld).2 ≠
      World.documents demoStr 5 [("n", 3)] 1 (World.seedFields 5 (some 1) [("n", 3)] v).2 :=
  ⟨(World.document demoStr 5 [("n", 3)] demoWorld).2, .use .start (.document 5 _),
    by decide +kernel, by decide +kernel, by decide +kernel⟩

/-- `kind = Field('kind', Choice([7, 8]))`, `copy = Field('copy', CopyFields(kind))`. -/
def orderSchema : PyM (World demoRng) Unit := do
  let kinds ← World.newChoice .list [.int 7, .int 8] none true false none none
  let kind ← World.newField 5 "kind" kinds none none false (some 5)
  let em ← World.newCopyFields [kind] true none
  let _ ← World.newField 5 "copy" em none none false (some 6)

/-- The store after building it: `kind` is object 3, `copy` is object 7. -/
def orderWorld : World demoRng := (orderSchema emptyWorld).2

/-- **C55 (violated by order).** If `copy` comes before `kind`, its first value after
`seed_fields(1)` is what was left from before. -/
theorem C55_order_violated : ∃ v, History demoStr orderWorld v ∧
    (World.seedFields 5 (some 1) [("copy", 7), ("kind", 3)] orderWorld).1 = .ok () ∧
    (World.seedFields 5 (some 1) [("copy", 7), ("kind", 3)] v).1 = .ok () ∧
    World.documents demoStr 5 [("copy", 7), ("kind", 3)] 1
        (World.seedFields 5 (some 1) [("copy", 7), ("kind", 3)] orderWorld).2 ≠
      World.documents demoStr 5 [("copy", 7), ("kind", 3)] 1
        (World.seedFields 5 (some 1) [("copy", 7), ("kind", 3)] v).2 :=
  ⟨(World.document demoStr 5 [("copy", 7), ("kind", 3)] orderWorld).2, .use .start (.document 5 _),
    by decide +kernel, by decide +kernel, by decide +kernel⟩

/-! ### Examples -/

/-- The schema `kind`, `copy` meets the conditions of `C55_history_partial`. -/
example : (orderSchema emptyWorld).1 = .ok () ∧
    (World.seedFields 5 (some 1) [("kind", 3), ("copy", 7)] orderWorld).1 = .ok () := by
  decide +kernel
example : ∀ kf ∈ ([("kind", 3), ("copy", 7)] : Dict Ref), ∀ x, Below orderWorld kf.2 x →
    (orderWorld.obj x).position = none := by
  intro kf hkf x hx
  have h1 : ∀ kf ∈ ([("kind", 3), ("copy", 7)] : Dict Ref), kf.2 ∈ List.range 8 := by decide
  have h2 := hx.mem (List.range 8) (by decide +kernel) (h1 kf hkf)
  have h3 : ∀ x ∈ List.range 8, (orderWorld.obj x).position.isNone = true := by decide +kernel
  exact Option.isNone_iff_eq_none.1 (h3 x h2)
example : ∀ kf ∈ ([("kind", 3), ("copy", 7)] : Dict Ref), (orderWorld.obj kf.2).isField = true := by
  decide +kernel
example : SourcesFirst orderWorld [("kind", 3), ("copy", 7)] := by
  intro pre k f post h x hx g hg
  have h03 : ∀ x ∈ [3, 0, 1, 2], (orderWorld.obj x).sources = [] := by decide +kernel
  have h07 : ∀ x ∈ [7, 4, 5, 6], ∀ g ∈ (orderWorld.obj x).sources, g = 3 := by decide +kernel
  rcases pre with _ | ⟨p, pre⟩
  · cases h
    have := hx.mem [3, 0, 1, 2] (by decide +kernel) (by decide)
    rw [h03 x this] at hg
    cases hg
  · rcases pre with _ | ⟨q, pre⟩
    · cases h
      exact ⟨("kind", 3), by simp,
        (h07 x (hx.mem [7, 4, 5, 6] (by decide +kernel) (by decide)) g hg).symm⟩
    · exfalso
      have := congrArg List.length h
      simp at this
/-- Documents before and after seeding differ. -/
example : World.documents demoStr 5 [("kind", 3), ("copy", 7)] 3 orderWorld ≠
    World.documents demoStr 5 [("kind", 3), ("copy", 7)] 3
      (World.document demoStr 5 [("kind", 3), ("copy", 7)] orderWorld).2 := by decide +kernel

end Fauxdoc
