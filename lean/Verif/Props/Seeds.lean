import Verif.Proofs.World8
import Verif.Props.World
/-
C53, C54, C55: seeds reach every nested emitter and make documents reproducible.
-/
set_option linter.unusedSectionVars false
namespace Fauxdoc
open PyM
variable {K : Type} [Field K] [LinearOrder K] [FloorRing K] {R : Rng K}

/-! ### C53 -/

/-- **C53 (reset).** After resetting any object that has a seed attribute (`None` included), every
object below it that uses randomness has that seed, and, unless it is `None`, a generator freshly
seeded with it; and nothing below has handed out anything. -/
theorem C53_reset (fuel : Nat) (r : Ref) (w : World R) (hr : (w.obj r).random = true)
    (hok : (World.reset fuel r w).1 = .ok ()) (x : Ref) (hx : Below w r x) :
    ((World.reset fuel r w).2.obj x).Seeded (w.obj r).rngSeed ∧
      ((World.reset fuel r w).2.obj x).Rewound :=
  World.reset_fresh (nodes := fun y => (w.obj y).node) (P := fun _ => True) (fun _ _ _ _ => trivial)
    fuel r trivial w _ _ ⟨fun _ _ => rfl, fun _ h => h.elim, fun _ h => h.elim⟩
    (fun t ht _ => by subst ht; exact ⟨rfl, rfl⟩) rfl (.inl hok) x ((World.BelowN.iff w r x).2 hx)

/-- **C53 (seed).** The same for `seed(s)`, which does not rewind. -/
theorem C53_seed (fuel : Nat) (r : Ref) (s : Option Int) (w : World R)
    (hok : (World.seed fuel r s w).1 = .ok ()) (x : Ref) (hx : Below w r x) :
    ((World.seed fuel r s w).2.obj x).Seeded s :=
  World.seed_fresh (nodes := fun y => (w.obj y).node) (P := fun _ => True) (fun _ _ _ _ => trivial)
    fuel r trivial w _ _ ⟨fun _ _ => rfl, fun _ h => h.elim, fun _ h => h.elim⟩ rfl (.inl hok) x
    ((World.BelowN.iff w r x).2 hx)

namespace World

theorem reset_seed (fuel : Nat) (r : Ref) (w : World R) (hr : (w.obj r).random = true) :
    ((reset fuel r w).2.obj r).rngSeed = (w.obj r).rngSeed := by
  have := ((shapeFrame_steps (fun _ => True) (w.obj r).rngSeed w
    (fun _ _ _ _ => trivial)).withSeeds (· = r)).reset fuel r trivial
    (fun _ _ h => h.2) w w ⟨⟨rfl, .refl _ w⟩, fun t ht _ => by subst ht; exact ⟨rfl, rfl⟩⟩
  exact (this.2.2 r rfl hr).1

/-- Resetting leaves classes alone. -/
theorem reset_node (fuel : Nat) (r x : Ref) (w : World R) :
    ((reset fuel r w).2.obj x).node = (w.obj x).node :=
  (reset_frame fuel r (fun _ => True) w (fun _ _ _ _ => trivial) trivial).node x

theorem Below.congr {w v : World R} (h : ∀ x, (v.obj x).node = (w.obj x).node) {r x : Ref} :
    Below v r x ↔ Below w r x := by
  rw [← BelowN.iff v, ← BelowN.iff w]
  rw [show (fun y => (v.obj y).node) = fun y => (w.obj y).node from funext h]

/-- A new object with a seed, right after its first `reset`. -/
theorem alloc_reset {a : Attrs R} (ha : a.random = true) {fuel : Nat} {w w1 w2 : World R} {r : Ref}
    (h1 : alloc a w = (.ok r, w1)) (h2 : reset fuel r w1 = (.ok (), w2)) (x : Ref)
    (hx : Below w2 r x) : (w2.obj x).Seeded a.rngSeed ∧ (w2.obj x).Rewound := by
  cases h1
  have hob : ((⟨fun x => if x = w.next then a else w.obj x, w.next + 1, w.entropy⟩ : World R).obj
      w.next) = a := if_pos rfl
  have hn := fun y => reset_node fuel w.next y
    (⟨fun x => if x = w.next then a else w.obj x, w.next + 1, w.entropy⟩ : World R)
  have := C53_reset fuel w.next
    (⟨fun x => if x = w.next then a else w.obj x, w.next + 1, w.entropy⟩ : World R)
    (by rw [hob]; exact ha) (by exact congrArg Prod.fst h2) x
  have e : reset fuel w.next (⟨fun x => if x = w.next then a else w.obj x, w.next + 1, w.entropy⟩ :
      World R) = (.ok (), w2) := h2
  rw [e, hob] at this
  refine this ((Below.congr fun y => ?_).1 hx)
  have := hn y
  rw [e] at this
  exact this

theorem onChoice_id {β : Type} (r : Ref) {m : ChoiceM Val R β} (hm : ∀ s, (m s).2 = s)
    (w : World R) : (onChoice r m w).2 = w := by
  have := hm ((w.obj r).choice, w.entropy)
  unfold onChoice
  rcases hq : m ((w.obj r).choice, w.entropy) with ⟨res, c, e⟩
  rw [hq] at this
  cases this
  change World.mk _ _ _ = w
  obtain ⟨obj, nxt, en⟩ := w
  congr 1
  funext x
  rw [upd_obj]
  by_cases hx : x = r
  · rw [if_pos hx, hx]
  · rw [if_neg hx]

/-- Asking for `num_unique_values` changes nothing. -/
theorem numUniqueValues_state (r : Ref) (w : World R) : (numUniqueValues r w).2 = w := by
  have hstate : ∀ s : ChoiceSt Val R × Nat, (Choice.numUniqueValues s).2 = s :=
    Choice.numUniqueValues_state
  have hlift : ∀ x : Py Nat, ((PyM.lift x >>= fun n => pure (some (n : ℚ))) w).2 = w := by
    intro x; cases x <;> rfl
  unfold numUniqueValues
  rw [PyM.run_get_bind]
  rcases (w.obj r).node with _ | node
  · rfl
  · cases node with
    | choice k =>
      dsimp only
      rw [PyM.bind_apply]
      have := onChoice_id r hstate w
      rcases hq : onChoice r Choice.numUniqueValues w with ⟨x | n, w1⟩ <;>
        (rw [hq] at this; exact this)
    | static => exact hlift _
    | sequential k => exact hlift _
    | _ => rfl

/-- Everything below is freshly seeded and nothing below has been handed out. -/
def AllFresh (s : Option Int) (r : Ref) (w : World R) : Prop :=
  ∀ x, Below w r x → (w.obj x).Seeded s ∧ (w.obj x).Rewound

theorem AllFresh.setNumUnique {s : Option Int} {r : Ref} {w : World R} (h : AllFresh s r w) (y : Ref)
    (n : Option ℚ) : AllFresh s r (w.upd y fun a => { a with numUnique := n }) := by
  have hn : ∀ x, ((w.upd y fun a => { a with numUnique := n }).obj x).node = (w.obj x).node := by
    intro x
    rw [upd_obj]
    by_cases hx : x = y
    · rw [if_pos hx, hx]
    · rw [if_neg hx]
  intro x hx
  obtain ⟨h1, h2⟩ := h x ((Below.congr hn).1 hx)
  rw [upd_obj]
  by_cases hxy : x = y
  · subst hxy
    rw [if_pos rfl]
    exact ⟨seeded_congr rfl rfl rfl rfl h1, rewound_congr rfl rfl rfl rfl Iff.rfl h2⟩
  · rw [if_neg hxy]; exact ⟨h1, h2⟩

end World

open World

/-- **C53 (Field).** A new field with `rng_seed=s` has seeded everything below it with `s`. -/
theorem C53_newField (fuel : Nat) (name : String) (em : Ref) (rep gate : Option Ref) (hide : Bool)
    (s : Option Int) (w w' : World R) (r : Ref)
    (h : newField fuel name em rep gate hide s w = (.ok r, w')) (x : Ref) (hx : Below w' r x) :
    (w'.obj x).Seeded s ∧ (w'.obj x).Rewound := by
  unfold newField at h
  rcases rep with _ | rp <;> rcases gate with _ | g <;>
  · obtain ⟨rp', w1, h1, h⟩ := PyM.bind_eq_ok h
    obtain ⟨g', w2, h2, h⟩ := PyM.bind_eq_ok h
    obtain ⟨q, w3, h3, h⟩ := PyM.bind_eq_ok h
    obtain ⟨u, w4, h4, h⟩ := PyM.bind_eq_ok h
    rw [PyM.pure_apply, Prod.mk.injEq, Except.ok.injEq] at h
    obtain ⟨rfl, rfl⟩ := h
    exact alloc_reset rfl h3 h4 x hx

/-- **C53 (Word).** -/
theorem C53_newWord (fuel : Nat) (length alphabet : Ref) (s : Option Int) (w w' : World R) (r : Ref)
    (h : newWord fuel length alphabet s w = (.ok r, w')) (x : Ref) (hx : Below w' r x) :
    (w'.obj x).Seeded s ∧ (w'.obj x).Rewound := by
  unfold newWord at h
  obtain ⟨q, w3, h3, h⟩ := PyM.bind_eq_ok h
  obtain ⟨u, w4, h4, h⟩ := PyM.bind_eq_ok h
  obtain ⟨u', w5, h5, h⟩ := PyM.bind_eq_ok h
  rw [PyM.pure_apply, Prod.mk.injEq, Except.ok.injEq] at h
  obtain ⟨rfl, rfl⟩ := h
  have h6 : AllFresh s q w4 := fun x hx => alloc_reset rfl h3 h4 x hx
  unfold updateWordNumUnique at h5
  obtain ⟨n, w6, h7, h5a⟩ := PyM.bind_eq_ok h5
  have := numUniqueValues_state alphabet w4
  rw [h7] at this
  dsimp only at this
  subst this
  rw [PyM.run_get_bind] at h5a
  obtain ⟨m, w7, h8, h5c⟩ := PyM.bind_eq_ok h5a
  rw [PyM.lift_apply, Prod.mk.injEq] at h8
  obtain ⟨_, rfl⟩ := h8
  rw [PyM.modify_apply, Prod.mk.injEq] at h5c
  obtain ⟨_, rfl⟩ := h5c
  exact h6.setNumUnique q m x hx

/-- **C53 (Text).** -/
theorem C53_newText (fuel : Nat) (numwords word : Ref) (sep : Option Ref) (s : Option Int)
    (w w' : World R) (r : Ref) (h : newText fuel numwords word sep s w = (.ok r, w')) (x : Ref)
    (hx : Below w' r x) : (w'.obj x).Seeded s ∧ (w'.obj x).Rewound := by
  unfold newText at h
  rcases sep with _ | sp0 <;>
  · obtain ⟨sp, w1, h1, h⟩ := PyM.bind_eq_ok h
    obtain ⟨q, w3, h3, h⟩ := PyM.bind_eq_ok h
    obtain ⟨u, w4, h4, h⟩ := PyM.bind_eq_ok h
    obtain ⟨u', w5, h5, h⟩ := PyM.bind_eq_ok h
    rw [PyM.pure_apply, Prod.mk.injEq, Except.ok.injEq] at h
    obtain ⟨rfl, rfl⟩ := h
    have h6 : AllFresh s q w4 := fun x hx => alloc_reset rfl h3 h4 x hx
    unfold updateTextNumUnique at h5
    obtain ⟨n, w6, h7, h5a⟩ := PyM.bind_eq_ok h5
    have := numUniqueValues_state word w4
    rw [h7] at this
    dsimp only at this
    subst this
    obtain ⟨n', w6', h7', h5b⟩ := PyM.bind_eq_ok h5a
    have := numUniqueValues_state sp w6
    rw [h7'] at this
    dsimp only at this
    subst this
    rw [PyM.run_get_bind] at h5b
    obtain ⟨m, w7, h8, h5c⟩ := PyM.bind_eq_ok h5b
    rw [PyM.lift_apply, Prod.mk.injEq] at h8
    obtain ⟨_, rfl⟩ := h8
    rw [PyM.modify_apply, Prod.mk.injEq] at h5c
    obtain ⟨_, rfl⟩ := h5c
    exact h6.setNumUnique q m x hx

/-! ### C54 -/

namespace World
variable {nodes : Ref → Option Node} {P X T : Ref → Prop}

/-- Resetting several objects that have seeds. -/
theorem resetAll_agree (hP : ∀ r, P r → ∀ c ∈ Node.childRefs (nodes r), P c) (fuel : Nat)
    (l : List Ref) (hl : ∀ c ∈ l, P c ∧ T c ∧ Node.isRandom (nodes c) = true) (w v : World R)
    (h : Agree nodes P X T w v) :
    (Group.doMethod (l.map some) (reset fuel) w).1 = (Group.doMethod (l.map some) (reset fuel) v).1 ∧
    ((Group.doMethod (l.map some) (reset fuel) w).1 = .ok () →
      Agree nodes P (fun x => X x ∨ ∃ c ∈ l, BelowN nodes c x) (fun x => T x ∨ ∃ c ∈ l, BelowN nodes c x)
        (Group.doMethod (l.map some) (reset fuel) w).2
        (Group.doMethod (l.map some) (reset fuel) v).2) := by
  induction l generalizing X T w v with
  | nil =>
    refine ⟨rfl, fun _ => ⟨h.left, h.right, h.shape, fun x hx => h.same x ?_,
      fun x hx => h.seeds x ?_⟩⟩ <;>
    exact hx.resolve_right (by simp)
  | cons c l ih =>
    obtain ⟨hc1, hc2, hc3⟩ := hl c (by simp)
    obtain ⟨h1, h2, h3⟩ := reset_agree hP fuel hc1 hc2 hc3 w v h
    have hne : (reset fuel c w).1 ≠ .error .attributeError := by
      refine reset_attributeError fuel c w ?_
      rw [h.left c hc1]
      intro e
      rw [e] at hc3
      cases hc3
    rw [doMethod_cons, doMethod_cons]
    rcases hw : reset fuel c w with ⟨e | u, w1⟩ <;> rcases hv : reset fuel c v with ⟨e' | u', v1⟩ <;>
      rw [hw, hv] at h1 h2 h3
    · cases h1
      rw [hw] at hne
      have : e ≠ .attributeError := fun he => hne (by rw [he])
      dsimp only
      rw [if_neg this, if_neg this]
      exact ⟨rfl, fun h => by cases h⟩
    · cases h1
    · cases h1
    · dsimp only
      obtain ⟨i1, i2⟩ := ih (X := fun x => X x ∨ BelowN nodes c x)
        (T := fun x => T x ∨ BelowN nodes c x)
        (fun d hd => ⟨(hl d (by simp [hd])).1, .inl (hl d (by simp [hd])).2.1,
          (hl d (by simp [hd])).2.2⟩) w1 v1 (h3 rfl)
      refine ⟨i1, fun hok => ?_⟩
      have hfin := i2 hok
      have hmem : ∀ {Z : Ref → Prop} {x : Ref}, (Z x ∨ ∃ d ∈ c :: l, BelowN nodes d x) →
          (Z x ∨ BelowN nodes c x) ∨ ∃ d ∈ l, BelowN nodes d x := by
        rintro Z x (hx | ⟨d, hd, hx⟩)
        · exact .inl (.inl hx)
        · rcases List.mem_cons.1 hd with rfl | hd
          · exact .inl (.inr hx)
          · exact .inr ⟨d, hd, hx⟩
      exact ⟨hfin.left, hfin.right, hfin.shape, fun x hx => hfin.same x (hmem hx),
        fun x hx => hfin.seeds x (hmem hx)⟩

theorem resetFields_eq (fuel : Nat) (fields : Dict Ref) :
    (resetFields fuel fields : PyM (World R) Unit) =
      Group.doMethod ((fields.map (·.2)).map some) (reset fuel) := by
  unfold resetFields Schema.resetFields Group.ofMap
  simp [List.map_map, Function.comp_def]

theorem seedFields_eq (fuel : Nat) (s : Option Int) (fields : Dict Ref) :
    (seedFields fuel s fields : PyM (World R) Unit) =
      Group.doMethod ((fields.map (·.2)).map some) (seed fuel · s) := by
  unfold seedFields Schema.seedFields Group.ofMap
  simp [List.map_map, Function.comp_def]

variable {wrappers : Ref → Option (Callback R.G)}

/-- Schemas cannot tell apart stores that agree on everything they can reach. -/
theorem document_same (hP : ∀ r, P r → ∀ c ∈ Node.childRefs (nodes r), P c)
    (hsrc : ∀ r, P r → ∀ g ∈ Node.sourceRefs (nodes r), P g) (str : Val → List Char) (fuel : Nat)
    (fields : Dict Ref) (hf : ∀ kf ∈ fields, P kf.2) :
    Rel (Same nodes wrappers P) (document str fuel fields) (document str fuel fields) := by
  unfold document
  refine Rel.get_bind fun w v hwv => ?_
  exact Schema.loop_rel fields [] (fun kf hkf => ⟨by rw [hwv.same kf.2 (hf kf hkf)],
    (same_steps nodes wrappers P hP hsrc).call str fuel kf.2 (hf kf hkf) none⟩) w v hwv

theorem documents_same (hP : ∀ r, P r → ∀ c ∈ Node.childRefs (nodes r), P c)
    (hsrc : ∀ r, P r → ∀ g ∈ Node.sourceRefs (nodes r), P g) (str : Val → List Char) (fuel : Nat)
    (fields : Dict Ref) (hf : ∀ kf ∈ fields, P kf.2) (k : Nat) (w v : World R)
    (h : Same nodes wrappers P w v) :
    documents str fuel fields k w = documents str fuel fields k v := by
  induction k generalizing w v with
  | zero => rfl
  | succ k ih =>
    obtain ⟨h1, h2⟩ := document_same hP hsrc str fuel fields hf w v h
    unfold documents
    rw [h1, ih _ _ h2]

theorem Agree.toSame {w v : World R} (h : Agree nodes P X T w v) (hX : ∀ x, P x → X x)
    (hT : ∀ x, P x → T x) : Same nodes (fun x => (w.obj x).wrapper) P w v where
  node := h.left
  wrapper x _ := rfl
  same x hx := h.same x (hX x hx)
  seeds x k hx hk := by
    obtain ⟨z, hz, _⟩ := h.seeds x (hT x hx) (by rw [hk]; rfl)
    refine ⟨z, ?_⟩
    unfold Attrs.rngSeed at hz
    rw [h.left x hx, hk] at hz
    exact hz

end World

/-- All source fields of a schema's emitters belong to the schema. -/
def SourcesIn (w : World R) (fields : Dict Ref) : Prop :=
  ∀ kf ∈ fields, ∀ x, Below w kf.2 x → ∀ g ∈ (w.obj x).sources, ∃ kf' ∈ fields, Below w kf'.2 g

/-- **C54 (two stores).** Take two stores in which a schema's fields and the emitters below them are
configured alike (but may be in any state) and the fields have the same seeds.  Then `reset_fields`
has the same outcome in both, and if it succeeds, both produce the same sequence of documents. -/
theorem C54_alike (str : Val → List Char) (fuel : Nat) (fields : Dict Ref) (w v : World R)
    (hshape : ∀ kf ∈ fields, ∀ x, Below w kf.2 x → (w.obj x).shape = (v.obj x).shape)
    (hran : ∀ kf ∈ fields, (w.obj kf.2).random = true)
    (hseed : ∀ kf ∈ fields, ∃ s : Int,
      (w.obj kf.2).rngSeed = some s ∧ (v.obj kf.2).rngSeed = some s)
    (hsrc : SourcesIn w fields) :
    (World.resetFields fuel fields w).1 = (World.resetFields fuel fields v).1 ∧
    ((World.resetFields fuel fields w).1 = .ok () → ∀ fuel' k,
      World.documents str fuel' fields k (World.resetFields fuel fields w).2 =
        World.documents str fuel' fields k (World.resetFields fuel fields v).2) := by
  have hP : ∀ r, (∃ kf ∈ fields, Below w kf.2 r) → ∀ c ∈ Node.childRefs (w.obj r).node,
      ∃ kf ∈ fields, Below w kf.2 c := fun r ⟨kf, h1, h2⟩ c hc => ⟨kf, h1, h2.child hc⟩
  have hA : World.Agree (fun x => (w.obj x).node) (fun x => ∃ kf ∈ fields, Below w kf.2 x)
      (fun _ => False) (fun x => ∃ kf ∈ fields, x = kf.2) w v :=
    ⟨fun _ _ => rfl, fun x ⟨kf, h1, h2⟩ => (World.node_of_shape (hshape kf h1 x h2)).symm,
      fun x ⟨kf, h1, h2⟩ => hshape kf h1 x h2, fun _ h => h.elim,
      fun x ⟨kf, h1, h2⟩ _ => by rw [h2]; exact hseed kf h1⟩
  rw [World.resetFields_eq]
  obtain ⟨h1, h2⟩ := World.resetAll_agree hP fuel (fields.map (·.2)) (fun c hc => by
    obtain ⟨kf, hkf, rfl⟩ := List.mem_map.1 hc
    exact ⟨⟨kf, hkf, .self _⟩, ⟨kf, hkf, rfl⟩, hran kf hkf⟩) w v hA
  refine ⟨h1, fun hok fuel' k => ?_⟩
  have hall : ∀ x, (∃ kf ∈ fields, Below w kf.2 x) →
      ∃ c ∈ fields.map (·.2), World.BelowN (fun x => (w.obj x).node) c x :=
    fun x ⟨kf, h1, h2⟩ => ⟨kf.2, List.mem_map_of_mem h1, (World.BelowN.iff w kf.2 x).2 h2⟩
  exact World.documents_same hP (fun r ⟨kf, h1, h2⟩ g hg => hsrc kf h1 r h2 g hg) str fuel' fields
    (fun kf hkf => ⟨kf, hkf, .self _⟩) k _ _
    ((h2 hok).toSame (fun x hx => .inr (hall x hx)) (fun x hx => .inr (hall x hx)))

namespace World

/-- What a history of uses leaves alone. -/
theorem use_keeps {str : Val → List Char} {w v : World R} (h : Use str w v) :
    (∀ x, (v.obj x).shape = (w.obj x).shape) ∧
    ∀ f, (w.obj f).random = true → (∀ r, Below w r f → r = f) →
      (v.obj f).rngSeed = (w.obj f).rngSeed := by
  have ofConfig : ∀ v, SameConfig w v → (∀ x, (v.obj x).shape = (w.obj x).shape) ∧
      ∀ f, (w.obj f).random = true → (∀ r, Below w r f → r = f) →
        (v.obj f).rngSeed = (w.obj f).rngSeed := by
    intro v hv
    refine ⟨fun x => shape_of_config (hv x), fun f _ _ => ?_⟩
    have key : ∀ a : Attrs R, a.config.rngSeed = a.rngSeed := by
      rintro ⟨node, c, _, _, _, _, _, _, _, _⟩
      have : c.config.rngSeed = c.rngSeed := by unfold ChoiceSt.config; split <;> rfl
      rcases node with _ | (_ | _ | _ | _ | _ | _ | _ | _ | _ | _ | _) <;>
        first | rfl | exact this
    rw [← key, hv f, key]
  have ofReset : ∀ (fuel : Nat) (r : Ref) (u : World R),
      (∀ x, ((reset fuel r u).2.obj x).shape = (u.obj x).shape) ∧
      ∀ f, (u.obj f).random = true → (∀ r, Below u r f → r = f) →
        ((reset fuel r u).2.obj f).rngSeed = (u.obj f).rngSeed := by
    intro fuel r u
    have hf := reset_frame fuel r (Below u r) u (fun _ hr _ hc => hr.child hc) (.self r)
    refine ⟨hf.shape, fun f hran hroot => ?_⟩
    by_cases hb : Below u r f
    · have := hroot r hb
      subst this
      exact reset_seed fuel r u hran
    · rw [hf.frame f hb]
  cases h with
  | call fuel r arg => exact ofConfig _ (C56_configuration str fuel r arg w)
  | document fuel fields => exact ofConfig _ (C56_document str fuel fields w)
  | reset fuel r => exact ofReset fuel r w
  | resetFields fuel fields =>
    rw [resetFields_eq]
    have hk : Keeps (fun u : World R => (∀ x, (u.obj x).shape = (w.obj x).shape) ∧
        ∀ f, (w.obj f).random = true → (∀ r, Below w r f → r = f) →
          (u.obj f).rngSeed = (w.obj f).rngSeed)
        (Group.doMethod ((fields.map (·.2)).map some) (reset fuel)) := by
      refine (Group.doMethod_rel fun r _ => Keeps.rel fun u ⟨h1, h2⟩ => ?_).keeps
      obtain ⟨h3, h4⟩ := ofReset fuel r u
      refine ⟨fun x => (h3 x).trans (h1 x), fun f hran hroot => (h4 f ?_ ?_).trans (h2 f hran hroot)⟩
      · rw [Attrs.random_eq, node_of_shape (h1 f)]; exact hran
      · intro r' hb
        exact hroot r' ((Below.congr fun x => node_of_shape (h1 x)).1 hb)
    exact hk w ⟨fun _ => rfl, fun _ _ _ => rfl⟩

theorem history_keeps {str : Val → List Char} {w v : World R} (h : History str w v) :
    (∀ x, (v.obj x).shape = (w.obj x).shape) ∧
    ∀ f, (w.obj f).random = true → (∀ r, Below w r f → r = f) →
      (v.obj f).rngSeed = (w.obj f).rngSeed := by
  induction h with
  | start => exact ⟨fun _ => rfl, fun _ _ _ => rfl⟩
  | use _ h' ih =>
    obtain ⟨h1, h2⟩ := ih
    obtain ⟨h3, h4⟩ := use_keeps h'
    refine ⟨fun x => (h3 x).trans (h1 x), fun f hran hroot => (h4 f ?_ ?_).trans (h2 f hran hroot)⟩
    · rw [Attrs.random_eq, node_of_shape (h1 f)]; exact hran
    · intro r' hb
      exact hroot r' ((Below.congr fun x => node_of_shape (h1 x)).1 hb)

end World

/-- **C54.** If all fields of a schema have a seed (and no field is itself used as an emitter), then
whatever has been called, generated or reset in whatever order, `reset_fields` has the same outcome
and is followed by the same sequence of documents. -/
theorem C54_reproducible (str : Val → List Char) (fuel : Nat) (fields : Dict Ref) (w v : World R)
    (hist : History str w v)
    (hran : ∀ kf ∈ fields, (w.obj kf.2).random = true)
    (hseed : ∀ kf ∈ fields, (w.obj kf.2).rngSeed ≠ none)
    (hroot : ∀ kf ∈ fields, ∀ r, Below w r kf.2 → r = kf.2)
    (hsrc : SourcesIn w fields) :
    (World.resetFields fuel fields w).1 = (World.resetFields fuel fields v).1 ∧
    ((World.resetFields fuel fields w).1 = .ok () → ∀ fuel' k,
      World.documents str fuel' fields k (World.resetFields fuel fields w).2 =
        World.documents str fuel' fields k (World.resetFields fuel fields v).2) := by
  obtain ⟨h1, h2⟩ := World.history_keeps hist
  refine C54_alike str fuel fields w v (fun _ _ x _ => (h1 x).symm) hran (fun kf hkf => ?_) hsrc
  rcases hs : (w.obj kf.2).rngSeed with _ | s
  · exact absurd hs (hseed kf hkf)
  · exact ⟨s, rfl, (h2 kf.2 (hran kf hkf) (hroot kf hkf)).trans hs⟩

/-! ### Examples -/

/-- Resetting the field `tags` succeeds; its word emitter, created with the seed 1, has seed 4. -/
example : (World.reset 5 7 demoWorld).1 = .ok () := by decide +kernel
example : Below demoWorld 7 4 := .step (by decide +kernel) (.self 4)
example : (demoWorld.obj 7).random = true ∧ (demoWorld.obj 7).rngSeed = some 4 := by decide +kernel
example : ((World.reset 5 7 demoWorld).2.obj 4).rngSeed = some 4 := by decide +kernel
/-- Seeding it gives the new seed to the word emitter. -/
example : (World.seed 5 7 (some 9) demoWorld).1 = .ok () ∧
    ((World.seed 5 7 (some 9) demoWorld).2.obj 4).rngSeed = some 9 := by decide +kernel
/-- Constructing a field over the emitter overrides its seed. -/
example : (newField 5 "f" 4 none none false (some 6) demoWorld).1.isOk ∧
    ((newField 5 "f" 4 none none false (some 6) demoWorld).2.obj 4).rngSeed = some 6 := by
  decide +kernel

/-- No field of the schema is used as an emitter. -/
example : ∀ kf ∈ demoFields, ∀ r, Below demoWorld' r kf.2 → r = kf.2 := by
  have h1 : ∀ kf ∈ demoFields, ∀ r < 20, kf.2 ∉ (demoWorld'.obj r).children := by decide +kernel
  intro kf hkf r h
  generalize hx : kf.2 = x at h
  induction h with
  | self => rfl
  | @step r c x hc _ ih =>
    have := ih hx
    subst this hx
    by_cases hr : r < 20
    · exact absurd hc (h1 kf hkf r hr)
    · have hb : demoWorld'.obj r = World.blank := if_neg hr
      rw [hb] at hc
      cases hc
/-- All its sources are fields of the schema. -/
example : SourcesIn demoWorld' demoFields := by
  intro kf hkf x hx g hg
  have h20 : ∀ kf ∈ demoFields, kf.2 ∈ List.range 20 := by decide +kernel
  have hm : x ∈ List.range 20 := hx.mem _ (by decide +kernel) (h20 kf hkf)
  have : ∀ x ∈ List.range 20, ∀ g ∈ (demoWorld'.obj x).sources, ∃ kf ∈ demoFields, kf.2 = g := by
    decide +kernel
  obtain ⟨kf', h1, h2⟩ := this x hm g hg
  exact ⟨kf', h1, h2 ▸ .self _⟩
/-- Its fields have seeds. -/
example : ∀ kf ∈ demoFields, (demoWorld'.obj kf.2).random = true ∧
    (demoWorld'.obj kf.2).rngSeed ≠ none := by decide +kernel
/-- Without the reset, documents would differ; ... -/
example : World.documents demoStr 5 demoFields 2 demoWorld' ≠
    World.documents demoStr 5 demoFields 2 (World.document demoStr 5 demoFields demoWorld').2 := by
  decide +kernel
/-- ... with it, they start over. -/
example : (World.resetFields 5 demoFields demoWorld').1 = .ok () ∧
    (World.documents demoStr 5 demoFields 2 (World.resetFields 5 demoFields demoWorld').2).head? =
    some (.ok [("n", .int 1), ("tags", .list [.str ['x'], .str ['y']]), ("copy", .str "1-8".toList),
      ("pair", .list [.int 1, .int 1])]) := by decide +kernel

end Fauxdoc
