import Verif.Spec.Assign
import Verif.Spec.Halt
import Verif.Spec.WorldDemo
import Verif.Props.Seeds3
import Verif.Props.Heap2
/-
C64: replacing the child emitters of an object.
-/
set_option linter.unusedSectionVars false
namespace Fauxdoc
open PyM World
variable {K : Type} [Field K] [LinearOrder K] [FloorRing K] {R : Rng K}

/-! ### What the assignment does -/

theorem Node.withChild_spec {label : String} {x : Ref} {node node' : Node}
    (h : node.withChild label x = some node') :
    node'.emitters = node.emitters.set label x ∧ node'.plain = node.plain := by
  cases node <;> simp only [Node.withChild] at h
  case word l c =>
    split at h
    · cases h; subst label; exact ⟨rfl, rfl⟩
    · split at h
      · cases h; subst label; exact ⟨rfl, rfl⟩
      · cases h
  case text n w s =>
    split at h
    · cases h; subst label; exact ⟨rfl, rfl⟩
    · split at h
      · cases h; subst label; exact ⟨rfl, rfl⟩
      · split at h
        · cases h; subst label; exact ⟨rfl, rfl⟩
        · cases h
  case wrapOne s =>
    split at h
    · cases h; subst label; exact ⟨rfl, rfl⟩
    · cases h
  case wrapMany ss => cases h; exact ⟨rfl, rfl⟩
  case field n e rp g hd =>
    split at h
    · cases h; subst label; exact ⟨rfl, rfl⟩
    · split at h
      · cases h; subst label; exact ⟨rfl, rfl⟩
      · split at h
        · cases h; subst label; exact ⟨rfl, rfl⟩
        · cases h
  all_goals cases h

theorem Node.withChild_some {label : String} {x : Ref} {node : Node} :
    (∃ node', node.withChild label x = some node') ↔
      label ∈ node.emitters.keys ∨ ∃ ss, node = .wrapMany ss := by
  cases node <;> simp [Node.withChild, Node.emitters, Dict.keys]
  · by_cases h1 : label = "length" <;> by_cases h2 : label = "alphabet" <;> simp [h1, h2]
  · by_cases h1 : label = "numwords" <;> by_cases h2 : label = "word" <;>
      by_cases h3 : label = "sep" <;> simp [h1, h2, h3]
  · by_cases h1 : label = "emitter" <;> by_cases h2 : label = "repeat" <;>
      by_cases h3 : label = "gate" <;> simp [h1, h2, h3]

theorem childRefs_emitters (node : Node) : Node.childRefs (some node) = node.emitters.map (·.2) := by
  cases node <;> rfl

theorem setChild_ok {r x : Ref} {label : String} {w w' : World R}
    (h : setChild r label x w = (.ok (), w')) :
    ∃ node node', (w.obj r).node = some node ∧ node.withChild label x = some node' ∧
      w' = w.upd r fun a => { a with node := some node' } := by
  unfold setChild at h
  rw [run_get_bind] at h
  rcases hn : (w.obj r).node with _ | node
  · rw [hn] at h; cases h
  · rw [hn] at h
    change (match node.withChild label x with
      | some node => PyM.modify (upd r fun a => { a with node := some node })
      | none => PyM.raise .attributeError : PyM (World R) Unit) w = _ at h
    rcases hc : node.withChild label x with _ | node'
    · rw [hc] at h; cases h
    · rw [hc] at h
      cases h
      exact ⟨node, node', rfl, hc, rfl⟩

theorem onlyNode_upd (r : Ref) (f : Attrs R → Attrs R) (w : World R)
    (hf : f (w.obj r) = { w.obj r with node := (f (w.obj r)).node }) : OnlyNode r w (w.upd r f) := by
  refine ⟨rfl, rfl, fun x hx => by rw [upd_obj, if_neg hx], ?_⟩
  rw [upd_obj, if_pos rfl]
  exact hf

/-- **C64.** Assigning `r.emitters[label] = x` replaces the one reference: the other children keep
their labels and their order, and nothing else changes: no seed, generator, position or last value, of
`r`, `x` or any other object. -/
theorem C64_assign {r x : Ref} {label : String} {w w' : World R}
    (h : setChild r label x w = (.ok (), w')) :
    OnlyNode r w w' ∧ ∃ node node', (w.obj r).node = some node ∧ (w'.obj r).node = some node' ∧
      node'.emitters = node.emitters.set label x ∧ node'.plain = node.plain := by
  obtain ⟨node, node', h1, h2, rfl⟩ := setChild_ok h
  refine ⟨onlyNode_upd r _ w rfl, node, node', h1, by rw [upd_obj, if_pos rfl], ?_⟩
  exact Node.withChild_spec h2

/-- **C64.** It works for the labels in use (and for any label of a `WrapMany`). -/
theorem C64_accepts {r x : Ref} {label : String} {w : World R} {node : Node}
    (hn : (w.obj r).node = some node) :
    (∃ w', setChild r label x w = (.ok (), w')) ↔
      label ∈ node.emitters.keys ∨ ∃ ss, node = .wrapMany ss := by
  rw [← Node.withChild_some (x := x)]
  constructor
  · rintro ⟨w', h⟩
    obtain ⟨node1, node', h1, h2, _⟩ := setChild_ok h
    rw [hn] at h1
    cases h1
    exact ⟨node', h2⟩
  · rintro ⟨node', h⟩
    unfold setChild
    simp only [run_get_bind, hn, Option.bind_some, h]
    exact ⟨_, rfl⟩

/-- **C64 (refused).** An assignment that fails changes nothing. -/
theorem C64_refused {r x : Ref} {label : String} {w w' : World R} {e : Err}
    (h : setChild r label x w = (.error e, w')) : w' = w := by
  unfold setChild at h
  rw [run_get_bind] at h
  rcases hc : ((w.obj r).node.bind (Node.withChild label x)) with _ | node' <;> rw [hc] at h <;>
    cases h
  rfl

/-! ### Calls afterwards -/

theorem setField_eq {r : Ref} {n : String} {e rp g : Ref} {hd : Bool} {w : World R}
    (hn : (w.obj r).node = some (.field n e rp g hd)) (label : String) (x : Ref) :
    setFieldChild r label x w = setChild r label x w := by
  unfold setFieldChild
  rw [run_get_bind, hn]

/-- **C64 (emitter).** After `field.emitter = x` the field draws its values from `x`; gate and repeat
emitter are as before. -/
theorem C64_emitter (str : Val → List Char) (fuel : Nat) {r x : Ref} {n : String} {e rp g : Ref}
    {hd : Bool} {w w1 : World R} (hn : (w.obj r).node = some (.field n e rp g hd))
    (h : setEmitter r x w = (.ok (), w1)) (v : Val) (w' : World R) :
    World.call str (fuel + 1) r none w1 = (.ok v, w') ↔
      ∃ gv w2, World.call str fuel g none w1 = (.ok gv, w2) ∧
        (gv.truthy = false ∧ v = .none ∧ w' = w2.upd r (fun a => { a with cache := .none }) ∨
         gv.truthy = true ∧ ∃ k w3 w4, World.call str fuel rp none w2 = (.ok k, w3) ∧
          World.call str fuel x (some k) w3 = (.ok v, w4) ∧
          w' = w4.upd r fun a => { a with cache := v }) := by
  unfold setEmitter at h
  rw [setField_eq hn] at h
  obtain ⟨node, node', h1, h2, rfl⟩ := setChild_ok h
  rw [hn] at h1; cases h1; cases h2
  exact C46_store str fuel (by rw [upd_obj, if_pos rfl]) v w'

/-- **C64 (repeat_emitter).** After `field.repeat_emitter = x` the number of values comes from `x`. -/
theorem C64_repeat (str : Val → List Char) (fuel : Nat) {r x : Ref} {n : String} {e rp g : Ref}
    {hd : Bool} {w w1 : World R} (hn : (w.obj r).node = some (.field n e rp g hd))
    (h : setRepeat r x w = (.ok (), w1)) (v : Val) (w' : World R) :
    World.call str (fuel + 1) r none w1 = (.ok v, w') ↔
      ∃ gv w2, World.call str fuel g none w1 = (.ok gv, w2) ∧
        (gv.truthy = false ∧ v = .none ∧ w' = w2.upd r (fun a => { a with cache := .none }) ∨
         gv.truthy = true ∧ ∃ k w3 w4, World.call str fuel x none w2 = (.ok k, w3) ∧
          World.call str fuel e (some k) w3 = (.ok v, w4) ∧
          w' = w4.upd r fun a => { a with cache := v }) := by
  unfold setRepeat at h
  rw [setField_eq hn] at h
  obtain ⟨node, node', h1, h2, rfl⟩ := setChild_ok h
  rw [hn] at h1; cases h1; cases h2
  exact C46_store str fuel (by rw [upd_obj, if_pos rfl]) v w'

/-- **C64 (gate_emitter).** After `field.gate_emitter = x` it is `x` that decides whether the field has
a value. -/
theorem C64_gate (str : Val → List Char) (fuel : Nat) {r x : Ref} {n : String} {e rp g : Ref}
    {hd : Bool} {w w1 : World R} (hn : (w.obj r).node = some (.field n e rp g hd))
    (h : setGate r x w = (.ok (), w1)) (v : Val) (w' : World R) :
    World.call str (fuel + 1) r none w1 = (.ok v, w') ↔
      ∃ gv w2, World.call str fuel x none w1 = (.ok gv, w2) ∧
        (gv.truthy = false ∧ v = .none ∧ w' = w2.upd r (fun a => { a with cache := .none }) ∨
         gv.truthy = true ∧ ∃ k w3 w4, World.call str fuel rp none w2 = (.ok k, w3) ∧
          World.call str fuel e (some k) w3 = (.ok v, w4) ∧
          w' = w4.upd r fun a => { a with cache := v }) := by
  unfold setGate at h
  rw [setField_eq hn] at h
  obtain ⟨node, node', h1, h2, rfl⟩ := setChild_ok h
  rw [hn] at h1; cases h1; cases h2
  exact C46_store str fuel (by rw [upd_obj, if_pos rfl]) v w'

/-! ### The emitters below afterwards -/

theorem children_of_ok {r x : Ref} {label : String} {w w' : World R}
    (h : setChild r label x w = (.ok (), w')) : ∃ node, (w.obj r).node = some node ∧
      (w'.obj r).children = (node.emitters.set label x).map (·.2) := by
  obtain ⟨_, node, node', h1, h2, h3, _⟩ := C64_assign h
  refine ⟨node, h1, ?_⟩
  unfold Attrs.children
  rw [h2, childRefs_emitters, h3]

theorem mem_set {β : Type} {d : Dict β} {k : String} {v y : β} (h : y ∈ (d.set k v).map (·.2)) :
    y = v ∨ y ∈ d.map (·.2) := by
  induction d with
  | nil => simp [Dict.set] at h; exact .inl h
  | cons kv d ih =>
    unfold Dict.set at h
    split at h
    · rcases List.mem_cons.1 h with h | h
      · exact .inl h
      · exact .inr (List.mem_cons_of_mem _ h)
    · rcases List.mem_cons.1 h with h | h
      · exact .inr (by rw [h]; simp)
      · rcases ih h with h | h
        · exact .inl h
        · exact .inr (List.mem_cons_of_mem _ h)

theorem set_mem {β : Type} (d : Dict β) (k : String) (v : β) : v ∈ (d.set k v).map (·.2) := by
  induction d with
  | nil => simp [Dict.set]
  | cons kv d ih =>
    unfold Dict.set
    split
    · simp
    · exact List.mem_cons_of_mem _ ih

theorem new_child {r x : Ref} {label : String} {w w' : World R}
    (h : setChild r label x w = (.ok (), w')) : x ∈ (w'.obj r).children := by
  obtain ⟨node, _, h2⟩ := children_of_ok h
  rw [h2]
  exact set_mem _ _ _

theorem old_child {r x c : Ref} {label : String} {w w' : World R}
    (h : setChild r label x w = (.ok (), w')) (hc : c ∈ (w'.obj r).children) :
    c = x ∨ c ∈ (w.obj r).children := by
  obtain ⟨node, h1, h2⟩ := children_of_ok h
  rw [h2] at hc
  unfold Attrs.children
  rw [h1, childRefs_emitters]
  exact mem_set hc

theorem OnlyNode.children {r a : Ref} {w v : World R} (h : OnlyNode r w v) (ha : a ≠ r) :
    (v.obj a).children = (w.obj a).children := by rw [h.2.2.1 a ha]

/-- What is below an object afterwards was below it, or below a child of `r`. -/
theorem OnlyNode.below {r : Ref} {w v : World R} (h : OnlyNode r w v) {a y : Ref}
    (hb : Below v a y) : Below w a y ∨ ∃ c ∈ (v.obj r).children, Below w c y := by
  induction hb with
  | self => exact .inl (.self _)
  | @step a c y hc _ ih =>
    rcases ih with ih | ih
    · by_cases ha : a = r
      · subst ha
        exact .inr ⟨c, hc, ih⟩
      · rw [h.children ha] at hc
        exact .inl (.step hc ih)
    · exact .inr ih

theorem OnlyNode.below_self {r : Ref} {w v : World R} (h : OnlyNode r w v) {y : Ref}
    (hb : Below v r y) : y = r ∨ ∃ c ∈ (v.obj r).children, Below w c y := by
  cases hb with
  | self => exact .inl rfl
  | step hc hb =>
    rcases h.below hb with hb | hb
    · exact .inr ⟨_, hc, hb⟩
    · exact .inr hb

/-- What leads to `r` is the same before and after. -/
theorem OnlyNode.to_self {r : Ref} {w v : World R} (h : OnlyNode r w v) (a : Ref) :
    Below v a r ↔ Below w a r := by
  suffices ∀ (w v : World R), OnlyNode r w v → ∀ a x, Below w a x → x = r → Below v a r by
    constructor
    · refine fun hb => this v w ⟨h.1.symm, h.2.1.symm, fun x hx => (h.2.2.1 x hx).symm, ?_⟩ a r hb rfl
      rw [h.2.2.2]
    · exact fun hb => this w v h a r hb rfl
  intro w v h a x hb
  induction hb with
  | self => rintro rfl; exact .self _
  | @step a c x hc _ ih =>
    intro hx
    by_cases ha : a = r
    · subst ha; exact .self _
    · rw [← h.children ha] at hc
      exact .step hc (ih hx)

theorem seed_frame (fuel : Nat) (r : Ref) (s : Option Int) (P : Ref → Prop) (w : World R)
    (hP : ∀ r, P r → ∀ c ∈ (w.obj r).children, P c) (hr : P r) :
    ShapeFrame P w (seed fuel r s w).2 :=
  ((shapeFrame_steps P s w hP).seed fuel r hr w w ⟨rfl, .refl P w⟩).2.2

/-- **C64 (replaced).** From then on, calling, resetting and seeding the object leave alone whatever is
not below its present children, in particular the replaced emitter. -/
theorem C64_replaced (str : Val → List Char) {r x y : Ref} {label : String} {w w' : World R}
    (h : setChild r label x w = (.ok (), w')) (hy : y ≠ r)
    (hb : ∀ c ∈ (w'.obj r).children, ¬ Below w c y) :
    (∀ fuel arg, (World.call str fuel r arg w').2.obj y = w.obj y) ∧
    (∀ fuel, (World.reset fuel r w').2.obj y = w.obj y) ∧
    ∀ fuel s, (World.seed fuel r s w').2.obj y = w.obj y := by
  have ho := (C64_assign h).1
  have hb' : ¬ Below w' r y := fun hr => by
    rcases ho.below_self hr with hr | ⟨c, h1, h2⟩
    · exact hy hr
    · exact hb c h1 h2
  have he : w'.obj y = w.obj y := ho.2.2.1 y hy
  refine ⟨fun fuel arg => ?_, fun fuel => ?_, fun fuel s => ?_⟩
  · rw [C57_only_below str fuel r y arg w' hb', he]
  · rw [(World.reset_frame fuel r (Below w' r) w' (fun _ hr _ hc => hr.child hc) (.self r)).frame y hb',
      he]
  · rw [(seed_frame fuel r s (Below w' r) w' (fun _ hr _ hc => hr.child hc) (.self r)).frame y hb', he]

/-- **C64 (reset).** The new emitter and everything below it, which the assignment left as they were,
get the seed of the object and are rewound when the object is reset. -/
theorem C64_reset {r x y : Ref} {label : String} {w w' : World R}
    (h : setChild r label x w = (.ok (), w')) (hx : ¬ Below w x r) (hy : Below w x y) (fuel : Nat)
    (hr : (w.obj r).random = true) (hok : (World.reset fuel r w').1 = .ok ()) :
    ((World.reset fuel r w').2.obj y).Seeded (w.obj r).rngSeed ∧
      ((World.reset fuel r w').2.obj y).Rewound := by
  obtain ⟨ho, node, node', h1, h2, _, h4⟩ := C64_assign h
  have hran : (w'.obj r).random = (w.obj r).random ∧ (w'.obj r).rngSeed = (w.obj r).rngSeed := by
    rw [ho.2.2.2, h2]
    unfold Attrs.random Attrs.rngSeed
    rw [h1]
    cases node <;> cases node' <;> simp [Node.plain] at h4 <;> exact ⟨rfl, rfl⟩
  have hsub : ∀ a, Below w a y → ¬ Below w a r → Below w' a y := by
    intro a ha
    clear hy
    induction ha with
    | self => exact fun _ => .self _
    | @step a c y hc _ ih =>
      intro har
      have : a ≠ r := fun e => har (e ▸ .self _)
      rw [← ho.children this] at hc
      exact .step hc (ih (fun hcr => har (.step (by rwa [← ho.children this]) hcr)))
  have := C53_reset fuel r w' (hran.1.trans hr) hok y (.step (new_child h) (hsub x hy hx))
  rwa [hran.2] at this

/-! ### Cycles -/

/-- **C64 (cycles).** In a store without cycles, assigning `x` creates one exactly if `r` is `x` or
below it. -/
theorem C64_cycle {r x : Ref} {label : String} {w w' : World R}
    (h : setChild r label x w = (.ok (), w')) (hw : Acyclic w) : Acyclic w' ↔ ¬ Below w x r := by
  have ho := (C64_assign h).1
  constructor
  · intro hc hb
    exact hc r x (new_child h) ((ho.to_self x).2 hb)
  · intro hx
    have key : ∀ c ∈ (w'.obj r).children, ¬ Below w' c r := by
      intro c hc hb
      rw [ho.to_self] at hb
      rcases old_child h hc with rfl | hc
      · exact hx hb
      · exact hw r c hc hb
    intro a c hc hb
    by_cases ha : a = r
    · subst ha; exact key c hc hb
    · rw [ho.children ha] at hc
      have : Below w c a ∨ (Below w' c r ∧ ∃ d ∈ (w'.obj r).children, Below w' d a) := by
        clear hc
        induction hb with
        | self => exact .inl (.self _)
        | @step b d y hd hb ih =>
          by_cases hbr : b = r
          · subst hbr
            exact .inr ⟨.self _, d, hd, hb⟩
          · rcases ih ha with ih | ⟨ih, d', h1, h2⟩
            · rw [ho.children hbr] at hd
              exact .inl (.step hd ih)
            · exact .inr ⟨.step hd ih, d', h1, h2⟩
      rcases this with hb | ⟨h1, d, h2, h3⟩
      · exact hw a c hc hb
      · refine key d h2 (h3.trans (.step ?_ h1))
        rwa [ho.children ha]

/-- **C64 (still ends).** If `r` is not `x` or below it, then everything C62 and C63 say about the
store holds again after the assignment, with a suitable depth. -/
theorem C64_ends {P : Ref → Prop} {depth : Ref → Nat} {r x : Ref} {label : String} {w w' : World R}
    (h : setChild r label x w = (.ok (), w')) (hw : EndsOn P depth w) (hPx : P x)
    (hx : ¬ Below w x r) : ∃ depth', EndsOn P depth' w' := by
  classical
  obtain ⟨ho, node, node', h1, h2, _, h4⟩ := C64_assign h
  refine ⟨fun y => if Below w y r then depth y + depth x + 1 else depth y, fun a ha => ?_⟩
  obtain ⟨ht, hf, hc⟩ := hw a ha
  have hedge : ∀ c ∈ (w.obj a).children, P c ∧
      (if Below w c r then depth c + depth x + 1 else depth c) <
        if Below w a r then depth a + depth x + 1 else depth a := by
    intro c hca
    obtain ⟨hPc, hd⟩ := hc c hca
    refine ⟨hPc, ?_⟩
    by_cases hcr : Below w c r
    · rw [if_pos hcr, if_pos (.step hca hcr)]
      omega
    · rw [if_neg hcr]
      split <;> omega
  by_cases har : a = r
  · subst har
    refine ⟨?_, ?_, fun c hca => ?_⟩
    · rw [ho.2.2.2]
      unfold Attrs.Tame at ht ⊢
      rw [h1] at ht
      rw [h2]
      cases node <;> cases node' <;> simp [Node.plain] at h4 <;> exact ht
    · rw [ho.2.2.2]
      unfold Attrs.Fed at hf ⊢
      rw [h1] at hf
      rw [h2]
      cases node <;> cases node' <;> simp [Node.plain] at h4 <;> exact hf
    · rcases old_child h hca with rfl | hca
      · refine ⟨hPx, ?_⟩
        dsimp only
        rw [if_neg hx, if_pos (.self _)]
        omega
      · exact hedge c hca
  · rw [ho.2.2.1 a har]
    exact ⟨ht, hf, hedge⟩

/-! ### Examples -/

/-- In the demonstration schema the field `n` (3) counts with the emitter 0; give it the `Choice` 8 of
the hidden field `kind`. -/
def assignWorld : World demoRng := (setEmitter 3 8 demoWorld).2

example : (setEmitter 3 8 demoWorld).1 = .ok () ∧ (demoWorld.obj 3).children = [0, 1, 2] ∧
    (assignWorld.obj 3).children = [8, 1, 2] := by decide +kernel
/-- The counter is below none of the present children ... -/
example : ∀ c ∈ (assignWorld.obj 3).children, ¬ Below demoWorld c 0 := by
  intro c hc hb
  have := hb.mem [8, 1, 2] (by decide +kernel)
    (by rwa [show (assignWorld.obj 3).children = [8, 1, 2] by decide +kernel] at hc)
  exact absurd this (by decide)
/-- ... the next document has a value of the `Choice` in `n`, `pair` and `copy` follow suit ... -/
example : (World.document demoStr 5 demoFields assignWorld).1 =
    .ok [("n", .int 8), ("tags", .list [.str ['x'], .str ['y']]), ("copy", .str "8-7".toList),
      ("pair", .list [.int 8, .int 8])] := by decide +kernel
/-- ... and the `Choice` keeps the seed of `kind` until the field `n` is reset. -/
example : (assignWorld.obj 8).rngSeed = some 5 ∧ (World.reset 5 3 assignWorld).1 = .ok () ∧
    ((World.reset 5 3 assignWorld).2.obj 8).rngSeed = some 3 := by decide +kernel
/-- A label that is not in use. -/
example : (setChild 3 "source" 8 demoWorld).1 = .error .attributeError := by decide +kernel
/-- A `WrapOne` as its own source: a cycle, calling it exceeds every recursion limit (C62_cycle). -/
example : (setChild 2 "source" 2 wrapWorld).1 = .ok () ∧
    (World.call demoStr 50 2 none (setChild 2 "source" 2 wrapWorld).2).1 = .error .recursion := by
  decide +kernel

end Fauxdoc
