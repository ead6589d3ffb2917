import Verif.Props.Heap
import Verif.Props.Profile
/-
The wrapper emitters, the emitters that read fields, fields and schemas whose children are objects of
the store: C37, C38, C42-C49 and C51 for every emitter graph.
-/
set_option linter.unusedSectionVars false
namespace Fauxdoc
open PyM World
variable {K : Type} [Field K] [LinearOrder K] [FloorRing K] {R : Rng K}

/-! ### Calls by class -/

namespace World
variable (str : Val → List Char) (fuel : Nat) {r : Ref} (arg : Option Val) {w : World R}

theorem call_wrapOne {s : Ref} {cb : Callback R.G} (hn : (w.obj r).node = some (.wrapOne s))
    (hw : (w.obj r).wrapper = some cb) :
    call str (fuel + 1) r arg w = WrapOne.call (rngAttr r) (call str fuel s) cb arg w := by
  conv_lhs => unfold call
  rw [run_get_bind, hn]
  dsimp only
  rw [hw]

/-- The sources of a `WrapMany`. -/
def drawn (str : Val → List Char) (fuel : Nat) (ss : Dict Ref) : Dict (Child (World R)) :=
  ss.map fun ks => (ks.1, call str fuel ks.2)

theorem call_wrapMany {ss : Dict Ref} {cb : Callback R.G}
    (hn : (w.obj r).node = some (.wrapMany ss)) (hw : (w.obj r).wrapper = some cb) :
    call str (fuel + 1) r arg w = WrapMany.call (rngAttr r) (drawn str fuel ss) cb arg w := by
  conv_lhs => unfold call
  rw [run_get_bind, hn]
  dsimp only
  rw [hw]
  rfl

/-- The source fields of an emitter, as objects of the store. -/
def group (str : Val → List Char) (fuel : Nat) (w : World R) (src : List Ref) (single : Bool) :
    SourceGroup (World R) :=
  sourceGroup (fun g => call str fuel g none) (reset fuel) (seed fuel) w src single

theorem call_copyFields {src : List Ref} {single : Bool} {sep : Option (List Char)}
    (hn : (w.obj r).node = some (.copyFields src single sep)) :
    call str (fuel + 1) r arg w = CopyFields.call str (group str fuel w src single) sep arg w := by
  conv_lhs => unfold call
  rw [run_get_bind, hn]
  rfl

theorem call_basedOn {src : List Ref} {single : Bool} {cb : Callback R.G}
    (hn : (w.obj r).node = some (.basedOn src single)) (hw : (w.obj r).wrapper = some cb) :
    call str (fuel + 1) r arg w =
      BasedOnFields.call (rngAttr r) (group str fuel w src single) cb arg w := by
  conv_lhs => unfold call
  rw [run_get_bind, hn]
  dsimp only
  rw [hw]
  rfl

theorem call_field {n : String} {e rp g : Ref} {hd : Bool}
    (hn : (w.obj r).node = some (.field n e rp g hd)) :
    call str (fuel + 1) r none w =
      Field.call (cacheAttr r) (call str fuel e) (call str fuel rp) (call str fuel g) w := by
  conv_lhs => unfold call
  rw [run_get_bind, hn]

/-- Calls leave classes alone. -/
theorem call_node (fuel : Nat) (x : Ref) (w : World R) :
    ((call str fuel r arg w).2.obj x).node = (w.obj x).node :=
  (call_frame str fuel r arg (fun _ => True) w (fun _ _ _ _ => trivial) trivial w
    (.refl _ w)).node x

/-- The outcome with the value made a list. -/
def asOne {σ : Type} : Except Err Val × σ → Except Err Val × σ
  | (.ok v, t) => (.ok (.list [v]), t)
  | (.error e, t) => (.error e, t)

theorem emitterCall_one {σ : Type} (b : Val → PyM σ Val) (e : PyM σ Val)
    (m : Int → PyM σ (List Val)) (s : σ) :
    emitterCallOr b e m (some (.int 1)) s = asOne (emitterCallOr b e m none s) := by
  rw [(singleIsEmit_call b e m s trivial).1]
  rcases emitterCallOr b e m none s with ⟨_ | _, _⟩ <;> rfl

/-- `emitter(1)` is `[emitter()]`, for every emitter (fields take no argument). -/
theorem call_one (hf : (w.obj r).isField = false) :
    call str fuel r (some (.int 1)) w = asOne (call str fuel r none w) := by
  cases fuel with
  | zero => rfl
  | succ fuel =>
    rcases hn : (w.obj r).node with _ | node
    · unfold call
      rw [run_get_bind, run_get_bind, hn]; rfl
    · cases node with
      | choice k =>
        unfold call
        rw [run_get_bind, run_get_bind, hn]
        have : Choice.child (some (.int 1)) ((w.obj r).choice, w.entropy) =
            asOne (Choice.child none ((w.obj r).choice, w.entropy)) := 
              emitterCall_one Choice.emitBad Choice.emit Choice.emitMany _
        change onChoice r (Choice.child (some (.int 1))) w = asOne (onChoice r (Choice.child none) w)
        unfold onChoice
        rw [this]
        rcases Choice.child none
          (((w.obj r).choice, w.entropy) : ChoiceSt Val R × Nat) with ⟨_ | _, _⟩ <;> rfl
      | static =>
        unfold call
        rw [run_get_bind, run_get_bind, hn]
        change staticChild r _ w = asOne (staticChild r none w)
        exact emitterCall_one (fun _ => PyM.raise .typeError) _ (fun n => (staticAttr r).run (Static.emitMany n)) w
      | iterative =>
        unfold call
        rw [run_get_bind, run_get_bind, hn]
        change iterChild r _ w = asOne (iterChild r none w)
        exact emitterCall_one _ _ _ w
      | sequential k =>
        unfold call
        rw [run_get_bind, run_get_bind, hn]
        change seqChild r _ w = asOne (seqChild r none w)
        exact emitterCall_one _ _ _ w
      | word l c =>
        rw [call_word str fuel _ hn, call_word str fuel _ hn]
        exact emitterCall_one _ _ _ w
      | text n wd s =>
        rw [call_text str fuel _ hn, call_text str fuel _ hn]
        exact emitterCall_one _ _ _ w
      | wrapOne s =>
        rcases hw : (w.obj r).wrapper with _ | cb
        · unfold call
          rw [run_get_bind, run_get_bind, hn]
          dsimp only
          rw [hw]; rfl
        · rw [call_wrapOne str fuel _ hn hw, call_wrapOne str fuel _ hn hw]
          exact emitterCall_one _ _ _ w
      | wrapMany ss =>
        rcases hw : (w.obj r).wrapper with _ | cb
        · unfold call
          rw [run_get_bind, run_get_bind, hn]
          dsimp only
          rw [hw]; rfl
        · rw [call_wrapMany str fuel _ hn hw, call_wrapMany str fuel _ hn hw]
          exact emitterCall_one _ _ _ w
      | copyFields src single sep =>
        rw [call_copyFields str fuel _ hn, call_copyFields str fuel _ hn]
        exact emitterCall_one _ _ _ w
      | basedOn src single =>
        rcases hw : (w.obj r).wrapper with _ | cb
        · unfold call
          rw [run_get_bind, run_get_bind, hn]
          dsimp only
          rw [hw]; rfl
        · rw [call_basedOn str fuel _ hn hw, call_basedOn str fuel _ hn hw]
          exact emitterCall_one _ _ _ w
      | field n e rp g hd => unfold Attrs.isField at hf; rw [hn] at hf; cases hf

theorem isField_call (x : Ref) :
    ((call str fuel r arg w).2.obj x).isField = (w.obj x).isField := by
  unfold Attrs.isField
  rw [call_node]

/-- Every source that is not a field is called with 1 as without argument. -/
theorem singleIsEmit_store (fuel : Nat) (P : Ref → Prop) {s : Ref} (hs : P s) :
    SingleIsEmit (fun w : World R => ∀ x, P x → (w.obj x).isField = false) (call str fuel s) :=
  fun w h => ⟨by
    rw [call_one str fuel (h s hs)]
    rcases call str fuel s none w with ⟨_ | _, _⟩ <;> rfl, fun x hx => by rw [isField_call]; exact h x hx⟩

end World

/-! ### C37, C38 -/

/-- **C37 (store, single value).** `wrap_one()` calls its source once, without argument, and the
callback once, on the value; nothing else happens. -/
theorem C37_store_one (str : Val → List Char) (fuel : Nat) {r s : Ref} {cb : Callback R.G}
    {w : World R} (hn : (w.obj r).node = some (.wrapOne s)) (hw : (w.obj r).wrapper = some cb)
    (x : Val) (w' : World R) :
    World.call str (fuel + 1) r none w = (.ok x, w') ↔
      ∃ v w1, World.call str fuel s none w = (.ok v, w1) ∧
        Applies (rngAttr r) cb [([v], [])] w1 [x] w' := by
  rw [call_wrapOne str fuel _ hn hw]
  exact C37_one _ _ _ _ _ _

/-- **C37 (store, batch).** `wrap_one(n)` calls its source once with `n` and the callback once per
value, in order. -/
theorem C37_store_many (str : Val → List Char) (fuel : Nat) {r s : Ref} {cb : Callback R.G}
    {w : World R} (hn : (w.obj r).node = some (.wrapOne s)) (hw : (w.obj r).wrapper = some cb)
    (hs : (w.obj s).isField = false) (n : Int) (x : Val) (w' : World R) :
    World.call str (fuel + 1) r (some (.int n)) w = (.ok x, w') ↔
      ∃ v l w1 xs, World.call str fuel s (some (.int n)) w = (.ok v, w1) ∧ v.elems = .ok l ∧
        Applies (rngAttr r) cb (l.map fun v => ([v], [])) w1 xs w' ∧ x = .list xs := by
  rw [call_wrapOne str fuel _ hn hw]
  exact C37_many _ _ (singleIsEmit_store str fuel (· = s) rfl) _ _ _ _ _ fun y hy => hy ▸ hs

/-- **C38 (store, single value).** `wrap_many()` calls every source once, in order, and the callback
once, with one keyword argument per source. -/
theorem C38_store_one (str : Val → List Char) (fuel : Nat) {r : Ref} {ss : Dict Ref}
    {cb : Callback R.G} {w : World R} (hn : (w.obj r).node = some (.wrapMany ss))
    (hw : (w.obj r).wrapper = some cb) (hself : "self" ∉ ss.keys) (x : Val) (w' : World R) :
    World.call str (fuel + 1) r none w = (.ok x, w') ↔
      ∃ vals w1, Called none (drawn str fuel ss) w vals w1 ∧
        Applies (rngAttr r) cb [([], vals)] w1 [x] w' := by
  rw [call_wrapMany str fuel _ hn hw]
  refine C38_one _ _ _ ?_ _ _ _
  unfold drawn Dict.keys
  rw [List.map_map]; exact hself

/-- **C38 (store, batch).** `wrap_many(n)` calls every source once with `n`, in order; the `i`-th
value is the callback applied to the `i`-th values of the sources. -/
theorem C38_store_many (str : Val → List Char) (fuel : Nat) {r : Ref} {ss : Dict Ref}
    {cb : Callback R.G} {w : World R} (hn : (w.obj r).node = some (.wrapMany ss))
    (hw : (w.obj r).wrapper = some cb) (hself : "self" ∉ ss.keys)
    (hs : ∀ ks ∈ ss, (w.obj ks.2).isField = false) (n : Nat) (x : Val) (w' : World R) :
    World.call str (fuel + 1) r (some (.int n)) w = (.ok x, w') ↔
      ∃ (vals : Dict Val) (w1 : World R) (rows : List (Dict Val)) (xs : List Val),
        Called (some (.int n)) (drawn str fuel ss) w vals w1 ∧ rows.length = n ∧
        (∀ i row, rows[i]? = some row → RowAt vals i row) ∧
        Applies (rngAttr r) cb (rows.map fun row => ([], row)) w1 xs w' ∧ x = .list xs := by
  rw [call_wrapMany str fuel _ hn hw]
  refine C38_many _ _ (I := fun v => ∀ y, (∃ ks ∈ ss, ks.2 = y) → (v.obj y).isField = false) ?_ _ ?_
    n _ _ _ ?_
  · intro kc hkc
    unfold drawn at hkc
    obtain ⟨ks, hks, rfl⟩ := List.mem_map.1 hkc
    exact singleIsEmit_store str fuel (fun y => ∃ ks ∈ ss, ks.2 = y) ⟨ks, hks, rfl⟩
  · unfold drawn Dict.keys
    rw [List.map_map]; exact hself
  · rintro y ⟨ks, hks, rfl⟩; exact hs ks hks

/-! ### C42, C44 -/

/-- A field is reported as single-valued exactly when its repeat emitter has an attribute `items`
that equals the list `[None]`. -/
theorem multiValued_false_iff {g : Ref} {w : World R} : multiValued g w = false ↔
    ∃ n e rp gt hd, (w.obj g).node = some (.field n e rp gt hd) ∧
      (w.obj rp).items = some (.list, [.none]) := by
  unfold multiValued
  rcases hn : (w.obj g).node with _ | node
  · simp
  · cases node with
    | field n e rp gt hd =>
      dsimp only
      unfold Field.multiValued
      rcases hi : (w.obj rp).items with _ | ⟨_ | _, l⟩
      · constructor
        · intro h; cases h
        · rintro ⟨_, _, _, _, _, h, h'⟩
          cases h
          rw [hi] at h'; cases h'
      · constructor
        · intro h
          have hl : l = [.none] := by simpa using h
          exact ⟨n, e, rp, gt, hd, rfl, by rw [hi, hl]⟩
        · rintro ⟨_, _, _, _, _, h, h'⟩
          cases h
          rw [hi] at h'; cases h'
          simp
      · constructor
        · intro h; cases h
        · rintro ⟨_, _, _, _, _, h, h'⟩
          cases h
          rw [hi] at h'; cases h'
    | _ => simp

/-- The last values of the fields, in order, lists flattened one level. -/
def lastValues (w : World R) (src : List Ref) : List Val :=
  (src.map fun g => contribution (w.obj g).cache).flatten

theorem group_values (str : Val → List Char) (fuel : Nat) (w v : World R) (src : List Ref)
    (single : Bool) : groupValues (group str fuel w src single) v = lastValues v src := by
  unfold groupValues lastValues group sourceGroup
  rw [List.map_map]; rfl

/-- One single-valued source field, given as such. -/
def OneSource (w : World R) (src : List Ref) (single : Bool) (g : Ref) : Prop :=
  src = [g] ∧ single = true ∧ multiValued g w = false

theorem isSingle_group {str : Val → List Char} {fuel : Nat} {w : World R} {src : List Ref}
    {single : Bool} {f : SourceField (World R)} (h : IsSingle (group str fuel w src single) w f) :
    ∃ g, OneSource w src single g ∧ f.previous w = (w.obj g).cache := by
  obtain ⟨h1, h2, h3⟩ := h
  unfold group sourceGroup at h1
  dsimp only at h1
  rcases src with _ | ⟨g, _ | ⟨g', src⟩⟩
  · cases h1
  · cases h1
    exact ⟨g, ⟨rfl, h2, h3⟩, rfl⟩
  · cases h1

/-- **C42 (store).** A `CopyFields` on one single-valued field emits that field's last value, whatever
the separator, and changes nothing. -/
theorem C42_store_single (str : Val → List Char) (fuel : Nat) {r g : Ref} {src : List Ref}
    {single : Bool} {sep : Option (List Char)} {w : World R}
    (hn : (w.obj r).node = some (.copyFields src single sep)) (h : OneSource w src single g) :
    World.call str (fuel + 1) r none w = (.ok (w.obj g).cache, w) := by
  rw [call_copyFields str fuel _ hn]
  obtain ⟨rfl, rfl, h3⟩ := h
  exact C42_single str (group str fuel w [g] true) sep w
    ⟨(w.obj g).name, fun v => (v.obj g).cache, multiValued g, World.call str fuel g none,
      World.reset fuel g, World.seed fuel g⟩ ⟨rfl, rfl, h3⟩

/-- **C42 (store).** Otherwise, without separator: the list of the fields' last values, or `None`. -/
theorem C42_store_many (str : Val → List Char) (fuel : Nat) {r : Ref} {src : List Ref}
    {single : Bool} {w : World R} (hn : (w.obj r).node = some (.copyFields src single none))
    (h : ∀ g, ¬ OneSource w src single g) :
    World.call str (fuel + 1) r none w =
      (.ok (if lastValues w src = [] then .none else .list (lastValues w src)), w) := by
  rw [call_copyFields str fuel _ hn, C42_many str _ w fun f hf => ?_, group_values]
  obtain ⟨g, hg, _⟩ := isSingle_group hf
  exact h g hg

/-- **C42 (store).** Otherwise, with a separator: the string forms of the values, joined. -/
theorem C42_store_joined (str : Val → List Char) (fuel : Nat) {r : Ref} {src : List Ref}
    {single : Bool} {sep : List Char} {w : World R}
    (hn : (w.obj r).node = some (.copyFields src single (some sep)))
    (h : ∀ g, ¬ OneSource w src single g) :
    ∃ x, Joined sep ((lastValues w src).map str) x ∧
      World.call str (fuel + 1) r none w = (.ok (.str x), w) := by
  rw [call_copyFields str fuel _ hn]
  obtain ⟨x, h1, h2⟩ := C42_joined str (group str fuel w src single) sep w fun f hf => by
    obtain ⟨g, hg, _⟩ := isSingle_group hf
    exact h g hg
  rw [group_values] at h1
  exact ⟨x, h1, h2⟩

/-- **C42 (store, batch).** A batch repeats the value. -/
theorem C42_store_batch (str : Val → List Char) (fuel : Nat) {r : Ref} {src : List Ref}
    {single : Bool} {sep : Option (List Char)} {w : World R}
    (hn : (w.obj r).node = some (.copyFields src single sep)) :
    ∃ v, World.call str (fuel + 1) r none w = (.ok v, w) ∧
      ∀ n : Int, World.call str (fuel + 1) r (some (.int n)) w =
        (.ok (.list (List.replicate n.toNat v)), w) := by
  obtain ⟨v, h1, h2⟩ := C42_batch str (group str fuel w src single) sep w
  refine ⟨v, by rw [call_copyFields str fuel _ hn]; exact h1, fun n => ?_⟩
  rw [call_copyFields str fuel _ hn]
  exact h2 n

/-- **C44 (store, one source).** The action is applied to the field's last value; nothing but the
emitter's own generator changes. -/
theorem C44_store_one (str : Val → List Char) (fuel : Nat) {r g : Ref} {single : Bool}
    {cb : Callback R.G} {w : World R} (hn : (w.obj r).node = some (.basedOn [g] single))
    (hw : (w.obj r).wrapper = some cb) (x : Val) (w' : World R) :
    World.call str (fuel + 1) r none w = (.ok x, w') ↔
      Applies (rngAttr r) cb [([(w.obj g).cache], [])] w [x] w' := by
  rw [call_basedOn str fuel _ hn hw]
  exact C44_one _ _ _ _ _ _ _

/-- **C44 (store, several sources).** The action gets the fields' last values under their names. -/
theorem C44_store_many (str : Val → List Char) (fuel : Nat) {r : Ref} {src : List Ref} {single : Bool}
    {cb : Callback R.G} {w : World R} (hn : (w.obj r).node = some (.basedOn src single))
    (hw : (w.obj r).wrapper = some cb) (hlen : src.length ≠ 1)
    (hnames : (src.map fun g => (w.obj g).name).Nodup)
    (hself : "self" ∉ src.map fun g => (w.obj g).name) (x : Val) (w' : World R) :
    World.call str (fuel + 1) r none w = (.ok x, w') ↔
      Applies (rngAttr r) cb [([], src.map fun g => ((w.obj g).name, (w.obj g).cache))] w [x] w' := by
  rw [call_basedOn str fuel _ hn hw]
  have e1 : (group str fuel w src single).fields.map (·.name) = src.map fun g => (w.obj g).name := by
    unfold group sourceGroup; rw [List.map_map]; rfl
  have e2 : ((group str fuel w src single).fields.map fun f => (f.name, f.previous w)) =
      src.map fun g => ((w.obj g).name, (w.obj g).cache) := by
    unfold group sourceGroup; rw [List.map_map]; rfl
  rw [C44_many _ _ (by unfold group sourceGroup; rw [List.length_map]; exact hlen)
    (by rw [e1]; exact hnames) (by rw [e1]; exact hself), e2]

/-- **C44 (store, batch).** The action is evaluated once and its value repeated. -/
theorem C44_store_batch (str : Val → List Char) (fuel : Nat) {r : Ref} {src : List Ref}
    {single : Bool} {cb : Callback R.G} {w : World R}
    (hn : (w.obj r).node = some (.basedOn src single)) (hw : (w.obj r).wrapper = some cb) (n : Int)
    (x : Val) (w' : World R) :
    World.call str (fuel + 1) r (some (.int n)) w = (.ok x, w') ↔
      ∃ v, World.call str (fuel + 1) r none w = (.ok v, w') ∧
        x = .list (List.replicate n.toNat v) := by
  rw [call_basedOn str fuel _ hn hw, call_basedOn str fuel _ hn hw]
  exact C44_batch _ _ _ _ _ _ _

/-! ### C46, C47 -/

/-- **C46 (store).** Exactly when and how a field returns. -/
theorem C46_store (str : Val → List Char) (fuel : Nat) {r : Ref} {n : String} {e rp g : Ref}
    {hd : Bool} {w : World R} (hn : (w.obj r).node = some (.field n e rp g hd)) (v : Val)
    (w' : World R) :
    World.call str (fuel + 1) r none w = (.ok v, w') ↔
      ∃ gv w1, World.call str fuel g none w = (.ok gv, w1) ∧
        (gv.truthy = false ∧ v = .none ∧ w' = w1.upd r (fun a => { a with cache := .none }) ∨
         gv.truthy = true ∧ ∃ k w2 w3, World.call str fuel rp none w1 = (.ok k, w2) ∧
          World.call str fuel e (some k) w2 = (.ok v, w3) ∧
          w' = w3.upd r fun a => { a with cache := v }) := by
  rw [call_field str fuel hn]
  exact C46_field_call _ _ _ _ _ _ _

/-! ### Concrete cases -/

/-- `lambda a, b: [b, a]`, called by keyword. -/
def swapped : Callback Nat where
  sig := some [⟨"a", .posOrKw, false⟩, ⟨"b", .posOrKw, false⟩]
  run _ kw := .ok (.list ((kw.map (·.2)).reverse))
  runRng _ _ := PyM.raise .typeError

/-- Two counters (0 and 1), a `WrapOne` (2) around the first and a `WrapMany` (3) around both. -/
def wrapWorld : World demoRng :=
  ((do let a ← World.newSequential .list [.int 1, .int 2, .int 3] false
       let b ← World.newSequential .list [.int 10, .int 20] false
       let _ ← World.newWrapOne demoStr 5 a doubled none
       let _ ← World.newWrapMany demoStr 5 [("a", a), ("b", b)] swapped none
       return () : PyM (World demoRng) Unit) emptyWorld).2

example : (wrapWorld.obj 2).node = some (.wrapOne 0) ∧ (wrapWorld.obj 2).wrapper.isSome = true ∧
    (wrapWorld.obj 3).node = some (.wrapMany [("a", 0), ("b", 1)]) ∧
    (wrapWorld.obj 3).wrapper.isSome = true ∧ (wrapWorld.obj 0).isField = false := by decide +kernel
example : (World.call demoStr 5 2 none wrapWorld).1 = .ok (.list [.int 1, .int 1]) := by decide +kernel
example : (World.call demoStr 5 2 (some (.int 2)) wrapWorld).1 =
    .ok (.list [.list [.int 1, .int 1], .list [.int 2, .int 2]]) := by decide +kernel
example : (World.call demoStr 5 3 none wrapWorld).1 = .ok (.list [.int 10, .int 1]) := by
  decide +kernel
example : (World.call demoStr 5 3 (some (.int 2)) wrapWorld).1 =
    .ok (.list [.list [.int 10, .int 1], .list [.int 20, .int 2]]) := by decide +kernel

/-- In the store of the demonstration schema: `copy` joins two fields, `pair` is based on one. -/
example : (demoWorld.obj 12).node = some (.copyFields [3, 11] false (some ['-'])) ∧
    (demoWorld.obj 16).node = some (.basedOn [3] true) ∧
    (demoWorld.obj 16).wrapper.isSome = true ∧
    (demoWorld.obj 15).node = some (.field "copy" 12 13 14 false) := by decide +kernel
example : ∀ g, ¬ OneSource demoWorld [3, 11] false g := fun _ h => by cases h.2.1
example : OneSource demoWorld [3] true 3 := ⟨rfl, rfl, by decide +kernel⟩
example : (World.call demoStr 5 16 none (World.document demoStr 5 demoFields demoWorld).2).1 =
    .ok (.list [.int 2, .int 2]) := by decide +kernel
example : (World.call demoStr 5 15 none (World.document demoStr 5 demoFields demoWorld).2).1 =
    .ok (.str "2-8".toList) := by decide +kernel

end Fauxdoc
