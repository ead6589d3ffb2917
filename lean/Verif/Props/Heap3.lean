import Verif.Props.Heap2
/-
Fields and schemas of the store over time: C43, C45, C47, C48, C49 and C51.
-/
set_option linter.unusedSectionVars false
namespace Fauxdoc
open PyM World
variable {K : Type} [Field K] [LinearOrder K] [IsStrictOrderedRing K] [FloorRing K] {R : Rng K}

/-! ### What stays the same -/

namespace World

theorem items_of_config {a b : Attrs R} (h : b.config = a.config) : b.items = a.items := by
  have hi : ∀ a : Attrs R, a.config.items = a.items := by
    intro a
    unfold Attrs.items
    rw [config_node]
    have h1 : a.config.choice.items = a.choice.items := by
      unfold Attrs.config
      split <;> first | rfl | (unfold ChoiceSt.config; dsimp only; split <;> rfl)
    have h2 : a.config.static = a.static := by unfold Attrs.config; split <;> rfl
    have h3 : a.config.seq.items = a.seq.items := by unfold Attrs.config; split <;> rfl
    rw [h1, h2, h3]
  rw [← hi b, h, hi a]

theorem _root_.Fauxdoc.SameConfig.node {w v : World R} (h : SameConfig w v) (x : Ref) :
    (v.obj x).node = (w.obj x).node := by
  rw [← config_node, h x, config_node]

theorem _root_.Fauxdoc.SameConfig.multiValued {w v : World R} (h : SameConfig w v) (g : Ref) :
    multiValued g v = multiValued g w := by
  unfold World.multiValued
  rw [SameConfig.node h]
  rcases (w.obj g).node with _ | node
  · rfl
  · cases node <;> first | rfl | (dsimp only; rw [items_of_config (h _)])

theorem static_of_config {a b : Attrs R} (h : b.config = a.config) : b.static = a.static := by
  have h2 : ∀ a : Attrs R, a.config.static = a.static := by
    intro a; unfold Attrs.config; split <;> rfl
  rw [← h2 b, h, h2 a]

theorem obj_entropy (w : World R) (e : Nat) (x : Ref) :
    ({ w with entropy := e } : World R).obj x = w.obj x := rfl

/-- `static()` and `static(None)`. -/
theorem call_static (str : Val → List Char) (fuel : Nat) {r : Ref} {w : World R}
    (hn : (w.obj r).node = some .static) :
    call str (fuel + 1) r none w = (.ok (w.obj r).static.value, w) := by
  conv_lhs => unfold call
  rw [run_get_bind, hn]
  change (staticAttr r).run Static.emit w = _
  unfold Attr.run
  change ((Except.ok (w.obj r).static.value, (staticAttr r).set ((staticAttr r).get w) w) :
    Except Err Val × World R) = _
  rw [(staticAttr r).set_get]

end World

/-! ### C43 -/

/-- The last value of the field is not an empty list, and if the field is reported as multi-valued it
is a list or `None`. -/
def ProperLast (w : World R) (g : Ref) (x : Val) : Prop :=
  multiValued g w = true → x = .none ∨ ∃ v l, x = .list (v :: l)

/-- A field that copies `g` (its emitter is a `CopyFields(g)`), with the default repeat and gate
emitters. -/
structure Copies (w : World R) (c g : Ref) : Prop where
  field : ∃ n e rp gt hd, (w.obj c).node = some (.field n e rp gt hd) ∧
    (w.obj e).node = some (.copyFields [g] true none) ∧
    (w.obj rp).node = some .static ∧ (w.obj rp).static.value = .none ∧
    (w.obj gt).node = some .static ∧ (w.obj gt).static.value.truthy = true

/-- **C43 (store).** A field that copies `g` gives exactly the last value of `g`, provided that is not
an empty list. -/
theorem C43_store_partial (str : Val → List Char) (fuel : Nat) {c g : Ref} {w : World R}
    (hc : Copies w c g) (hv : ProperLast w g (w.obj g).cache) :
    World.call str (fuel + 2) c none w =
      (.ok (w.obj g).cache, w.upd c fun a => { a with cache := (w.obj g).cache }) := by
  obtain ⟨n, e, rp, gt, hd, hn, he, hr, hrv, hg, hgv⟩ := hc.field
  have h1 : World.call str (fuel + 1) gt none w = (.ok (w.obj gt).static.value, w) :=
    call_static str fuel hg
  have h2 : World.call str (fuel + 1) rp none w = (.ok .none, w) := by
    rw [call_static str fuel hr, hrv]
  have h3 : World.call str (fuel + 1) e (some .none) w = World.call str (fuel + 1) e none w := by
    rw [call_copyFields str fuel _ he, call_copyFields str fuel _ he]
    rfl
  have h4 : World.call str (fuel + 1) e none w = (.ok (w.obj g).cache, w) := by
    by_cases hm : multiValued g w = true
    · rw [C42_store_many str fuel he fun g' hg' => ?_]
      · rcases hv hm with h | ⟨v, l, h⟩
        · simp [lastValues, h, contribution]
        · simp [lastValues, h, contribution]
      · obtain ⟨h, _, h'⟩ := hg'
        cases h
        rw [hm] at h'; cases h'
    · exact C42_store_single str fuel he ⟨rfl, rfl, by simpa using hm⟩
  exact (C46_store str (fuel + 1) hn _ _).2 ⟨_, w, h1, .inr ⟨hgv, .none, w, w, h2, by rw [h3, h4], rfl⟩⟩

/-! ### C45 -/

/-- **C45 (store).** What constructing a `BasedOnFields` does to its source fields: if it does not
raise, each of them has been called exactly once, in order; apart from that only the new object is
written. -/
theorem C45_store_partial (str : Val → List Char) (fuel : Nat) {src : List Ref} {single : Bool}
    {cb : Callback R.G} {s : Option Int} {w w' : World R} {r : Ref}
    (h : World.newBasedOnFields str fuel src single cb s w = (.ok r, w')) :
    ∃ w1 w2 vs, (∀ x, x ≠ r → w1.obj x = w.obj x) ∧
      FieldsRun (fun g => World.call str fuel g none) (src.map fun g => ("", g)) w1 vs w2 ∧
      ∀ x, x ≠ r → w'.obj x = w2.obj x := by
  unfold World.newBasedOnFields at h
  obtain ⟨r', v1, h1, h⟩ := bind_eq_ok h
  obtain ⟨_, v2, h2, h⟩ := bind_eq_ok h
  obtain ⟨_, v3, h3, h⟩ := bind_eq_ok h
  cases h
  have hv1 : (v1.obj r).node = some (.basedOn src single) ∧ ∀ x, x ≠ r → v1.obj x = w.obj x := by
    cases h1
    exact ⟨by simp [blank], fun x hx => if_neg hx⟩
  have hv2 : (v2.obj r).node = some (.basedOn src single) ∧ ∀ x, x ≠ r → v2.obj x = w.obj x := by
    obtain ⟨g, e, h4, -⟩ := newRng_eq r s v1
    rw [h4] at h2
    cases h2
    refine ⟨?_, fun x hx => ?_⟩
    · rw [obj_entropy, upd_obj, if_pos rfl]; exact hv1.1
    · rw [obj_entropy, upd_obj, if_neg hx]; exact hv1.2 x hx
  unfold World.setAction at h3
  rw [run_get_bind, hv2.1] at h3
  dsimp only at h3
  obtain ⟨w1, w2, vs, e1, e2, e3⟩ := C45_consumes_one_call_partial _ _ _ _ _ _ h3
  have hw1 : ∀ x, x ≠ r → w1.obj x = w.obj x := by
    rw [modify_apply, Prod.mk.injEq] at e1
    obtain ⟨-, rfl⟩ := e1
    intro x hx
    rw [upd_obj, if_neg hx]; exact hv2.2 x hx
  have hnw1 : (w1.obj r).node = some (.basedOn src single) := by
    rw [modify_apply, Prod.mk.injEq] at e1
    obtain ⟨-, rfl⟩ := e1
    rw [upd_obj, if_pos rfl]; exact hv2.1
  have hrun : ∀ (l : List Ref) u vs u', FieldsCalled (World.sourceGroup
      (fun g => World.call str fuel g none) (World.reset fuel) (World.seed fuel) v2 l single).fields
        u vs u' →
      FieldsRun (fun g => World.call str fuel g none) (l.map fun g => ("", g)) u vs u' := by
    intro l
    induction l with
    | nil => intro u vs u' h; cases h; exact .nil _
    | cons g l ih =>
      intro u vs u' h
      cases h with
      | cons h1 h2 => exact .cons h1 (ih _ _ _ h2)
  have hr2 := hrun src _ _ _ e2
  refine ⟨w1, w2, vs, hw1, hr2, ?_⟩
  have hnode : ∀ (l : Dict Ref) (u : World R) vs u',
      FieldsRun (fun g => World.call str fuel g none) l u vs u' →
      (u'.obj r).node = (u.obj r).node := by
    intro l u vs u' h
    induction h with
    | nil => rfl
    | @cons k f fs s s1 s2 v vs h1 _ ih =>
      rw [ih]
      have := call_node str (r := f) none fuel r s
      rw [h1] at this
      exact this
  have hf := reset_frame fuel r (· = r) w2 (fun x hx c hc => by
    subst hx
    unfold Attrs.children at hc
    rw [hnode _ _ _ _ hr2, hnw1] at hc
    cases hc) rfl
  rw [e3] at hf
  exact hf.frame

/-! ### C47 -/

/-- What a program can do and what it observes of the field `f`: call it, reset it, call or reset any
other object above which `f` is not, seed any object (`f` included) or assign to its `rng_seed`. -/
inductive FieldStep (str : Val → List Char) (f : Ref) (w : World R) : FieldEvent → World R → Prop
  | returned (fuel : Nat) {v : Val} {w' : World R}
    (h : World.call str fuel f none w = (.ok v, w')) : FieldStep str f w (.returned v) w'
  | raised (fuel : Nat) {e : Err} {w' : World R}
    (h : World.call str fuel f none w = (.error e, w')) : FieldStep str f w .raised w'
  | rejected (fuel : Nat) (a : Val) : FieldStep str f w .raised (World.call str fuel f (some a) w).2
  | wasReset (fuel : Nat) {w' : World R} (h : World.reset fuel f w = (.ok (), w')) :
    FieldStep str f w .wasReset w'
  | resetRaised (fuel : Nat) {e : Err} {w' : World R} (h : World.reset fuel f w = (.error e, w')) :
    FieldStep str f w .raised w'
  | call (fuel : Nat) (r : Ref) (arg : Option Val) (h : ¬ Below w r f) :
    FieldStep str f w .other (World.call str fuel r arg w).2
  | reset (fuel : Nat) (r : Ref) (h : ¬ Below w r f) :
    FieldStep str f w .other (World.reset fuel r w).2
  | seed (fuel : Nat) (r : Ref) (s : Option Int) : FieldStep str f w .other (World.seed fuel r s w).2
  | setRngSeed (r : Ref) (s : Option Int) : FieldStep str f w .other (w.upd r (Attrs.setSeed s))

/-- Any number of such steps. -/
inductive FieldSteps (str : Val → List Char) (f : Ref) :
    World R → List FieldEvent → World R → Prop
  | nil (w : World R) : FieldSteps str f w [] w
  | cons {w w1 w2 : World R} {e : FieldEvent} {es : List FieldEvent}
    (h : FieldStep str f w e w1) (h' : FieldSteps str f w1 es w2) : FieldSteps str f w (e :: es) w2

namespace World
variable {f : Ref} {c : Val}

theorem seed_cache (f : Ref) (c : Val) : ∀ (fuel : Nat) (r : Ref) (s : Option Int),
    Keeps (fun w : World R => (w.obj f).cache = c) (seed fuel r s) := by
  intro fuel
  have hupd : ∀ (w : World R) (r : Ref) (g : Attrs R → Attrs R) (e : Nat),
      (∀ a, (g a).cache = a.cache) → (w.obj f).cache = c →
      (({ w.upd r g with entropy := e } : World R).obj f).cache = c := by
    intro w r g e hg hw
    change ((w.upd r g).obj f).cache = c
    rw [upd_obj]
    by_cases h : f = r
    · subst h; rw [if_pos rfl, hg]; exact hw
    · rw [if_neg h]; exact hw
  have hmix : ∀ r x, Keeps (fun w : World R => (w.obj f).cache = c) (mixinSeed r x) := by
    intro r x
    unfold mixinSeed
    refine Keeps.bind (fun w hw => hupd w r (fun a => { a with seed := x }) w.entropy (fun _ => rfl) hw)
      fun _ w hw => ?_
    obtain ⟨g, e, h, -⟩ := newRng_eq r x w
    rw [h]
    exact hupd w r _ e (fun _ => rfl) hw
  induction fuel with
  | zero => exact fun _ _ => Keeps.raise _ _
  | succ fuel ih =>
    intro r s w hw
    have hmixc : Keeps (fun w : World R => (w.obj f).cache = c) (mixinChildSeed (seed fuel) r s) := by
      intro v hv
      unfold mixinChildSeed
      rw [run_get_bind]
      exact (doMethod_keeps fun c _ => ih c s).bind (fun _ => Keeps.ignoring (hmix r s)) v hv
    have htwice : Keeps (fun w : World R => (w.obj f).cache = c) (do
        mixinChildSeed (seed fuel) r s
        let a := (← PyM.get).obj r
        Group.doMethod (a.children.map some) (seed fuel · a.seed) : PyM (World R) Unit) := by
      refine hmixc.bind fun _ v hv => ?_
      rw [run_get_bind]
      exact doMethod_keeps (fun c _ => ih c _) v hv
    unfold seed
    rw [run_get_bind]
    rcases hn : (w.obj r).node with _ | node
    · exact hw
    · cases node with
      | choice k => exact hupd w r _ _ (fun _ => rfl) hw
      | word l c => exact htwice w hw
      | text n wd s => exact htwice w hw
      | wrapOne s => exact hmixc w hw
      | wrapMany ss => exact hmixc w hw
      | field n e rp g hd => exact hmixc w hw
      | basedOn src single => exact hmix r s w hw
      | _ => exact hw

/-- The classes are those in `w0`, and `f` has the last value `c`. -/
def Holds (w0 : World R) (f : Ref) (c : Val) (w : World R) : Prop :=
  (∀ x, (w.obj x).node = (w0.obj x).node) ∧ (w.obj f).cache = c

theorem call_holds (str : Val → List Char) (fuel : Nat) {w0 : World R} (r : Ref) (arg : Option Val)
    (h : ¬ Below w0 r f) : Keeps (Holds w0 f c) (call str fuel r arg) := by
  intro w ⟨h1, h2⟩
  refine ⟨fun x => (call_node str (r := r) arg fuel x w).trans (h1 x), ?_⟩
  rw [C57_only_below str fuel r f arg w fun h' => h ((Below.congr h1).1 h')]
  exact h2

theorem reset_holds (fuel : Nat) {w0 : World R} (r : Ref) (h : ¬ Below w0 r f) :
    Keeps (Holds w0 f c) (reset fuel r) := by
  intro w ⟨h1, h2⟩
  have hf := reset_frame fuel r (Below w r) w (fun _ hr _ hc => hr.child hc) (.self r)
  refine ⟨fun x => (hf.node x).trans (h1 x), ?_⟩
  rw [hf.frame f fun h' => h ((Below.congr h1).1 h')]
  exact h2

theorem holds_upd {w0 w : World R} (hw : Holds w0 f c w) (r : Ref) (g : Attrs R → Attrs R) (e : Nat)
    (hg : ∀ a, (g a).cache = a.cache) (hn : ∀ a, (g a).node = a.node) :
    Holds w0 f c { w.upd r g with entropy := e } := by
  refine ⟨fun x => ?_, ?_⟩
  · change ((w.upd r g).obj x).node = _
    rw [upd_obj]
    by_cases h : x = r
    · subst h; rw [if_pos rfl, hn]; exact hw.1 x
    · rw [if_neg h]; exact hw.1 x
  · change ((w.upd r g).obj f).cache = _
    rw [upd_obj]
    by_cases h : f = r
    · subst h; rw [if_pos rfl, hg]; exact hw.2
    · rw [if_neg h]; exact hw.2

theorem setSeed_cache (s : Option Int) (a : Attrs R) : (a.setSeed s).cache = a.cache := by
  unfold Attrs.setSeed
  split <;> rfl

/-- Resetting the children of `f` and giving it a new generator leaves its last value alone. -/
theorem mixinReset_holds (fuel : Nat) {w0 : World R}
    (hc : ∀ x ∈ (w0.obj f).children, ¬ Below w0 x f) :
    Keeps (Holds w0 f c) (mixinReset (reset fuel) f) := by
  intro w hw
  unfold mixinReset
  rw [run_get_bind]
  refine Keeps.bind (I := Holds w0 f c) ?_ (fun _ => Keeps.bind ?_ fun _ => ?_) w hw
  · unfold setChildSeeds Group.setattr
    refine Keeps.forEach fun b _ => ?_
    rcases b with _ | x
    · exact Keeps.pure _ _
    · refine fun v hv => ?_
      dsimp only
      rw [run_get_bind]
      by_cases h : (v.obj x).random = true
      · rw [if_pos h]
        exact holds_upd hv x _ v.entropy (setSeed_cache _) fun a => setSeed_node a _
      · rw [if_neg h]; exact hv
  · intro v hv
    obtain ⟨g, e, h, -⟩ := newRng_eq f (w.obj f).seed v
    rw [h]
    exact holds_upd hv f _ e (fun _ => rfl) fun _ => rfl
  · refine doMethod_keeps fun x hx => reset_holds fuel x (hc x ?_)
    have := hw.1 f
    unfold Attrs.children at hx ⊢
    rw [← this]; exact hx

/-- A call of a field that raises leaves its last value alone. -/
theorem call_raises (str : Val → List Char) (fuel : Nat) {w w' : World R} {e : Err}
    (hf : (w.obj f).isField = true) (hc : ∀ x ∈ (w.obj f).children, ¬ Below w x f)
    (h : call str fuel f none w = (.error e, w')) : (w'.obj f).cache = (w.obj f).cache := by
  cases fuel with
  | zero => cases h; rfl
  | succ fuel =>
    unfold Attrs.isField at hf
    rcases hn : (w.obj f).node with _ | node
    · rw [hn] at hf; cases hf
    · cases node with
      | field n em rp g hd =>
        rw [call_field str fuel hn] at h
        have hch := fun x hx => hc x ((children_iff _ x).2 ⟨_, hn, hx⟩)
        have k1 := call_holds str fuel (c := (w.obj f).cache) g none (hch g (.fieldGate ..))
        have k2 := call_holds str fuel (c := (w.obj f).cache) rp none (hch rp (.fieldRepeat ..))
        have k3 := fun a => call_holds str fuel (c := (w.obj f).cache) em a (hch em (.fieldData ..))
        unfold Field.call at h
        have h1 := k1 w ⟨fun _ => rfl, rfl⟩
        rcases hgs : call str fuel g none w with ⟨_ | gv, s1⟩
        · rw [PyM.bind_err hgs] at h
          rw [hgs] at h1
          cases h; exact h1.2
        · rw [PyM.bind_ok hgs] at h
          rw [hgs] at h1
          by_cases ht : gv.truthy = true
          · rw [if_pos ht] at h
            have h2 := k2 s1 h1
            rcases hrs : call str fuel rp none s1 with ⟨_ | k, s2⟩
            · rw [PyM.bind_err hrs] at h
              rw [hrs] at h2
              cases h; exact h2.2
            · rw [PyM.bind_ok hrs] at h
              rw [hrs] at h2
              have h3 := k3 (some k) s2 h2
              rcases hes : call str fuel em (some k) s2 with ⟨_ | v, s3⟩
              · rw [PyM.bind_err hes] at h
                rw [hes] at h3
                cases h; exact h3.2
              · rw [PyM.bind_ok hes, PyM.run_modify_bind] at h
                cases h
          · rw [if_neg ht, PyM.run_modify_bind] at h
            cases h
      | _ => rw [hn] at hf; cases hf

theorem reset_field {fuel : Nat} {w : World R} {n : String} {e rp g : Ref} {hd : Bool}
    (hn : (w.obj f).node = some (.field n e rp g hd)) :
    reset (fuel + 1) f w = Field.reset (cacheAttr f) (mixinReset (reset fuel) f) w := by
  conv_lhs => unfold reset
  rw [run_get_bind, hn]

end World

/-- **C47 (store).** Let `f` be a field that is not among the emitters below its own child emitters.
After any sequence of calls, resets, seedings and uses of other objects, whatever exceptions occur,
the last value of `f` is the one returned by its last successful call, or `None` if it was reset
since (or the one it had at the start). -/
theorem C47_store (str : Val → List Char) {f : Ref} {w w' : World R} {es : List FieldEvent}
    (hf : (w.obj f).isField = true) (hc : ∀ x ∈ (w.obj f).children, ¬ Below w x f)
    (h : FieldSteps str f w es w') : (w'.obj f).cache = previousAfter (w.obj f).cache es := by
  induction h with
  | nil => rfl
  | @cons w w1 w2 e es h h' ih =>
    obtain ⟨n, em, rp, g, hd, hn⟩ : ∃ n em rp g hd, (w.obj f).node = some (.field n em rp g hd) := by
      unfold Attrs.isField at hf
      rcases hn : (w.obj f).node with _ | node
      · rw [hn] at hf; cases hf
      · cases node with
        | field n em rp g hd => exact ⟨n, em, rp, g, hd, rfl⟩
        | _ => rw [hn] at hf; cases hf
    have hnodes : ∀ x, (w1.obj x).node = (w.obj x).node := by
      intro x
      cases h with
      | returned fuel h => have := call_node str (r := f) none fuel x w; rw [h] at this; exact this
      | raised fuel h => have := call_node str (r := f) none fuel x w; rw [h] at this; exact this
      | rejected fuel a => exact call_node str (r := f) _ fuel x w
      | wasReset fuel h => have := reset_node fuel f x w; rw [h] at this; exact this
      | resetRaised fuel h => have := reset_node fuel f x w; rw [h] at this; exact this
      | call fuel r arg _ => exact call_node str (r := r) _ fuel x w
      | reset fuel r _ => exact reset_node fuel r x w
      | seed fuel r s => exact node_of_shape (seed_shape fuel r s w x)
      | setRngSeed r s => exact (holds_upd (c := (w.obj f).cache) ⟨fun _ => rfl, rfl⟩ r _ w.entropy (setSeed_cache s)
          fun a => setSeed_node a s).1 x
    have ih := ih (by unfold Attrs.isField at hf ⊢; rw [hnodes]; exact hf) (fun x hx h' => by
      refine hc x ?_ ((Below.congr hnodes).1 h')
      unfold Attrs.children at hx ⊢
      rw [← hnodes]; exact hx)
    rw [ih]
    cases h with
    | returned fuel h => rw [call_field_cache str fuel f w w1 _ hn h]; rfl
    | raised fuel h => rw [call_raises str fuel hf hc h]; rfl
    | rejected fuel a =>
      have : (World.call str fuel f (some a) w).2 = w := by
        cases fuel with
        | zero => rfl
        | succ fuel =>
          unfold World.call
          rw [run_get_bind, hn]; rfl
      rw [this]; rfl
    | wasReset fuel h =>
      cases fuel with
      | zero => cases h
      | succ fuel =>
        rw [reset_field hn] at h
        unfold Field.reset at h
        obtain ⟨_, s1, -, h2⟩ := bind_eq_ok h
        cases h2
        change previousAfter ((cacheAttr f).get ((cacheAttr f).set .none s1)) es = _
        rw [(cacheAttr f).get_set]; rfl
    | resetRaised fuel h =>
      cases fuel with
      | zero => cases h; rfl
      | succ fuel =>
        rw [reset_field hn] at h
        unfold Field.reset at h
        have hk := mixinReset_holds (c := (w.obj f).cache) fuel hc w ⟨fun _ => rfl, rfl⟩
        rcases hm : mixinReset (World.reset fuel) f w with ⟨e' | _, s1⟩
        · rw [PyM.bind_err hm] at h
          rw [hm] at hk
          cases h
          rw [hk.2]; rfl
        · rw [PyM.bind_ok hm] at h; cases h
    | call fuel r arg hb =>
      rw [(call_holds str fuel (c := (w.obj f).cache) r arg hb w ⟨fun _ => rfl, rfl⟩).2]; rfl
    | reset fuel r hb =>
      rw [(reset_holds fuel (c := (w.obj f).cache) r hb w ⟨fun _ => rfl, rfl⟩).2]; rfl
    | seed fuel r s => rw [seed_cache f _ fuel r s w rfl]; rfl
    | setRngSeed r s =>
      rw [(holds_upd (c := (w.obj f).cache) ⟨fun _ => rfl, rfl⟩ r _ w.entropy (setSeed_cache s)
        fun a => setSeed_node a s : Holds w f _ { w.upd r (Attrs.setSeed s) with entropy := w.entropy }).2]
      rfl

/-! ### C48 -/

/-- **C48 (store, single).** Let the repeat emitter only emit members of its `items` (`V rp` are the
values it emits).  If the field is reported as not multi-valued, it gives `None` or a single value of
its data emitter. -/
theorem C48_store_single (str : Val → List Char) (fuel : Nat) {V : Ref → Val → Prop} {P : Ref → Prop}
    {f : Ref} {w w' : World R} {v : Val} {n : String} {e rp g : Ref} {hd : Bool}
    (ht : TypedOn V P w) (hP : P f) (hn : (w.obj f).node = some (.field n e rp g hd))
    (hV : ∀ k l, (w.obj rp).items = some (k, l) → ∀ x, V rp x → x ∈ l)
    (hm : multiValued f w = false) (h : World.call str fuel f none w = (.ok v, w')) :
    v = .none ∨ V e v := by
  cases fuel with
  | zero => cases h
  | succ fuel =>
    have hch := fun x hx => (ht f hP).2 x ((children_iff _ x).2 ⟨_, hn, hx⟩)
    obtain ⟨gv, w1, h1, ⟨-, rfl, -⟩ | ⟨-, k, w2, w3, h2, h3, -⟩⟩ := (C46_store str fuel hn _ _).1 h
    · exact .inl rfl
    · have c1 := call_typed str fuel g (hch g (.fieldGate ..)) none trivial w ht
      rw [EnsuresAt, h1] at c1
      have c2 := call_typed str fuel rp (hch rp (.fieldRepeat ..)) none trivial w1 c1.1
      rw [EnsuresAt, h2] at c2
      have hk : V rp k := c2.2 k rfl
      have hk' : k = .none := by
        unfold multiValued at hm
        rw [hn] at hm
        dsimp only at hm
        rcases hi : (w.obj rp).items with _ | ⟨_ | _, l⟩
        · rw [hi] at hm; cases hm
        · rw [hi] at hm
          have hl : l = [.none] := by simpa [Field.multiValued] using hm
          have := hV _ _ hi k hk
          rw [hl, List.mem_singleton] at this
          exact this
        · rw [hi] at hm; cases hm
      subst hk'
      have c3 := call_typed str fuel e (hch e (.fieldData ..)) (some .none) (by rintro i ⟨⟩) w2 c2.1
      rw [EnsuresAt, h3] at c3
      exact .inr (c3.2 v rfl)

/-- **C48 (store, multi).** If the repeat emitter emits integers, the field is reported as
multi-valued and gives `None` or a list of values of its data emitter. -/
theorem C48_store_multi (str : Val → List Char) (fuel : Nat) {V : Ref → Val → Prop} {P : Ref → Prop}
    {f : Ref} {w w' : World R} {v : Val} {n : String} {e rp g : Ref} {hd : Bool}
    (ht : TypedOn V P w) (hP : P f) (hn : (w.obj f).node = some (.field n e rp g hd))
    (hV : ∀ k l, (w.obj rp).items = some (k, l) → ∀ x, V rp x → x ∈ l)
    (hint : ∀ x, V rp x → ∃ i, x = .int i)
    (h : World.call str fuel f none w = (.ok v, w')) :
    v = .none ∨ multiValued f w = true ∧ ∃ l, v = .list l ∧ ∀ x ∈ l, V e x := by
  cases fuel with
  | zero => cases h
  | succ fuel =>
    have hch := fun x hx => (ht f hP).2 x ((children_iff _ x).2 ⟨_, hn, hx⟩)
    obtain ⟨gv, w1, h1, ⟨-, rfl, -⟩ | ⟨-, k, w2, w3, h2, h3, -⟩⟩ := (C46_store str fuel hn _ _).1 h
    · exact .inl rfl
    · have c1 := call_typed str fuel g (hch g (.fieldGate ..)) none trivial w ht
      rw [EnsuresAt, h1] at c1
      have c2 := call_typed str fuel rp (hch rp (.fieldRepeat ..)) none trivial w1 c1.1
      rw [EnsuresAt, h2] at c2
      have hk : V rp k := c2.2 k rfl
      obtain ⟨i, rfl⟩ := hint k hk
      have hpos : ArgOK (some (.int i)) := by
        have := (ht f hP).1
        unfold Attrs.Typed at this
        rw [hn] at this
        exact this.2 _ hk
      have c3 := call_typed str fuel e (hch e (.fieldData ..)) (some (.int i)) hpos w2 c2.1
      rw [EnsuresAt, h3] at c3
      obtain ⟨l, hl, -, hl'⟩ := answers_int (c3.2 v rfl)
      refine .inr ⟨?_, l, hl, hl'⟩
      unfold multiValued
      rw [hn]
      dsimp only
      rcases hi : (w.obj rp).items with _ | ⟨_ | _, l'⟩
      · rfl
      · by_contra hm
        have hl2 : l' = [.none] := by simpa [Field.multiValued] using hm
        have := hV _ _ hi _ hk
        rw [hl2, List.mem_singleton] at this
        cases this
      · rfl

/-! ### C49 -/

/-- **C49 (store).** A schema gives a document exactly when each of its fields, called once in order,
returns; the document holds the non-hidden ones, in order. -/
theorem C49_store (str : Val → List Char) (fuel : Nat) {fields : Dict Ref} (hn : fields.keys.Nodup)
    (w w' : World R) (doc : Dict Val) :
    World.document str fuel fields w = (.ok doc, w') ↔
      ∃ vals, FieldsRun (fun r => World.call str fuel r none) fields w vals w' ∧
        doc = visible (fun r => (w.obj r).hide) fields vals := by
  unfold World.document
  rw [run_get_bind]
  exact C49_document _ _ fields hn w w' doc

/-! ### C51 -/

/-- Fields, none of which is among the emitters below another one. -/
structure Independent (w : World R) (fields : Dict Ref) : Prop where
  field : ∀ kf ∈ fields, (w.obj kf.2).isField = true
  apart : ∀ kf ∈ fields, ∀ kg ∈ fields, kf.1 ≠ kg.1 → ¬ Below w kf.2 kg.2

theorem node_of_isField {a : Attrs R} (h : a.isField = true) :
    ∃ n e rp g hd, a.node = some (.field n e rp g hd) := by
  unfold Attrs.isField at h
  rcases hn : a.node with _ | node
  · rw [hn] at h; cases h
  · cases node with
    | field n e rp g hd => exact ⟨n, e, rp, g, hd, rfl⟩
    | _ => rw [hn] at h; cases h

/-- Independent fields of the store have separate last values. -/
theorem separate_store (str : Val → List Char) (fuel : Nat) {w : World R} {fields : Dict Ref}
    (hi : Independent w fields) :
    SeparateCaches (SameConfig w) fields (fun r => World.call str fuel r none)
      (fun r v => (v.obj r).cache) where
  keeps kf _ s v t hs h x := by
    have := C56_configuration str fuel kf.2 none s x
    rw [h] at this
    exact this.trans (hs x)
  own kf hk s v t hs h := by
    obtain ⟨n, e, rp, g, hd, hn⟩ := node_of_isField (hi.field kf hk)
    exact call_field_cache str fuel kf.2 s t v (by rw [hs.node]; exact hn) h
  others kf hk kg hg hne s v t hs h := by
    have := C57_only_below str fuel kf.2 kg.2 none s fun h' =>
      hi.apart kf hk kg hg hne ((Below.congr hs.node).1 h')
    rw [h] at this
    change (t.obj kg.2).cache = _
    rw [this]

/-- **C51 (store).** While a document is made from independent fields, when the field at position `j`
is called, the fields before it have the values they have in this document, the others those they had
before. -/
theorem C51_store (str : Val → List Char) (fuel : Nat) {fields : Dict Ref} (hn : fields.keys.Nodup)
    {w w' : World R} (hi : Independent w fields) {vals : List Val}
    (h : FieldsRun (fun r => World.call str fuel r none) fields w vals w') (j : Nat)
    (hj : j < fields.length) :
    ∃ wj wj', SameConfig w wj ∧ World.call str fuel (fields[j]).2 none wj =
        (.ok (vals.getD j .none), wj') ∧
      (∀ i (_ : i < j), (wj.obj (fields[i]).2).cache = vals.getD i .none) ∧
      ∀ i (_ : j ≤ i) (_ : i < fields.length),
        (wj.obj (fields[i]).2).cache = (w.obj (fields[i]).2).cache :=
  C51_same_document fields hn _ _ (separate_store str fuel hi) w w' (fun _ => rfl) vals h j hj

theorem C51_store_after (str : Val → List Char) (fuel : Nat) {fields : Dict Ref}
    (hn : fields.keys.Nodup) {w w' : World R} (hi : Independent w fields) {vals : List Val}
    (h : FieldsRun (fun r => World.call str fuel r none) fields w vals w') (i : Nat)
    (hj : i < fields.length) : (w'.obj (fields[i]).2).cache = vals.getD i .none :=
  C51_after_document fields hn _ _ (separate_store str fuel hi) w w' (fun _ => rfl) vals h i hj

theorem Copies.congr {w v : World R} {c g : Ref} (h : Copies w c g) (hs : SameConfig w v) :
    Copies v c g := by
  obtain ⟨n, e, rp, gt, hd, h1, h2, h3, h4, h5, h6⟩ := h
  refine ⟨n, e, rp, gt, hd, ?_, ?_, ?_, ?_, ?_, ?_⟩
  · rw [hs.node]; exact h1
  · rw [hs.node]; exact h2
  · rw [hs.node]; exact h3
  · rw [static_of_config (hs rp)]; exact h4
  · rw [hs.node]; exact h5
  · rw [static_of_config (hs gt)]; exact h6

/-- **C51 (store, copies).** Let the field at position `j` copy the one at position `i`.  If it comes
after it, both have the same value in every document; otherwise it has the source's value of the
document before. -/
theorem C51_store_copy (str : Val → List Char) (fuel : Nat) {fields : Dict Ref}
    (hn : fields.keys.Nodup) {w w' : World R} (hi : Independent w fields) {vals : List Val}
    (h : FieldsRun (fun r => World.call str (fuel + 2) r none) fields w vals w') (i j : Nat)
    (hil : i < fields.length) (hjl : j < fields.length) (hc : Copies w (fields[j]).2 (fields[i]).2) :
    (i < j → ProperLast w (fields[i]).2 (vals.getD i .none) →
      vals.getD j .none = vals.getD i .none) ∧
    (j ≤ i → ProperLast w (fields[i]).2 (w.obj (fields[i]).2).cache →
      vals.getD j .none = (w.obj (fields[i]).2).cache) := by
  obtain ⟨wj, wj', hs, h1, h2, h3⟩ := C51_store str (fuel + 2) hn hi h j hjl
  have hp : ∀ {g x}, ProperLast w g x → ProperLast wj g x := by
    intro g x hx hm
    exact hx (by rw [← hs.multiValued]; exact hm)
  constructor
  · intro hij hv
    rw [C43_store_partial str fuel (hc.congr hs) (by rw [h2 i hij]; exact hp hv), h2 i hij] at h1
    exact (Except.ok.inj (Prod.mk.inj h1).1).symm
  · intro hij hv
    rw [C43_store_partial str fuel (hc.congr hs) (by rw [h3 i hij hil]; exact hp hv),
      h3 i hij hil] at h1
    exact (Except.ok.inj (Prod.mk.inj h1).1).symm

/-! ### Concrete cases -/

/-- A counting field `n` (3) and a field `c` (7) that copies it. -/
def copySchema : PyM (World demoRng) (Dict Ref) := do
  let count ← World.newSequential .list [.int 1, .int 2, .int 3] false
  let n ← World.newField 5 "n" count none none false (some 3)
  let cp ← World.newCopyFields [n] true none
  let c ← World.newField 5 "c" cp none none false (some 4)
  return [("n", n), ("c", c)]

/-- Its store. -/
def copyWorld : World demoRng := (copySchema emptyWorld).2

example : (copySchema emptyWorld).1 = .ok [("n", 3), ("c", 7)] := by decide +kernel
theorem copyWorld_copies : Copies copyWorld 7 3 :=
  ⟨"c", 4, 5, 6, false, by decide +kernel, by decide +kernel, by decide +kernel, by decide +kernel,
    by decide +kernel, by decide +kernel⟩
example (x : Val) : ProperLast copyWorld 3 x := fun h => absurd h (by decide +kernel)
theorem copyWorld_below3 {x : Ref} (h : Below copyWorld 3 x) : x ∈ [0, 1, 2, 3] :=
  h.mem [0, 1, 2, 3] (by decide +kernel) (by decide)
theorem copyWorld_below7 {x : Ref} (h : Below copyWorld 7 x) : x ∈ [4, 5, 6, 7] :=
  h.mem [4, 5, 6, 7] (by decide +kernel) (by decide)
example : Independent copyWorld [("n", 3), ("c", 7)] where
  field := by decide +kernel
  apart kf hf kg hg hne h := by
    simp only [List.mem_cons, List.not_mem_nil, or_false] at hf hg
    rcases hf with rfl | rfl <;> rcases hg with rfl | rfl
    · exact hne rfl
    · exact absurd (copyWorld_below3 h) (by decide)
    · exact absurd (copyWorld_below7 h) (by decide)
    · exact hne rfl
/-- Source first: the same value; copy first: one document behind. -/
example : (World.document demoStr 5 [("n", 3), ("c", 7)] copyWorld).1 =
    .ok [("n", .int 1), ("c", .int 1)] := by decide +kernel
example : (World.document demoStr 5 [("c", 7), ("n", 3)]
    (World.document demoStr 5 [("c", 7), ("n", 3)] copyWorld).2).1 =
    .ok [("c", .int 1), ("n", .int 2)] := by decide +kernel
/-- The children of the field cannot reach it. -/
example : (copyWorld.obj 3).isField = true ∧
    ∀ x ∈ (copyWorld.obj 3).children, ¬ Below copyWorld x 3 := by
  refine ⟨by decide +kernel, fun x hx h => ?_⟩
  have hc : (copyWorld.obj 3).children = [0, 1, 2] := by decide +kernel
  rw [hc] at hx
  simp only [List.mem_cons, List.not_mem_nil, or_false] at hx
  have := h.mem [x] (by rcases hx with rfl | rfl | rfl <;> decide +kernel) (by simp)
  rcases hx with rfl | rfl | rfl <;> exact absurd this (by decide)
theorem FieldStep.returned' {str : Val → List Char} {f : Ref} {w : World R} (fuel : Nat) {v : Val}
    (h : (World.call str fuel f none w).1 = .ok v) :
    FieldStep str f w (.returned v) (World.call str fuel f none w).2 := .returned fuel (Prod.ext h rfl)

theorem FieldStep.wasReset' {str : Val → List Char} {f : Ref} {w : World R} (fuel : Nat)
    (h : (World.reset fuel f w).1 = .ok ()) :
    FieldStep str f w .wasReset (World.reset fuel f w).2 := .wasReset fuel (Prod.ext h rfl)

/-- A history of the field: two calls, a seeding, a rejected call, a reset and another call. -/
example : ∃ w', FieldSteps demoStr 3 copyWorld
    [.returned (.int 1), .returned (.int 2), .other, .raised, .wasReset, .returned (.int 1)] w' :=
  ⟨_, .cons (.returned' 5 (by decide +kernel)) <| .cons (.returned' 5 (by decide +kernel)) <|
    .cons (.seed 5 3 (some 9)) <| .cons (.rejected 5 (.int 2)) <|
    .cons (.wasReset' 5 (by decide +kernel)) <| .cons (.returned' 5 (by decide +kernel)) <| .nil _⟩
/-- Constructing a `BasedOnFields` on `n` works and uses up one of its values. -/
example : (World.newBasedOnFields demoStr 5 [3] true doubled none copyWorld).1 = .ok 8 := by
  decide +kernel
example : (World.call demoStr 5 3 none
    (World.newBasedOnFields demoStr 5 [3] true doubled none copyWorld).2).1 = .ok (.int 2) := by
  decide +kernel

/-- Number of repeats (0), data (1), gate (2), a field of several values (3), and with the repeat
emitter 4, a field of single ones (5). -/
def repV (r : Ref) (v : Val) : Prop :=
  match r with
  | 0 => v = .int 2
  | 1 => IsStr v
  | 4 => v = .none
  | _ => True

/-- `rep = Static(2)`, `data = Static('x')`, `gate = Static(True)`. -/
def rep3 : World demoRng :=
  (World.newStatic (.bool true) (World.newStatic (.str ['x'])
    (World.newStatic (.int 2) emptyWorld).2).2).2
/-- `Field('f', data, rep, gate)`. -/
def rep4 : World demoRng := (World.newField 5 "f" 1 (some 0) (some 2) false none rep3).2
/-- `Static(None)`. -/
def rep5 : World demoRng := (World.newStatic .none rep4).2
/-- `Field('g', data, Static(None), gate)`. -/
def rep6 : World demoRng := (World.newField 5 "g" 1 (some 4) (some 2) false none rep5).2

theorem rep_built : Built repV demoStr rep6 := by
  have h3 : Built repV demoStr rep3 :=
    .newStatic (.newStatic (.newStatic (.empty emptyWorld fun _ => rfl) _ rfl) _ ⟨_, rfl⟩) _ trivial
  have h4 : Built repV demoStr rep4 := .newField h3 _ _ _ _ _ _ _ (by
    rintro v ⟨⟩ i hi; cases hi; decide) (by
    intro v; rw [show rep3.next = 3 by decide +kernel]; trivial)
  have h5 : Built repV demoStr rep5 := .newStatic h4 _ (by
    rw [show rep4.next = 4 by decide +kernel]; rfl)
  exact .newField h5 _ _ _ _ _ _ _ (by rintro v ⟨⟩ i hi; cases hi) (by
    intro v; rw [show rep5.next = 5 by decide +kernel]; trivial)

/-- The hypotheses of `C48_store_multi` and `C48_store_single` hold. -/
example : TypedOn repV (fun _ => True) rep6 := built_typed rep_built
example : (rep6.obj 3).node = some (.field "f" 1 0 2 false) ∧ multiValued 3 rep6 = true ∧
    (rep6.obj 5).node = some (.field "g" 1 4 2 false) ∧ multiValued 5 rep6 = false := by
  decide +kernel
example : ∀ k l, (rep6.obj 0).items = some (k, l) → ∀ x, repV 0 x → x ∈ l := by
  have : (rep6.obj 0).items = some (.list, [.int 2]) := by decide +kernel
  rw [this]; rintro k l ⟨⟩ x ⟨⟩; simp
example : ∀ k l, (rep6.obj 4).items = some (k, l) → ∀ x, repV 4 x → x ∈ l := by
  have : (rep6.obj 4).items = some (.list, [.none]) := by decide +kernel
  rw [this]; rintro k l ⟨⟩ x ⟨⟩; simp
example : (World.call demoStr 5 3 none rep6).1 = .ok (.list [.str ['x'], .str ['x']]) ∧
    (World.call demoStr 5 5 none rep6).1 = .ok (.str ['x']) := by decide +kernel

end Fauxdoc
