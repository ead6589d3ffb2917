import Verif.Proofs.LostSeed
import Verif.Props.Seeds2
import Verif.Props.SeedLaws
import Verif.Spec.LostSeed
/-
C112: what happens to the seed of an emitter that becomes part of something else.
-/
set_option linter.unusedSectionVars false
namespace Fauxdoc
open PyM
variable {K : Type} [Field K] [LinearOrder K] [FloorRing K] {R : Rng K}

theorem SameRun.refl {β : Type} (x : Except Err β × World R) : SameRun x x := ⟨rfl, fun _ _ => rfl⟩

namespace World

/-- What is below an object that exists, in a store with one more object. -/
theorem below_alloc {a : Attrs R} {w : World R} {c x : Ref} (hb : Below w c x)
    (hx : ∀ y, Below w c y → y < w.next) : Below (alloc a w).2 c x := by
  induction hb with
  | self r => exact .self r
  | @step r c x hc _ ih =>
    refine .step (c := c) ?_ (ih fun y hy => hx y (.step hc hy))
    have : r ≠ w.next := (hx r (.self r)).ne
    change c ∈ (if r = w.next then a else w.obj r).children
    rwa [if_neg this]

/-- A new object changes nothing below those that exist. -/
theorem below_of_alloc {a : Attrs R} {w : World R} {c x : Ref} (hb : Below (alloc a w).2 c x)
    (hx : ∀ y, Below w c y → y < w.next) : Below w c x := by
  induction hb with
  | self r => exact .self r
  | @step r c x hc _ ih =>
    have hne : r ≠ w.next := (hx r (.self r)).ne
    have hc' : c ∈ (w.obj r).children := by
      change c ∈ (if r = w.next then a else w.obj r).children at hc
      rwa [if_neg hne] at hc
    exact .step hc' (ih fun y hy => hx y (.step hc' hy))

theorem beside_alloc {A : Ref → Prop} {w v : World R} (a : Attrs R) (h : Beside A w v) :
    Beside A (alloc a w).2 (alloc a v).2 where
  next := congrArg (· + 1) h.next
  entropy := h.entropy
  shape x := by
    change (if x = w.next then a else w.obj x).shape = (if x = v.next then a else v.obj x).shape
    rw [h.next]
    by_cases hx : x = v.next
    · rw [if_pos hx, if_pos hx]
    · rw [if_neg hx, if_neg hx]; exact h.shape x
  rest x hx := by
    change (if x = w.next then a else w.obj x) = (if x = v.next then a else v.obj x)
    rw [h.next, h.rest x hx]

/-- Making an object, resetting it, and going on. -/
theorem alloc_reset_sync {β : Type} {A : Ref → Prop} {a : Attrs R} (ha : a.random = true)
    {w v : World R} (h : Beside A w v) (hA : ∀ x, A x → ∃ c ∈ a.children, Below w c x)
    (hx : ∀ c ∈ a.children, ∀ y, Below w c y → y < w.next) (fuel : Nat)
    (k : Ref → PyM (World R) β) :
    SameRun ((do let r ← alloc a; reset fuel r; k r : PyM (World R) β) w)
      ((do let r ← alloc a; reset fuel r; k r : PyM (World R) β) v) := by
  have h1 := beside_alloc a h
  have ew : alloc a w = (.ok w.next, (alloc a w).2) := rfl
  have ev : alloc a v = (.ok w.next, (alloc a v).2) := by rw [h.next]; rfl
  rw [PyM.bind_ok ew, PyM.bind_ok ev]
  have ow : (alloc a w).2.obj w.next = a := if_pos rfl
  have ov : (alloc a v).2.obj w.next = a := by rw [h.next]; exact if_pos rfl
  have hrest : ∀ x, ¬ Below (alloc a w).2 w.next x → (alloc a w).2.obj x = (alloc a v).2.obj x := by
    refine fun x hn => h1.rest x fun hAx => hn ?_
    obtain ⟨c, hc, hb⟩ := hA x hAx
    exact .step (c := c) (by rw [ow]; exact hc) (below_alloc hb (hx c hc))
  obtain ⟨h2, _, h3⟩ := reset_sync fuel w.next (alloc a w).2 (alloc a v).2 h1.shape
    (by rw [ow]; exact ha) (by rw [ow, ov]) hrest h1.next h1.entropy
  · rw [PyM.bind_apply, PyM.bind_apply]
    rcases hq : reset fuel w.next (alloc a w).2 with ⟨e | u, w'⟩
    · rw [hq] at h2
      rcases hq' : reset fuel w.next (alloc a v).2 with ⟨e' | u', v'⟩
      · rw [hq'] at h2
        cases h2
        exact ⟨rfl, fun b hb => by cases hb⟩
      · rw [hq'] at h2; cases h2
    · have := h3 (by rw [hq])
      rw [← this, hq]
      exact .refl _

/-- Seeding with a number takes no random bits. -/
theorem seed_bits (fuel : Nat) (r : Ref) (z : Int) (w : World R) :
    (seed fuel r (some z) w).2.entropy = w.entropy := by
  have hF := shapeFrame_steps (fun _ => True) (some z) w (fun _ _ _ _ => trivial)
  have hS : ResetSteps (fun x => (w.obj x).node) (fun _ => True) (some z)
      (fun a b => (a = b ∧ ShapeFrame (fun _ => True) w a) ∧ a.entropy = w.entropy) := by
    refine ⟨fun a b x h => hF.left a b x h.1, fun a b x h => hF.right a b x h.1, hF.closed,
      fun x a b h h1 h2 => ⟨hF.setSeed x a b h.1 h1 h2, h.2⟩,
      fun x a b h h1 h2 h3 h4 h5 => ⟨hF.newRng x a b h.1 h1 h2 h3 h4 h5, h.2⟩,
      fun x k a b h h1 h2 h3 h4 => ?_,
      fun x a b h h1 h2 => ⟨hF.iter x a b h.1 h1 h2, h.2⟩,
      fun x k a b h h1 h2 => ⟨hF.seq x k a b h.1 h1 h2, h.2⟩,
      fun x n e rp g hd a b h h1 h2 => ⟨hF.cache x n e rp g hd a b h.1 h1 h2, h.2⟩⟩
    obtain ⟨q1, q2⟩ := hF.choice x k a b h.1 h1 h2 h3 h4
    refine ⟨q1, q2, ?_⟩
    exact (Choice.reset_cases h3 a.entropy).1.trans h.2
  exact (hS.seed fuel r trivial w w ⟨⟨rfl, .refl _ w⟩, rfl⟩).2.2

/-- The stores differ in the parts of an object to be made, which all exist. -/
structure PartsReady (parts : List Ref) (w v : World R) : Prop where
  beside : Beside (w.PartOf parts) w v
  exist : ∀ x, w.PartOf parts x → x < w.next

/-- Making an object without parts, to become a part itself. -/
theorem PartsReady.alloc {parts : List Ref} {w v : World R} (h : PartsReady parts w v) {a : Attrs R}
    (ha : a.children = []) : PartsReady (w.next :: parts) (alloc a w).2 (alloc a v).2 where
  beside := by
    have h1 := beside_alloc a h.beside
    refine ⟨h1.next, h1.entropy, h1.shape, fun x hx => h1.rest x fun ⟨c, hc, hb⟩ => hx ?_⟩
    exact ⟨c, by simp [hc], below_alloc hb fun y hy => h.exist y ⟨c, hc, hy⟩⟩
  exist := by
    rintro x ⟨c, hc, hb⟩
    rcases List.mem_cons.1 hc with rfl | hc
    · have : x = w.next := by
        rcases hb with _ | ⟨hc, _⟩
        · rfl
        · change _ ∈ (if w.next = w.next then a else _ : Attrs R).children at hc
          rw [if_pos rfl, ha] at hc
          cases hc
      rw [this]; exact Nat.lt_succ_self _
    · exact Nat.lt_succ_of_lt (h.exist x ⟨c, hc, below_of_alloc hb fun y hy => h.exist y ⟨c, hc, hy⟩⟩)

theorem PartsReady.sync {β : Type} {parts : List Ref} {w v : World R} (h : PartsReady parts w v) {a : Attrs R}
    (ha : a.random = true) (hp : ∀ c, c ∈ parts ↔ c ∈ a.children) (fuel : Nat)
    (k : Ref → PyM (World R) β) :
    SameRun ((do let r ← World.alloc a; reset fuel r; k r : PyM (World R) β) w)
      ((do let r ← World.alloc a; reset fuel r; k r : PyM (World R) β) v) :=
  alloc_reset_sync ha h.beside (fun _ ⟨c, hc, hb⟩ => ⟨c, (hp c).1 hc, hb⟩)
    (fun c hc y hy => h.exist y ⟨c, (hp c).2 hc, hy⟩) fuel k

end World

open World

/-! ### Without influence -/

/-- **C112 (reset).** Let an object have the same seed, or none, in two stores that differ below it
only in seeds, generators, positions and the like.  Then `reset()` has the same outcome in both, and
if it succeeds nothing is left of the differences. -/
theorem C112_reset (fuel : Nat) (r : Ref) (w v : World R) (h : Beside (Below w r) w v)
    (hr : (w.obj r).random = true) (hz : (w.obj r).rngSeed = (v.obj r).rngSeed) :
    SameRun (World.reset fuel r w) (World.reset fuel r v) := by
  obtain ⟨h1, _, h2⟩ := reset_sync fuel r w v h.shape hr hz h.rest h.next h.entropy
  exact ⟨h1, fun b hb => by rw [h2 hb]⟩

/-- **C112 (Field).** What seeds the emitters of a new field were given, and what they have done
before, makes no difference to anything that happens afterwards. -/
theorem C112_newField (fuel : Nat) (name : String) (em : Ref) (rep gate : Option Ref) (hide : Bool)
    (s : Option Int) (w v : World R)
    (h : Beside (w.PartOf (em :: (rep.toList ++ gate.toList))) w v)
    (hx : ∀ x, w.PartOf (em :: (rep.toList ++ gate.toList)) x → x < w.next) :
    SameRun (newField fuel name em rep gate hide s w) (newField fuel name em rep gate hide s v) := by
  have hR : PartsReady (em :: (rep.toList ++ gate.toList)) w v := ⟨h, hx⟩
  have e1 : ∀ (x : Val) (u : World R), newStatic x u = (.ok u.next, (newStatic x u).2) :=
    fun _ _ => rfl
  unfold newField
  rcases rep with _ | rp <;> rcases gate with _ | g <;> dsimp only
  · rw [PyM.bind_ok (e1 _ w), PyM.bind_ok (e1 _ v), PyM.bind_ok (e1 _ _), PyM.bind_ok (e1 _ _)]
    have h1 := hR.alloc (a := { blank with node := some .static, static := Static.init .none }) rfl
    have h2 := h1.alloc (a := { blank with
      node := some .static, static := Static.init (.bool true) }) rfl
    rw [← h.next, show (newStatic Val.none v).2.next = (newStatic Val.none w).2.next from
      h1.beside.next.symm]
    refine h2.sync (a := { blank with
      node := some (.field name em w.next (newStatic .none w).2.next hide), seed := s }) rfl
      (fun c => ?_) fuel pure
    change c ∈ [(newStatic .none w).2.next, w.next, em] ↔ c ∈ [em, w.next, (newStatic .none w).2.next]
    simp only [List.mem_cons, List.not_mem_nil, or_false]; tauto
  · rw [PyM.bind_ok (e1 _ w), PyM.bind_ok (e1 _ v)]
    have h1 := hR.alloc (a := { blank with node := some .static, static := Static.init .none }) rfl
    rw [← h.next]
    refine h1.sync (a := { blank with node := some (.field name em w.next g hide), seed := s }) rfl
      (fun c => ?_) fuel pure
    change c ∈ [w.next, em, g] ↔ c ∈ [em, w.next, g]
    simp only [List.mem_cons, List.not_mem_nil, or_false]; tauto
  · have ep : ∀ u : World R, (pure rp : PyM (World R) Ref) u = (.ok rp, u) := fun _ => rfl
    rw [PyM.bind_ok (ep w), PyM.bind_ok (ep v), PyM.bind_ok (e1 _ w), PyM.bind_ok (e1 _ v)]
    have h1 := hR.alloc (a := { blank with
      node := some .static, static := Static.init (.bool true) }) rfl
    rw [← h.next]
    refine h1.sync (a := { blank with node := some (.field name em rp w.next hide), seed := s }) rfl
      (fun c => ?_) fuel pure
    change c ∈ [w.next, em, rp] ↔ c ∈ [em, rp, w.next]
    simp only [List.mem_cons, List.not_mem_nil, or_false]; tauto
  · exact hR.sync (a := { blank with node := some (.field name em rp g hide), seed := s }) rfl
      (fun _ => Iff.rfl) fuel pure

/-- **C112 (Word).** -/
theorem C112_newWord (fuel : Nat) (length alphabet : Ref) (s : Option Int) (w v : World R)
    (h : Beside (w.PartOf [length, alphabet]) w v)
    (hx : ∀ x, w.PartOf [length, alphabet] x → x < w.next) :
    SameRun (newWord fuel length alphabet s w) (newWord fuel length alphabet s v) :=
  (PartsReady.mk h hx).sync (a := { blank with node := some (.word length alphabet), seed := s }) rfl
    (fun _ => Iff.rfl) fuel fun r => do updateWordNumUnique r length alphabet; return r

/-- **C112 (Text).** -/
theorem C112_newText (fuel : Nat) (numwords word : Ref) (sep : Option Ref) (s : Option Int)
    (w v : World R) (h : Beside (w.PartOf (numwords :: word :: sep.toList)) w v)
    (hx : ∀ x, w.PartOf (numwords :: word :: sep.toList) x → x < w.next) :
    SameRun (newText fuel numwords word sep s w) (newText fuel numwords word sep s v) := by
  have hR : PartsReady (numwords :: word :: sep.toList) w v := ⟨h, hx⟩
  unfold newText
  rcases sep with _ | sp <;> dsimp only
  · have e1 : ∀ (x : Val) (u : World R), newStatic x u = (.ok u.next, (newStatic x u).2) :=
      fun _ _ => rfl
    rw [PyM.bind_ok (e1 _ w), PyM.bind_ok (e1 _ v), ← h.next]
    have h1 := hR.alloc (a := { blank with
      node := some .static, static := Static.init (.str [' ']) }) rfl
    refine h1.sync (a := { blank with node := some (.text numwords word w.next), seed := s }) rfl
      (fun c => ?_) fuel fun r => do updateTextNumUnique r numwords word w.next; return r
    change c ∈ [w.next, numwords, word] ↔ c ∈ [numwords, word, w.next]
    simp only [List.mem_cons, List.not_mem_nil, or_false]; tauto
  · exact hR.sync (a := { blank with node := some (.text numwords word sp), seed := s }) rfl
      (fun _ => Iff.rfl) fuel fun r => do updateTextNumUnique r numwords word sp; return r

/-- **C112 (WrapOne).** -/
theorem C112_newWrapOne (str : Val → List Char) (fuel : Nat) (source : Ref) (cb : Callback R.G)
    (s : Option Int) (w v : World R) (h : Beside (w.PartOf [source]) w v)
    (hx : ∀ x, w.PartOf [source] x → x < w.next) :
    SameRun (newWrapOne str fuel source cb s w) (newWrapOne str fuel source cb s v) :=
  (PartsReady.mk h hx).sync (a := { blank with node := some (.wrapOne source), seed := s }) rfl
    (fun _ => Iff.rfl) fuel fun r => do setWrapper str fuel r cb; return r

/-- **C112 (WrapMany).** -/
theorem C112_newWrapMany (str : Val → List Char) (fuel : Nat) (sources : Dict Ref)
    (cb : Callback R.G) (s : Option Int) (w v : World R)
    (h : Beside (w.PartOf (sources.map (·.2))) w v)
    (hx : ∀ x, w.PartOf (sources.map (·.2)) x → x < w.next) :
    SameRun (newWrapMany str fuel sources cb s w) (newWrapMany str fuel sources cb s v) :=
  (PartsReady.mk h hx).sync (a := { blank with node := some (.wrapMany sources), seed := s }) rfl
    (fun _ => Iff.rfl) fuel fun r => do setWrapper str fuel r cb; return r

/-- **C112 (seeds given to the emitter).** Whether the emitter was seeded with `y` or with `z` makes no
difference once a field is made of it. -/
theorem C112_emitter_seed (fuel fuel' : Nat) (name : String) (em : Ref) (rep gate : Option Ref)
    (hide : Bool) (s : Option Int) (y z : Int) (w : World R)
    (hx : ∀ x, w.PartOf (em :: (rep.toList ++ gate.toList)) x → x < w.next) :
    SameRun (newField fuel name em rep gate hide s (World.seed fuel' em (some y) w).2)
      (newField fuel name em rep gate hide s (World.seed fuel' em (some z) w).2) := by
  have fy := seed_shapeFrame fuel' em (some y) w
  have fz := seed_shapeFrame fuel' em (some z) w
  have hb : ∀ c x, Below (World.seed fuel' em (some y) w).2 c x ↔ Below w c x := fun c x =>
    Below.congr fun u => fy.node u
  refine C112_newField fuel name em rep gate hide s _ _ ⟨?_, ?_, fun x => ?_, fun x hn => ?_⟩
    fun x ⟨c, hc, h⟩ => ?_
  · rw [fy.next, fz.next]
  · rw [seed_bits, seed_bits]
  · rw [fy.shape, fz.shape]
  · have : ¬ Below w em x := fun h => hn ⟨em, by simp, (hb em x).2 h⟩
    rw [fy.frame x this, fz.frame x this]
  · rw [fy.next]
    exact hx x ⟨c, hc, (hb c x).1 h⟩

/-! ### With a seed for the whole -/

/-- **C112, part.** If the object itself has a seed, its `reset()` depends neither on what was done to
the emitters below it nor on the operating system.  (What is missing is the case of an object without a
seed whose emitters were given seeds: `C112_violated`.) -/
theorem C112_owner_partial (fuel : Nat) (r : Ref) (z : Int) (w v : World R)
    (h : BesideBits (Below w r) w v) (hr : (w.obj r).random = true)
    (hw : (w.obj r).rngSeed = some z) (hv : (v.obj r).rngSeed = some z) :
    SameObjects (World.reset fuel r w) (World.reset fuel r v) := by
  obtain ⟨h1, h2⟩ := World.reset_law fuel r z w v h.shape hr hw hv h.rest
  exact ⟨h1, fun _ hb => h2 hb⟩

/-! ### Without a seed for the whole -/

/-- A `Choice` of three words that was given the seed 5, where the operating system has handed out
random bits `e` times. -/
def fiveWorld (e : Nat) : World demoRng :=
  (World.newChoice .list [.str ['x'], .str ['y'], .str ['z']] none true false (some 5) none
    { emptyWorld with entropy := e }).2

/-- The same `Choice` as the emitter of a field without a seed. -/
def fiveField (e : Nat) : World demoRng := (newField 5 "tag" 0 none none false none (fiveWorld e)).2

/-- **C112 (violated).** A `Choice` that was given a seed gives the same values whatever the operating
system hands out.  In a field without a seed it does not: its seed is gone, and the documents differ
from one run of the program to the next. -/
theorem C112_violated :
    (∀ e e', ((fiveWorld e).obj 0) = ((fiveWorld e').obj 0)) ∧
    ((fiveWorld 0).obj 0).choice.rngSeed = some 5 ∧ ((fiveField 0).obj 0).choice.rngSeed = none ∧
    (World.document demoStr 5 [("tag", 3)] (fiveField 0)).1 = .ok [("tag", .str ['z'])] ∧
    (World.document demoStr 5 [("tag", 3)] (fiveField 1)).1 = .ok [("tag", .str ['x'])] := by
  refine ⟨fun e e' => rfl, ?_⟩
  decide +kernel

/-- A field `a` with the seed 4; if `b`, a second field without a seed is made of the same emitter. -/
def lostWorld (b : Bool) (e : Nat) : World demoRng :=
  ((do
    let c ← World.newChoice .list [.str ['x'], .str ['y'], .str ['z']] none true false none none
    let _ ← newField 5 "a" c none none false (some 4)
    if b then
      let _ ← newField 5 "b" c none none false none
    return ()) { emptyWorld with entropy := e }).2

/-- **C112 (violated for a shared emitter).** The field `a` has a seed, and its documents do not depend
on the operating system, until a second field without a seed is made of its emitter. -/
theorem C112_shared_violated :
    (World.document demoStr 5 [("a", 3)] (lostWorld false 0)).1 = .ok [("a", .str ['y'])] ∧
    (World.document demoStr 5 [("a", 3)] (lostWorld false 1)).1 = .ok [("a", .str ['y'])] ∧
    ((lostWorld true 0).obj 3).seed = some 4 ∧
    (World.document demoStr 5 [("a", 3)] (lostWorld true 0)).1 = .ok [("a", .str ['x'])] ∧
    (World.document demoStr 5 [("a", 3)] (lostWorld true 1)).1 = .ok [("a", .str ['y'])] := by
  decide +kernel

/-! ### Examples -/

/-- The parts of a new field exist. -/
example : ∀ x, (fiveWorld 0).PartOf [0] x → x < (fiveWorld 0).next := by
  rintro x ⟨c, hc, h⟩
  have hc : c = 0 := by simpa using hc
  subst hc
  have := h.mem [0] (by decide +kernel) (by decide)
  rw [List.mem_singleton.1 this]
  decide +kernel
/-- Seeding did make a difference before. -/
example : ((World.seed 5 0 (some 6) (fiveWorld 0)).2.obj 0).choice.rngSeed ≠
    ((World.seed 5 0 (some 7) (fiveWorld 0)).2.obj 0).choice.rngSeed := by decide +kernel
/-- The field is made. -/
example : (newField 5 "tag" 0 none none false none (World.seed 5 0 (some 6) (fiveWorld 0)).2).1 =
    .ok 3 := by decide +kernel
/-- Stores that differ below field 3 in the seed of its emitter. -/
example : Beside (Below (fiveField 0) 3) (fiveField 0) (World.seed 5 0 (some 7) (fiveField 0)).2 ∧
    ((fiveField 0).obj 0).choice.rngSeed ≠
      ((World.seed 5 0 (some 7) (fiveField 0)).2.obj 0).choice.rngSeed := by
  have hf := seed_shapeFrame 5 0 (some 7) (fiveField 0)
  refine ⟨⟨hf.next.symm, (seed_bits ..).symm, fun x => (hf.shape x).symm, fun x hx =>
    (hf.frame x fun h => hx ?_).symm⟩, by decide +kernel⟩
  exact .step (c := 0) (by decide +kernel) h
/-- The field 3 has no seed in either, and can be reset. -/
example : ((fiveField 0).obj 3).random = true ∧ ((fiveField 0).obj 3).rngSeed = none ∧
    ((World.seed 5 0 (some 7) (fiveField 0)).2.obj 3).rngSeed = none ∧
    (World.reset 5 3 (fiveField 0)).1 = .ok () := by decide +kernel
/-- Other random bits; `usedWorld` has a field 3 with the seed 4 (see C106). -/
example (A : Ref → Prop) (w : World demoRng) (e : Nat) : BesideBits A w { w with entropy := e } :=
  ⟨rfl, fun _ => rfl, fun _ _ => rfl⟩
example : (usedWorld.obj 3).random = true ∧ (usedWorld.obj 3).rngSeed = some 4 ∧
    (World.reset 5 3 usedWorld).1 = .ok () := by decide +kernel

end Fauxdoc
