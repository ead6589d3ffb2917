import Verif.Props.ChoiceEx
import Verif.Model.ChoiceVal
/-
C83: a `Choice` never looks at its items, it only moves them.
-/
set_option linter.unusedSectionVars false
namespace Fauxdoc
variable {K : Type} [Field K] [LinearOrder K] [FloorRing K] {α β : Type} {R : Rng K}

/-- What a user sees of a program that builds a `Choice` and operates on it: the exception of the
constructor, or the outcome of every operation. -/
def choiceProgram [PyHash α] (R : Rng K) (items : List α) (weights : Option (List K))
    (replace roac : Bool) (seed : Option Int) (cum : Option (List K)) (ops : List (ChoiceOp K))
    (ent : Nat) : Except Err (List (Except Err (List α))) :=
  match Choice.init (R := R) items weights replace roac seed cum ent with
  | (.ok st, e) => .ok (choiceOutputs ops (st, e))
  | (.error x, _) => .error x

/-- Two outcomes are values related by `φ`, or exceptions related by `X`. -/
inductive OutRel {a b : Type} (X : Err → Err → Prop) (φ : a → b → Prop) :
    Except Err a → Except Err b → Prop
  | ok {x y} (h : φ x y) : OutRel X φ (.ok x) (.ok y)
  | error {e e'} (h : X e e') : OutRel X φ (.error e) (.error e')

/-- Lists that correspond item by item. -/
abbrev Mapped (f : α → β) (l : List α) (l' : List β) : Prop := l' = l.map f

/-- The same instance over other items. -/
def ChoiceSt.map (f : α → β) (c : ChoiceSt α R) : ChoiceSt β R :=
  { items := c.items.map f, weights := c.weights, cumWeights := c.cumWeights, replace := c.replace,
    roac := c.roac, shuffled := c.shuffled.map f, shuffledIndex := c.shuffledIndex,
    numUniqueItems := c.numUniqueItems, rngSeed := c.rngSeed, rng := c.rng }

theorem map_items (f : α → β) (c : ChoiceSt α R) : (c.map f).items = c.items.map f := rfl
theorem map_weights (f : α → β) (c : ChoiceSt α R) : (c.map f).weights = c.weights := rfl
theorem map_cumWeights (f : α → β) (c : ChoiceSt α R) : (c.map f).cumWeights = c.cumWeights := rfl

namespace Choice
variable {X : Err → Err → Prop} {f : α → β}

/-- Two computations do the same, but for the items being mapped and the exceptions. -/
def Same {a b : Type} (X : Err → Err → Prop) (f : α → β) (φ : a → b → Prop) (m : ChoiceM α R a)
    (m' : ChoiceM β R b) : Prop :=
  ∀ c e, (m' (c.map f, e)).2 = (((m (c, e)).2.1).map f, (m (c, e)).2.2) ∧
    OutRel X φ (m (c, e)).1 (m' (c.map f, e)).1

theorem Same.pure {a b : Type} {φ : a → b → Prop} {x : a} {y : b} (h : φ x y) :
    Same (R := R) X f φ (pure x) (pure y) := fun _ _ => ⟨rfl, .ok h⟩

theorem Same.bind {a b a' b' : Type} {φ : a → b → Prop} {ψ : a' → b' → Prop} {m : ChoiceM α R a}
    {m' : ChoiceM β R b} {k : a → ChoiceM α R a'} {k' : b → ChoiceM β R b'} (h : Same X f φ m m')
    (hk : ∀ x y, φ x y → Same X f ψ (k x) (k' y)) : Same X f ψ (m >>= k) (m' >>= k') := by
  intro c e
  have h1 := h c e
  rw [PyM.bind_apply, PyM.bind_apply]
  rcases hm : m (c, e) with ⟨r, c1, e1⟩
  rcases hm' : m' (c.map f, e) with ⟨r', s'⟩
  rw [hm, hm'] at h1
  obtain ⟨h2, h3⟩ := h1
  dsimp only at h2 h3
  subst h2
  cases h3 with
  | ok h => exact hk _ _ h c1 e1
  | error h => exact ⟨rfl, .error h⟩

theorem Same.self : Same (R := R) X f (fun c c' => c' = c.map f) self self :=
  fun _ _ => ⟨rfl, .ok rfl⟩

theorem Same.upd {g : ChoiceSt α R → ChoiceSt α R} {g' : ChoiceSt β R → ChoiceSt β R}
    (h : ∀ c, g' (c.map f) = (g c).map f) :
    Same X f (fun _ _ => True) (upd g) (upd g') := by
  intro c e
  refine ⟨?_, .ok trivial⟩
  change (g' (c.map f), e) = _
  rw [h]; rfl

theorem Same.onRng (hX : ∀ e, X e e) {a : Type} (m : PyM R.G a) :
    Same X f (· = ·) (onRng m) (onRng m) := by
  intro c e
  have h1 : Choice.onRng m (c, e) =
    ((m c.rng).1, ({ c with rng := (m c.rng).2 }, e)) := rfl
  have h2 : Choice.onRng m (c.map f, e) =
    ((m c.rng).1, ({ c.map f with rng := (m c.rng).2 }, e)) := rfl
  rw [h1, h2]
  refine ⟨rfl, ?_⟩
  dsimp only
  rcases (m c.rng).1 with r | r
  · exact .error (hX _)
  · exact .ok rfl

theorem Same.newRng (hX : ∀ e, X e e) (s : Option Int) :
    Same (R := R) X f (fun _ _ => True) (newRng s) (newRng s) := by
  intro c e
  unfold Choice.newRng
  dsimp only
  rcases R.new s e with ⟨r | r, g⟩
  · exact ⟨rfl, .error (hX _)⟩
  · exact ⟨rfl, .ok trivial⟩

theorem Same.lift {a b : Type} {φ : a → b → Prop} {x : Py a} {y : Py b} (h : OutRel X φ x y) :
    Same (R := R) X f φ (PyM.lift x) (PyM.lift y) := fun _ _ => ⟨rfl, h⟩

theorem Same.raise {a b : Type} {φ : a → b → Prop} {x y : Err} (h : X x y) :
    Same (R := R) X f φ (PyM.raise x) (PyM.raise y) := fun _ _ => ⟨rfl, .error h⟩

theorem pick_map (f : α → β) (l : List α) (ps : List Nat) :
    pick (l.map f) ps = (pick l ps).map f := by
  unfold pick
  rw [List.map_filterMap]
  congr 1
  funext i
  simp

theorem Same.globalShuffle (hX : ∀ e, X e e) :
    Same (R := R) X f (fun _ _ => True) globalShuffle globalShuffle := by
  refine .bind .self fun c c' hc => ?_
  subst hc
  dsimp only [ChoiceSt.map]
  rw [List.length_map]
  refine .bind (.onRng hX _) fun ps ps' h => ?_
  subst h
  exact .upd fun c => by simp [ChoiceSt.map, pick_map]

theorem Same.unlessReplace (hX : ∀ e, X e e) (b : Bool) :
    Same (R := R) X f (fun _ _ => True) (if ¬ b then Choice.globalShuffle else Pure.pure ⟨⟩)
      (if ¬ b then Choice.globalShuffle else Pure.pure ⟨⟩) := by
  split
  · exact .globalShuffle hX
  · exact .pure trivial

theorem Same.reset (hX : ∀ e, X e e) :
    Same (R := R) X f (fun _ _ => True) reset reset := by
  refine .bind .self fun c c' hc => ?_
  subst hc
  exact .bind (.newRng hX _) fun _ _ _ => .unlessReplace hX _

theorem Same.seed (hX : ∀ e, X e e) (s : Option Int) :
    Same (R := R) X f (fun _ _ => True) (seed s) (seed s) := by
  refine .bind (.upd fun c => rfl) fun _ _ _ => .bind (.newRng hX _) fun _ _ _ => ?_
  refine .bind .self fun c c' hc => ?_
  subst hc
  exact .unlessReplace hX _

theorem outRel_allWeights (hX : ∀ e, X e e) (items : List α) (ws : Option (List K)) (cum : Bool) :
    OutRel X (· = ·) (allWeights items ws cum) (allWeights (items.map f) ws cum) := by
  unfold allWeights
  rw [List.length_map]
  rcases ws with _ | ws
  · exact .ok rfl
  · dsimp only
    split
    · exact .error (hX _)
    · split <;> exact .ok rfl

theorem Same.setWeights (hX : ∀ e, X e e) (ws : Option (List K)) :
    Same (R := R) X f (fun _ _ => True) (setWeights ws) (setWeights ws) := by
  refine .bind .self fun c c' hc => ?_
  subst hc
  refine .bind (.lift (outRel_allWeights hX _ _ _)) fun p p' h => ?_
  subst h
  exact .bind (.upd fun c => rfl) fun _ _ _ => .unlessReplace hX _

theorem Same.setCumWeights (hX : ∀ e, X e e) (ws : Option (List K)) :
    Same (R := R) X f (fun _ _ => True) (setCumWeights ws) (setCumWeights ws) := by
  refine .bind .self fun c c' hc => ?_
  subst hc
  refine .bind (.lift (outRel_allWeights hX _ _ _)) fun p p' h => ?_
  subst h
  exact .bind (.upd fun c => rfl) fun _ _ _ => .unlessReplace hX _

theorem Same.setReplace (hX : ∀ e, X e e) (b : Bool) :
    Same (R := R) X f (fun _ _ => True) (setReplace b) (setReplace b) := by
  refine .bind .self fun c c' hc => ?_
  subst hc
  change Same X f _ (ite (b ≠ c.replace) _ _) (ite (b ≠ c.replace) _ _)
  split
  · refine .bind (.upd fun c => rfl) fun _ _ _ => ?_
    split
    · exact .upd fun c => by simp [ChoiceSt.map]
    · exact .bind (.upd fun c => rfl) fun _ _ _ => .globalShuffle hX
  · exact .pure trivial

theorem Same.setRoac (hX : ∀ e, X e e) (b : Bool) :
    Same (R := R) X f (fun _ _ => True) (setRoac b) (setRoac b) := by
  refine .bind (.upd fun c => rfl) fun _ _ _ => ?_
  split
  · exact .setReplace hX _
  · exact .pure trivial

theorem slice1_map (f : α → β) (l : List α) (a b : Int) :
    pyListSlice1 (l.map f) a b = (pyListSlice1 l a b).map f := by
  unfold pyListSlice1
  simp [List.map_take, List.map_drop]

theorem outRel_get (hX : ∀ e, X e e) (l : List α) (i : Int) :
    OutRel X (fun x y => y = f x) (pyListGet l i) (pyListGet (l.map f) i) := by
  unfold pyListGet
  rw [List.length_map]
  dsimp only
  generalize (if i < 0 then i + (l.length : Int) else i) = j
  by_cases h : j < 0
  · rw [if_pos h, if_pos h]; exact .error (hX _)
  · rw [if_neg h, if_neg h, List.getElem?_map]
    rcases l[j.toNat]? with _ | a
    · exact .error (hX _)
    · exact .ok rfl

theorem Same.shuffledIndex (hX : ∀ e, X e e) :
    Same (R := R) X f (· = ·) shuffledIndex shuffledIndex := by
  refine .bind .self fun c c' hc => ?_
  subst hc
  change Same X f _ _ (match c.shuffledIndex with | some i => _ | none => _)
  rcases c.shuffledIndex with _ | i
  · exact .raise (hX _)
  · exact .pure rfl

variable [PyHash α] [PyHash β]

theorem Same.raiseUniqueness (hX : ∀ e, X e e)
    (hover : ∀ l : List α, X (overAsked l) (overAsked (l.map f))) {a b : Type}
    {φ : a → b → Prop} :
    Same (R := R) X f φ raiseUniquenessViolation raiseUniquenessViolation := by
  refine .bind .self fun c c' hc => ?_
  subst hc
  change Same X f _ (ite (¬ c.replace = true) _ _) (ite (¬ c.replace = true) _ _)
  split
  · refine .bind (.shuffledIndex hX) fun i j h => ?_
    subst h
    refine .raise ?_
    dsimp only [ChoiceSt.map]
    rw [List.length_map, slice1_map]
    exact hover _
  · exact .raise (hover _)

theorem Same.withoutReplacement (hX : ∀ e, X e e)
    (hover : ∀ l : List α, X (overAsked l) (overAsked (l.map f))) (n : Int) :
    Same (R := R) X f (Mapped f) (withoutReplacement n) (withoutReplacement n) := by
  refine .bind .self fun c c' hc => ?_
  subst hc
  change Same X f _ (ite (n > c.numUniqueItems) _ _) (ite (n > c.numUniqueItems) _ _)
  split
  · exact .raiseUniqueness hX hover
  change Same X f _ (ite (¬ c.replace = true) _ _) (ite (¬ c.replace = true) _ _)
  split
  · refine .bind (.shuffledIndex hX) fun i j h => ?_
    subst h
    dsimp only
    split
    · refine .bind (.lift (outRel_get hX _ _)) fun x y h => ?_
      subst h
      exact .bind (.pure (φ := Mapped f) rfl) fun l l' h =>
        .bind (.upd fun c => rfl) fun _ _ _ => .pure h
    · exact .bind (.pure (φ := Mapped f) (slice1_map f _ _ _)) fun l l' h =>
        .bind (.upd fun c => rfl) fun _ _ _ => .pure h
  · simp only [map_items, map_weights, List.length_map]
    rcases c.weights with _ | ws
    · refine .bind (.onRng hX _) fun ps ps' h => ?_
      subst h
      exact .pure (pick_map f _ _)
    · refine .bind (.onRng hX _) fun ps ps' h => ?_
      subst h
      exact .pure (pick_map f _ _)

theorem Same.withReplacement (hX : ∀ e, X e e) (n : Int) :
    Same (R := R) X f (Mapped f) (withReplacement n) (withReplacement n) := by
  refine .bind .self fun c c' hc => ?_
  subst hc
  simp only [map_items, map_weights, map_cumWeights, List.length_map]
  split
  · refine .pure ?_
    simp [Mapped, List.map_flatten]
  split
  · refine .bind (.onRng hX _) fun ps ps' h => ?_
    subst h
    exact .pure (pick_map f _ _)
  · rcases c.cumWeights with _ | ws
    · refine .bind (.onRng hX _) fun ps ps' h => ?_
      subst h
      exact .pure (pick_map f _ _)
    · refine .bind (.onRng hX _) fun ps ps' h => ?_
      subst h
      exact .pure (pick_map f _ _)

theorem Same.emit (hX : ∀ e, X e e)
    (hover : ∀ l : List α, X (overAsked l) (overAsked (l.map f))) :
    Same (R := R) X f (fun x y => y = f x) emit emit := by
  refine .bind .self fun c c' hc => ?_
  subst hc
  change Same X f _ (ite (¬ c.replace = true) _ _) (ite (¬ c.replace = true) _ _)
  split
  · refine .bind (.withoutReplacement hX hover 1) fun l l' h => ?_
    subst h
    exact .lift (outRel_get hX _ _)
  · refine .bind (.withReplacement hX 1) fun l l' h => ?_
    subst h
    exact .lift (outRel_get hX _ _)

theorem Same.emitMany (hX : ∀ e, X e e)
    (hover : ∀ l : List α, X (overAsked l) (overAsked (l.map f))) (n : Int) :
    Same (R := R) X f (Mapped f) (emitMany n) (emitMany n) := by
  refine .bind .self fun c c' hc => ?_
  subst hc
  change Same X f _ (ite (¬ c.replace = true ∨ (c.roac = true ∧ n > 1)) _ _)
    (ite (¬ c.replace = true ∨ (c.roac = true ∧ n > 1)) _ _)
  split
  · exact .withoutReplacement hX hover n
  · exact .withReplacement hX n

theorem Same.call (hX : ∀ e, X e e)
    (hover : ∀ l : List α, X (overAsked l) (overAsked (l.map f))) (n : Option Int) :
    Same (R := R) X f (Mapped f) (call n) (call n) := by
  have h1 : Same (R := R) X f (Mapped f) (do return [← Choice.emit]) (do return [← Choice.emit]) := by
    refine .bind (.emit hX hover) fun x y h => ?_
    subst h
    exact .pure rfl
  rcases n with _ | n
  · exact h1
  · change Same X f _ (ite (n = 1) _ _) (ite (n = 1) _ _)
    split
    · exact h1
    · exact Same.emitMany (R := R) hX hover n

theorem Same.op (hX : ∀ e, X e e)
    (hover : ∀ l : List α, X (overAsked l) (overAsked (l.map f))) (o : ChoiceOp K) :
    Same (R := R) X f (Mapped f) o.run o.run := by
  cases o with
  | call n => exact .call hX hover _
  | setWeights ws => exact .bind (.setWeights hX ws) fun _ _ _ => .pure rfl
  | setCumWeights ws => exact .bind (.setCumWeights hX ws) fun _ _ _ => .pure rfl
  | setReplace b => exact .bind (.setReplace hX b) fun _ _ _ => .pure rfl
  | setRoac b => exact .bind (.setRoac hX b) fun _ _ _ => .pure rfl
  | reset => exact .bind (.reset hX) fun _ _ _ => .pure rfl
  | seed s => exact .bind (.seed hX s) fun _ _ _ => .pure rfl
  | setRngSeed s => exact .bind (.upd fun _ => rfl) fun _ _ _ => .pure rfl

theorem outputs_same (hX : ∀ e, X e e)
    (hover : ∀ l : List α, X (overAsked l) (overAsked (l.map f))) (ops : List (ChoiceOp K)) :
    ∀ (c : ChoiceSt α R) e, List.Forall₂ (OutRel X (Mapped f)) (choiceOutputs ops (c, e))
      (choiceOutputs ops (c.map f, e)) := by
  induction ops with
  | nil => intro c e; exact .nil
  | cons o os ih =>
    intro c e
    have h := Same.op (R := R) hX hover o c e
    refine .cons h.2 ?_
    rw [h.1]
    exact ih _ _

theorem init_same (hX : ∀ e, X e e) (items : List α) (weights : Option (List K))
    (replace roac : Bool) (seed : Option Int) (cum : Option (List K)) (ent : Nat) :
    OutRel X (fun c c' => c' = c.map f)
      (Choice.init (R := R) items weights replace roac seed cum ent).1
      (Choice.init (R := R) (items.map f) weights replace roac seed cum ent).1 ∧
    (Choice.init (R := R) (items.map f) weights replace roac seed cum ent).2 =
      (Choice.init (R := R) items weights replace roac seed cum ent).2 := by
  unfold Choice.init
  rw [List.isEmpty_map]
  split
  · exact ⟨.error (hX _), rfl⟩
  split
  · exact ⟨.error (hX _), rfl⟩
  dsimp only
  have h := outRel_allWeights (f := f) hX items (if truthy weights = true then weights else cum)
    (truthy cum)
  revert h
  generalize allWeights items (if truthy weights = true then weights else cum) (truthy cum) = a
  generalize allWeights (items.map f) (if truthy weights = true then weights else cum)
    (truthy cum) = b
  intro h
  cases h with
  | error h => exact ⟨.error h, rfl⟩
  | @ok x y h =>
    subst h
    obtain ⟨w, cw⟩ := x
    dsimp only
    rw [List.length_map]
    have h1 := Same.reset (R := R) (f := f) hX ⟨items, w, cw, replace || roac, roac, [], none,
      items.length, seed, R.ofSeed 0⟩ ent
    rcases hp : Choice.reset ((⟨items, w, cw, replace || roac, roac, [], none,
      items.length, seed, R.ofSeed 0⟩ : ChoiceSt α R), ent) with ⟨r, c, e⟩
    rcases hq : Choice.reset ((⟨items.map f, w, cw, replace || roac, roac, [], none,
      items.length, seed, R.ofSeed 0⟩ : ChoiceSt β R), ent) with ⟨r', s'⟩
    rw [show ChoiceSt.map f ⟨items, w, cw, replace || roac, roac, [], none, items.length, seed,
      R.ofSeed 0⟩ = (⟨items.map f, w, cw, replace || roac, roac, [], none,
      items.length, seed, R.ofSeed 0⟩ : ChoiceSt β R) from rfl, hp, hq] at h1
    obtain ⟨h1, h2⟩ := h1
    dsimp only at h1 h2
    subst h1
    cases h2 with
    | error h => exact ⟨.error h, rfl⟩
    | ok h => exact ⟨.ok rfl, rfl⟩

end Choice

open Choice

theorem program_same [PyHash α] [PyHash β] {X : Err → Err → Prop} {f : α → β} (hX : ∀ e, X e e)
    (hover : ∀ l : List α, X (overAsked l) (overAsked (l.map f))) (items : List α)
    (weights : Option (List K)) (replace roac : Bool) (seed : Option Int) (cum : Option (List K))
    (ops : List (ChoiceOp K)) (ent : Nat) :
    OutRel X (List.Forall₂ (OutRel X (fun l l' => l' = l.map f)))
      (choiceProgram R items weights replace roac seed cum ops ent)
      (choiceProgram R (items.map f) weights replace roac seed cum ops ent) := by
  have h := init_same (R := R) (f := f) hX items weights replace roac seed cum ent
  unfold choiceProgram
  revert h
  generalize Choice.init (R := R) items weights replace roac seed cum ent = p
  generalize Choice.init (R := R) (items.map f) weights replace roac seed cum ent = q
  obtain ⟨r, e⟩ := p
  obtain ⟨r', e'⟩ := q
  rintro ⟨h1, h2⟩
  dsimp only at h1 h2
  subst h2
  cases h1 with
  | error h => exact .error h
  | ok h => subst h; exact .ok (outputs_same hX hover ops _ _)

/-- **C83.** Whatever a program does with a `Choice`: over other items in the same places, the same
operations succeed, and emit the items in the same places.  Nothing is assumed about the items; they
may be equal to each other or not comparable at all. -/
theorem C83_places [PyHash α] [PyHash β] (f : α → β) (items : List α)
    (weights : Option (List K)) (replace roac : Bool) (seed : Option Int) (cum : Option (List K))
    (ops : List (ChoiceOp K)) (ent : Nat) :
    OutRel (fun _ _ => True) (List.Forall₂ (OutRel (fun _ _ => True) (fun l l' => l' = l.map f)))
      (choiceProgram R items weights replace roac seed cum ops ent)
      (choiceProgram R (items.map f) weights replace roac seed cum ops ent) :=
  program_same (fun _ => trivial) (fun _ => trivial) ..

/-- ... with the same exceptions, if hashable items take the place of hashable items. -/
theorem C83_places_exact [PyHash α] [PyHash β] (f : α → β)
    (hf : ∀ x, PyHash.hashable (f x) = PyHash.hashable x) (items : List α)
    (weights : Option (List K)) (replace roac : Bool) (seed : Option Int) (cum : Option (List K))
    (ops : List (ChoiceOp K)) (ent : Nat) :
    choiceProgram R (items.map f) weights replace roac seed cum ops ent =
      (choiceProgram R items weights replace roac seed cum ops ent).map
        (List.map (Except.map (List.map f))) := by
  have h := program_same (R := R) (X := Eq) (f := f) (fun _ => rfl) (fun l => by
    unfold overAsked allHashable
    rw [List.all_map]
    simp [Function.comp_def, hf]) items weights replace roac seed cum ops ent
  revert h
  generalize choiceProgram R items weights replace roac seed cum ops ent = p
  generalize choiceProgram R (items.map f) weights replace roac seed cum ops ent = q
  intro h
  cases h with
  | error h => subst h; rfl
  | @ok l l' h =>
    change _ = Except.ok _
    rw [Except.ok.injEq]
    induction h with
    | nil => rfl
    | cons h _ ih =>
      rw [ih, List.map_cons]
      cases h with
      | error h => subst h; rfl
      | ok h => subst h; rfl

theorem finRange_map_get (l : List α) : (List.finRange l.length).map l.get = l := by
  apply List.ext_getElem
  · simp
  · intro i h1 h2; simp

/-- Positions are hashable. -/
instance (n : Nat) : PyHash (Fin n) := ⟨fun _ => true⟩

/-- **C83.** A program with a `Choice` is the same program with a choice among positions, followed by
looking up the items. -/
theorem C83_positions [PyHash α] (items : List α) (weights : Option (List K)) (replace roac : Bool)
    (seed : Option Int) (cum : Option (List K)) (ops : List (ChoiceOp K)) (ent : Nat) :
    OutRel (fun _ _ => True)
      (List.Forall₂ (OutRel (fun _ _ => True) (fun ps vs => vs = ps.map items.get)))
      (choiceProgram R (List.finRange items.length) weights replace roac seed cum ops ent)
      (choiceProgram R items weights replace roac seed cum ops ent) := by
  have h := C83_places (R := R) items.get (List.finRange items.length) weights replace roac seed cum
    ops ent
  rwa [finRange_map_get] at h

/-- ... and the exceptions are those of the choice among positions, if the items are hashable. -/
theorem C83_positions_exact [PyHash α] (items : List α)
    (hh : ∀ x ∈ items, PyHash.hashable x = true) (weights : Option (List K)) (replace roac : Bool)
    (seed : Option Int) (cum : Option (List K)) (ops : List (ChoiceOp K)) (ent : Nat) :
    choiceProgram R items weights replace roac seed cum ops ent =
      (choiceProgram R (List.finRange items.length) weights replace roac seed cum ops ent).map
        (List.map (Except.map (List.map items.get))) := by
  have h := C83_places_exact (R := R) items.get (fun i => hh _ (List.get_mem _ _))
    (List.finRange items.length) weights replace roac seed cum ops ent
  rwa [finRange_map_get] at h

/-- **C83.** Two choices with equally many items (and equal settings) pick the same positions in
every program. -/
theorem C83_two_choices [PyHash α] [PyHash β] {n : Nat} (items : List α) (items' : List β)
    (hn : items.length = n) (hn' : items'.length = n) (weights : Option (List K))
    (replace roac : Bool) (seed : Option Int) (cum : Option (List K)) (ops : List (ChoiceOp K))
    (ent : Nat) :
    ∃ picks : Except Err (List (Except Err (List (Fin n)))),
      OutRel (fun _ _ => True) (List.Forall₂ (OutRel (fun _ _ => True)
        (fun ps vs => vs = ps.map fun i => items.get (i.cast hn.symm)))) picks
        (choiceProgram R items weights replace roac seed cum ops ent) ∧
      OutRel (fun _ _ => True) (List.Forall₂ (OutRel (fun _ _ => True)
        (fun ps vs => vs = ps.map fun i => items'.get (i.cast hn'.symm)))) picks
        (choiceProgram R items' weights replace roac seed cum ops ent) := by
  subst hn
  refine ⟨choiceProgram R (List.finRange items.length) weights replace roac seed cum ops ent,
    C83_positions items .., ?_⟩
  have h := C83_places (R := R) (fun i : Fin items.length => items'.get (i.cast hn'.symm))
    (List.finRange items.length) weights replace roac seed cum ops ent
  rwa [show (List.finRange items.length).map (fun i => items'.get (i.cast hn'.symm)) = items' by
    apply List.ext_getElem
    · simp [hn']
    · intro i h1 h2; simp] at h

/-- `Choice('aab', weights=[1, 2, 1], replace=False, rng_seed=3)`: two values, a change of weights,
one value, too many values. -/
example : choiceProgram demoRng ['a', 'a', 'b'] (some [1, 2, 1]) false false (some 3) none
    [.call (some 2), .setWeights (some [5, 1, 1]), .call none, .call (some 3)] 0 =
    .ok [.ok ['a', 'b'], .ok [], .ok ['a'], .error .valueError] := by decide +kernel

/-- The positions behind that. -/
example : choiceProgram demoRng (List.finRange 3) (some [1, 2, 1]) false false (some 3) none
    [.call (some 2), .setWeights (some [5, 1, 1]), .call none, .call (some 3)] 0 =
    .ok [.ok [1, 2], .ok [], .ok [0], .error .valueError] := by decide +kernel

/-- Items that cannot be hashed: the same values, another exception. -/
example : choiceProgram demoRng [Val.list [], .list [.none], .int 1] (some [1, 2, 1]) false false
    (some 3) none [.call (some 2), .setWeights (some [5, 1, 1]), .call none, .call (some 3)] 0 =
    .ok [.ok [.list [.none], .int 1], .ok [], .ok [.list []], .error .typeError] := by
  decide +kernel

end Fauxdoc
