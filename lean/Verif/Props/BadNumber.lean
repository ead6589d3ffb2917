import Verif.Props.Heap2
import Verif.Spec.WorldDemo
/-
C76: calling an emitter with a number that is neither `None` nor an integer.
-/
set_option linter.unusedSectionVars false
namespace Fauxdoc
open PyM World
variable {K : Type} [Field K] [LinearOrder K] [FloorRing K] {R : Rng K}

/-- `v` is no number of values: neither `None` nor an integer (a bool is an integer). -/
def Val.NoNumber : Val → Prop
  | .str _ | .list _ | .tuple _ | .other _ => True
  | .none | .bool _ | .int _ => False

theorem Val.NoNumber.spec {v : Val} (h : v.NoNumber) : v ≠ .none ∧ v.asInt = Option.none := by
  cases v <;> first | exact h.elim | exact ⟨by simp, rfl⟩

theorem emitterCallOr_bad {σ : Type} {b : Val → PyM σ Val} {e : PyM σ Val}
    {m : Int → PyM σ (List Val)} {v : Val} (h : v.NoNumber) :
    emitterCallOr b e m (some v) = b v := by
  cases v <;> first | exact h.elim | rfl

/-- Who refuses the number: the emitter that is asked first.  `Static` and `Choice` (if it
has no weights, or a positive total of weights) raise `TypeError`, `Iterative` and `Sequential` `ValueError`; `Word`, `Text`, `WrapOne` and `WrapMany` pass
the number on to their first child; `CopyFields` and a `WrapMany` without sources raise
`TypeError`. -/
inductive Refusal (w : World R) : Ref → Err → Prop
  | static {r : Ref} : (w.obj r).node = some .static → Refusal w r .typeError
  | choice {r : Ref} {k : ItemsKind} : (w.obj r).node = some (.choice k) →
      (∀ cum, (w.obj r).choice.cumWeights = some cum → cum.length = (w.obj r).choice.items.length ∧
        ∃ t, cum.getLast? = some t ∧ 0 < t) → Refusal w r .typeError
  | iterative {r : Ref} : (w.obj r).node = some .iterative → Refusal w r .valueError
  | sequential {r : Ref} {k : ItemsKind} : (w.obj r).node = some (.sequential k) →
      Refusal w r .valueError
  | word {r l a : Ref} {e : Err} : (w.obj r).node = some (.word l a) → Refusal w l e → Refusal w r e
  | text {r n wd s : Ref} {e : Err} : (w.obj r).node = some (.text n wd s) → Refusal w n e →
      Refusal w r e
  | wrapOne {r s : Ref} {cb : Callback R.G} {e : Err} : (w.obj r).node = some (.wrapOne s) →
      (w.obj r).wrapper = some cb → Refusal w s e → Refusal w r e
  | wrapNone {r : Ref} {cb : Callback R.G} : (w.obj r).node = some (.wrapMany []) →
      (w.obj r).wrapper = some cb → Refusal w r .typeError
  | wrapMany {r s : Ref} {k : String} {ss : Dict Ref} {cb : Callback R.G} {e : Err} :
      (w.obj r).node = some (.wrapMany ((k, s) :: ss)) → (w.obj r).wrapper = some cb →
      Refusal w s e → Refusal w r e
  | copy {r f : Ref} {fs : List Ref} {single : Bool} {sep : Option (List Char)} :
      (w.obj r).node = some (.copyFields (f :: fs) single sep) → Refusal w r .typeError

theorem CopyFields.emit_ok {σ : Type} (str : Val → List Char) {g : SourceGroup σ}
    (sep : Option (List Char)) (hg : g.fields ≠ []) (s : σ) :
    ∃ v, CopyFields.emit str g sep s = (.ok v, s) := by
  unfold CopyFields.emit
  rw [run_get_bind]
  rcases hf : g.fields with _ | ⟨f, fs⟩
  · exact absurd hf hg
  by_cases h1 : g.singleValued s = true
  · rw [if_pos h1]; exact ⟨_, rfl⟩
  · rw [if_neg h1]
    rcases sep with _ | sp
    · dsimp only
      by_cases h2 : (CopyFields.collect s [] (f :: fs)).isEmpty = true
      · rw [if_pos h2]; exact ⟨_, rfl⟩
      · rw [if_neg h2]; exact ⟨_, rfl⟩
    · exact ⟨_, rfl⟩

/-- C76: the exception is that of the emitter which is asked first, and nothing changes anywhere. -/
theorem C76_refused {w : World R} {r : Ref} {e : Err} (h : Refusal w r e) (str : Val → List Char)
    {v : Val} (hv : v.NoNumber) :
    ∃ depth, ∀ fuel, depth ≤ fuel → call str fuel r (some v) w = (.error e, w) := by
  induction h with
  | static hn =>
    refine ⟨1, fun fuel hf => ?_⟩
    obtain ⟨n, rfl⟩ := Nat.exists_eq_add_of_le' hf
    unfold call
    rw [run_get_bind, hn]
    change staticChild _ (some v) w = _
    unfold staticChild emitterCall
    rw [emitterCallOr_bad hv]; rfl
  | choice hn hd =>
    refine ⟨1, fun fuel hf => ?_⟩
    obtain ⟨n, rfl⟩ := Nat.exists_eq_add_of_le' hf
    unfold call
    rw [run_get_bind, hn]
    change onChoice _ (Choice.child (some v)) w = _
    obtain ⟨e, _, h1, h2⟩ := Choice.emitBad_run v (w.obj _).choice
    have h3 : Choice.child (R := R) (some v) = Choice.emitBad v := emitterCallOr_bad hv
    rw [h2 hd] at h1
    unfold onChoice
    rw [h3, h1]
    dsimp only
    refine Prod.ext rfl ?_
    rcases w with ⟨obj, nx, en⟩
    unfold upd
    dsimp only
    congr 1
    funext x
    split_ifs with hx
    · rw [hx]
    · rfl
  | iterative hn =>
    refine ⟨1, fun fuel hf => ?_⟩
    obtain ⟨n, rfl⟩ := Nat.exists_eq_add_of_le' hf
    unfold call
    rw [run_get_bind, hn]
    change iterChild _ (some v) w = _
    unfold iterChild
    rw [emitterCallOr_bad hv]; rfl
  | sequential hn =>
    refine ⟨1, fun fuel hf => ?_⟩
    obtain ⟨n, rfl⟩ := Nat.exists_eq_add_of_le' hf
    unfold call
    rw [run_get_bind, hn]
    change seqChild _ (some v) w = _
    unfold seqChild
    rw [emitterCallOr_bad hv]; rfl
  | @word r l a e hn _ ih =>
    obtain ⟨d, hd⟩ := ih
    refine ⟨d + 1, fun fuel hf => ?_⟩
    obtain ⟨n, rfl⟩ := Nat.exists_eq_add_of_le' (show 1 ≤ fuel by omega)
    unfold call
    rw [run_get_bind, hn]
    change Word.call _ _ (some v) w = _
    unfold Word.call
    rw [emitterCallOr_bad hv]
    exact bind_err (hd n (by omega))
  | @text r nw wd s e hn _ ih =>
    obtain ⟨d, hd⟩ := ih
    refine ⟨d + 1, fun fuel hf => ?_⟩
    obtain ⟨n, rfl⟩ := Nat.exists_eq_add_of_le' (show 1 ≤ fuel by omega)
    unfold call
    rw [run_get_bind, hn]
    change Text.call _ _ _ (some v) w = _
    unfold Text.call
    rw [emitterCallOr_bad hv]
    exact bind_err (hd n (by omega))
  | wrapOne hn hw _ ih =>
    obtain ⟨d, hd⟩ := ih
    refine ⟨d + 1, fun fuel hf => ?_⟩
    obtain ⟨n, rfl⟩ := Nat.exists_eq_add_of_le' (show 1 ≤ fuel by omega)
    rw [call_wrapOne str n (some v) hn hw]
    unfold WrapOne.call
    rw [emitterCallOr_bad hv]
    exact bind_err (hd n (by omega))
  | wrapNone hn hw =>
    refine ⟨1, fun fuel hf => ?_⟩
    obtain ⟨n, rfl⟩ := Nat.exists_eq_add_of_le' hf
    rw [call_wrapMany str n (some v) hn hw]
    unfold WrapMany.call
    rw [emitterCallOr_bad hv]; rfl
  | wrapMany hn hw _ ih =>
    obtain ⟨d, hd⟩ := ih
    refine ⟨d + 1, fun fuel hf => ?_⟩
    obtain ⟨n, rfl⟩ := Nat.exists_eq_add_of_le' (show 1 ≤ fuel by omega)
    rw [call_wrapMany str n (some v) hn hw]
    unfold WrapMany.call
    rw [emitterCallOr_bad hv]
    exact bind_err (bind_err (bind_err (hd n (by omega))))
  | @copy r f fs single sep hn =>
    refine ⟨1, fun fuel hf => ?_⟩
    obtain ⟨n, rfl⟩ := Nat.exists_eq_add_of_le' hf
    rw [call_copyFields str n (some v) hn]
    unfold CopyFields.call
    rw [emitterCallOr_bad hv]
    obtain ⟨x, hx⟩ := CopyFields.emit_ok str (g := group str n w (f :: fs) single) sep
      (by simp [group, sourceGroup]) w
    exact bind_ok hx

/-- C76: `BasedOnFields` applies its action before it looks at the number. -/
theorem C76_based_on {w : World R} {r : Ref} {src : List Ref} {single : Bool} {cb : Callback R.G}
    (hn : (w.obj r).node = some (.basedOn src single)) (hw : (w.obj r).wrapper = some cb)
    (str : Val → List Char) (fuel : Nat) {v : Val} (hv : v.NoNumber) :
    call str (fuel + 1) r (some v) w =
      match call str (fuel + 1) r none w with
      | (.ok _, t) => (.error .typeError, t)
      | (.error e, t) => (.error e, t) := by
  rw [call_basedOn str fuel (some v) hn hw, call_basedOn str fuel none hn hw]
  unfold BasedOnFields.call
  rw [emitterCallOr_bad hv]
  change CopyFields.emitBad _ v w = match BasedOnFields.emit _ _ _ w with
    | (.ok _, t) => (.error .typeError, t)
    | (.error e, t) => (.error e, t)
  unfold CopyFields.emitBad
  rw [bind_apply]
  rcases BasedOnFields.emit (rngAttr r) (group str fuel w src single) cb w with ⟨_ | _, _⟩ <;> rfl

theorem bind_raise_isErr {σ α β : Type} (m : PyM σ α) (x : Err) (s : σ) :
    ∃ e, ((m >>= fun _ => raise x : PyM σ β) s).1 = .error e := by
  rw [bind_apply]
  rcases m s with ⟨_ | _, _⟩ <;> exact ⟨_, rfl⟩

/-- C76: whatever the object, its state, its children and the recursion limit, such a call returns
nothing. -/
theorem C76_never (str : Val → List Char) (fuel : Nat) (r : Ref) {v : Val} (hv : v.NoNumber)
    (w : World R) : ∃ e, (call str fuel r (some v) w).1 = .error e := by
  cases fuel with
  | zero => exact ⟨_, rfl⟩
  | succ n =>
    unfold call
    rw [run_get_bind]
    rcases hn : (w.obj r).node with _ | node
    · exact ⟨_, rfl⟩
    · cases node with
      | choice k =>
        change ∃ e, (onChoice r (Choice.child (some v)) w).1 = _
        obtain ⟨e, _, h1, _⟩ := Choice.emitBad_run v (w.obj r).choice
        have h3 : Choice.child (R := R) (some v) = Choice.emitBad v := emitterCallOr_bad hv
        unfold onChoice
        rw [h3, h1]
        exact ⟨e, rfl⟩
      | static =>
        change ∃ e, (staticChild r (some v) w).1 = _
        unfold staticChild emitterCall; rw [emitterCallOr_bad hv]; exact ⟨_, rfl⟩
      | iterative =>
        change ∃ e, (iterChild r (some v) w).1 = _
        unfold iterChild; rw [emitterCallOr_bad hv]; exact ⟨_, rfl⟩
      | sequential k =>
        change ∃ e, (seqChild r (some v) w).1 = _
        unfold seqChild; rw [emitterCallOr_bad hv]; exact ⟨_, rfl⟩
      | word l a =>
        change ∃ e, (Word.call _ _ (some v) w).1 = _
        unfold Word.call; rw [emitterCallOr_bad hv]; exact bind_raise_isErr _ _ _
      | text a b c =>
        change ∃ e, (Text.call _ _ _ (some v) w).1 = _
        unfold Text.call; rw [emitterCallOr_bad hv]; exact bind_raise_isErr _ _ _
      | wrapOne s =>
        dsimp only
        rcases (w.obj r).wrapper with _ | cb
        · exact ⟨_, rfl⟩
        · dsimp only
          unfold WrapOne.call; rw [emitterCallOr_bad hv]; exact bind_raise_isErr _ _ _
      | wrapMany ss =>
        dsimp only
        rcases (w.obj r).wrapper with _ | cb
        · exact ⟨_, rfl⟩
        · dsimp only
          unfold WrapMany.call; rw [emitterCallOr_bad hv]; exact bind_raise_isErr _ _ _
      | copyFields src single sep =>
        change ∃ e, (CopyFields.call _ _ _ (some v) w).1 = _
        unfold CopyFields.call; rw [emitterCallOr_bad hv]; exact bind_raise_isErr _ _ _
      | basedOn src single =>
        dsimp only
        rcases (w.obj r).wrapper with _ | cb
        · exact ⟨_, rfl⟩
        · dsimp only
          unfold BasedOnFields.call; rw [emitterCallOr_bad hv]; exact bind_raise_isErr _ _ _
      | field => exact ⟨_, rfl⟩

/-! ### Concrete cases -/

/-- `lambda **kw: list(kw.values())`. -/
def listOfValues : Callback Nat where
  sig := some [⟨"kw", .varKw, false⟩]
  run _ kw := .ok (.list (kw.map (·.2)))
  runRng _ _ := raise .typeError

/-- A wrapper (5) of words (4) whose lengths (2) are 1, 2, 1, 2, ... -/
def badWorld : World demoRng := ((do
  let a ← World.newChoice .list [.str ['x'], .str ['y']] none true false (some 1) none
  let _ ← World.newStatic (.int 2)
  let l ← World.newSequential .list [.int 1, .int 2] false
  let k ← World.newStatic (.int 3)
  let wd ← World.newWord 5 l a (some 2)
  let _ ← World.newWrapMany demoStr 5 [("v", wd), ("k", k)]
    listOfValues (some 3)
  return ()) emptyWorld).2

/-- `wrap('3')`: the lengths refuse the number. -/
example : Refusal badWorld 5 .valueError := by
  obtain ⟨cb, h⟩ : ∃ cb, (badWorld.obj 5).wrapper = some cb :=
    Option.isSome_iff_exists.1 (by decide +kernel)
  refine .wrapMany (k := "v") (s := 4) (ss := [("k", 3)]) (by decide +kernel) h ?_
  exact .word (l := 2) (a := 0) (by decide +kernel) (.sequential (k := .list) (by decide +kernel))

example : (call demoStr 5 5 (some (.str ['3'])) badWorld).1 = .error .valueError ∧
    (call demoStr 5 5 (some (.int 3)) badWorld).1.isOk = true := by decide +kernel

/-- The emitter 16 of `demoWorld` is based on a field. -/
example : (call demoStr 5 16 (some (.str ['3'])) demoWorld).1 = .error .typeError := by
  decide +kernel

end Fauxdoc
