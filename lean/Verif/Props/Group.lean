import Verif.Model.Group
import Verif.Model.Warn
import Mathlib.Logic.Function.Basic
/-
Properties C58 (group operations) and C59 (deprecated attributes).
-/
namespace Fauxdoc
namespace Group
variable {σ ι : Type}

/-- What `do_method` is documented to do, as a big-step relation: `Sweep run ms s r s'` says that
visiting the members `ms` from state `s` ends with outcome `r` in state `s'`, where every member is
visited once and in order, `None` members and `AttributeError`s are skipped, and any other exception
stops the sweep. -/
inductive Sweep (run : ι → σ → Except Err Unit × σ) :
    List (Option ι) → σ → Except Err Unit → σ → Prop
  | done (s : σ) : Sweep run [] s (.ok ()) s
  | skipNone {ms : List (Option ι)} {s s' : σ} {r : Except Err Unit} (h : Sweep run ms s r s') :
      Sweep run (none :: ms) s r s'
  | ran {i : ι} {ms : List (Option ι)} {s s₁ s' : σ} {r : Except Err Unit}
      (hi : run i s = (.ok (), s₁)) (h : Sweep run ms s₁ r s') : Sweep run (some i :: ms) s r s'
  | skipped {i : ι} {ms : List (Option ι)} {s s₁ s' : σ} {r : Except Err Unit}
      (hi : run i s = (.error .attributeError, s₁)) (h : Sweep run ms s₁ r s') :
      Sweep run (some i :: ms) s r s'
  | stopped {i : ι} {ms : List (Option ι)} {s s₁ : σ} {e : Err} (hi : run i s = (.error e, s₁))
      (he : e ≠ .attributeError) : Sweep run (some i :: ms) s (.error e) s₁

/-- **C58 (do_method).** `do_method` does exactly what its documentation says. -/
theorem C58_do_method (ms : List (Option ι)) (run : ι → PyM σ Unit) (s s' : σ)
    (r : Except Err Unit) : doMethod ms run s = (r, s') ↔ Sweep run ms s r s' := by
  induction ms generalizing s with
  | nil =>
    constructor
    · intro h; cases h; exact .done _
    · intro h; cases h; rfl
  | cons m ms ih =>
    cases m with
    | none =>
      constructor
      · intro h; exact .skipNone ((ih s).1 h)
      · intro h
        cases h with
        | skipNone h => exact (ih s).2 h
    | some i =>
      have step : doMethod (some i :: ms) run s =
          match run i s with
          | (.ok _, s₁) => doMethod ms run s₁
          | (.error e, s₁) => if e = .attributeError then doMethod ms run s₁ else (.error e, s₁) := by
        change (PyM.ignoring .attributeError (run i) >>= fun _ => doMethod ms run) s = _
        rw [PyM.bind_apply]
        unfold PyM.ignoring
        rcases run i s with ⟨e | u, s₁⟩
        · dsimp only
          by_cases he : e = .attributeError
          · rw [if_pos he, if_pos he]
          · rw [if_neg he, if_neg he]
        · rfl
      rw [step]
      rcases hi : run i s with ⟨e | u, s₁⟩
      · dsimp only
        by_cases he : e = .attributeError
        · subst he
          rw [if_pos rfl]
          constructor
          · intro h; exact .skipped hi ((ih s₁).1 h)
          · intro h
            cases h with
            | ran hi' _ => rw [hi] at hi'; cases hi'
            | skipped hi' h => rw [hi] at hi'; cases hi'; exact (ih s₁).2 h
            | stopped hi' he => rw [hi] at hi'; cases hi'; exact absurd rfl he
        · rw [if_neg he]
          constructor
          · intro h; cases h; exact .stopped hi he
          · intro h
            cases h with
            | ran hi' _ => rw [hi] at hi'; cases hi'
            | skipped hi' h => rw [hi] at hi'; cases hi'; exact absurd rfl he
            | stopped hi' he' => rw [hi] at hi'; cases hi'; rfl
      · dsimp only
        constructor
        · intro h; exact .ran hi ((ih s₁).1 h)
        · intro h
          cases h with
          | ran hi' h => rw [hi] at hi'; cases hi'; exact (ih s₁).2 h
          | skipped hi' h => rw [hi] at hi'; cases hi'
          | stopped hi' he' => rw [hi] at hi'; cases hi'

/-- **C58 (do_method never leaks AttributeError).** -/
theorem C58_no_attribute_error (ms : List (Option ι)) (run : ι → PyM σ Unit) (s : σ) :
    (doMethod ms run s).1 ≠ .error .attributeError := by
  have : ∀ s r s', Sweep run ms s r s' → r ≠ .error .attributeError := by
    intro s r s' hr
    induction hr with
    | done => simp
    | skipNone _ ih => exact ih
    | ran _ _ ih => exact ih
    | skipped _ _ ih => exact ih
    | stopped _ he => intro h; cases h; exact he rfl
  intro h
  exact this _ _ _ ((C58_do_method ms run s _ _).1 (Prod.ext h rfl)) rfl

/-- **C58 (do_method reaches everyone).** If every member either runs or raises `AttributeError`,
the sweep succeeds and its effect is that of running all members in order. -/
theorem C58_reaches_all (ms : List (Option ι)) (run : ι → PyM σ Unit)
    (hrun : ∀ i, some i ∈ ms → ∀ s, (run i s).1 = .ok () ∨ (run i s).1 = .error .attributeError)
    (s : σ) :
    doMethod ms run s = (.ok (), (ms.filterMap id).foldl (fun s i => (run i s).2) s) := by
  induction ms generalizing s with
  | nil => rfl
  | cons m ms ih =>
    have ih' := fun s => ih (fun i hi => hrun i (List.mem_cons_of_mem _ hi)) s
    cases m with
    | none => exact ih' s
    | some i =>
      rw [C58_do_method]
      have h2 := (C58_do_method ms run (run i s).2 _ _).1 (ih' (run i s).2)
      rcases hrun i (by simp) s with h | h
      · exact .ran (Prod.ext h rfl) h2
      · exact .skipped (Prod.ext h rfl) h2

theorem setattr_cons (j : ι) (ms : List (Option ι)) (has : ι → σ → Bool) (set : ι → PyM σ Unit)
    (s : σ) : setattr (some j :: ms) has set s =
      if has j s then (set j >>= fun _ => setattr ms has set) s else setattr ms has set s := by
  unfold setattr
  rw [PyM.forEach]
  dsimp only
  rw [bind_assoc, PyM.run_get_bind]
  by_cases h : has j s = true
  · rw [if_pos h, if_pos h]
  · rw [if_neg h, if_neg h]; rfl

/-- **C58 (setattr).** For members that are separate objects (`attr` gives each member's attribute,
`none` if it has no such attribute): afterwards exactly the members of the group that had the
attribute have the new value, and all other objects are unchanged. -/
theorem C58_setattr [DecidableEq ι] {β : Type} (ms : List (Option ι)) (v : β) (s : ι → Option β) :
    ∃ s', setattr ms (fun i s => (s i).isSome)
        (fun i => PyM.modify fun s => Function.update s i (some v)) s = (.ok (), s') ∧
      ∀ i, s' i = if some i ∈ ms ∧ (s i).isSome then some v else s i := by
  induction ms generalizing s with
  | nil => exact ⟨s, rfl, fun i => by simp⟩
  | cons m ms ih =>
    cases m with
    | none =>
      obtain ⟨s', h1, h2⟩ := ih s
      exact ⟨s', h1, fun i => by rw [h2 i]; simp⟩
    | some j =>
      by_cases hj : (s j).isSome = true
      · obtain ⟨s', h1, h2⟩ := ih (Function.update s j (some v))
        refine ⟨s', ?_, fun i => ?_⟩
        · rw [← h1, setattr_cons, if_pos hj]; rfl
        · rw [h2 i]
          by_cases hij : i = j
          · subst hij; simp [hj]
          · rw [Function.update_of_ne hij]; simp [hij]
      · obtain ⟨s', h1, h2⟩ := ih s
        refine ⟨s', ?_, fun i => ?_⟩
        · rw [← h1, setattr_cons, if_neg hj]
        · rw [h2 i]
          by_cases hij : i = j
          · subst hij; simp [hj]
          · simp [hij]

/-- Three members: one lacks the method, one is `None`, one counts. -/
example : doMethod (σ := Nat) [some 0, none, some 1, some 2]
    (fun i s => if i = 1 then (.error .attributeError, s) else (.ok (), s + 10 + i)) 0 =
      (.ok (), 22) := by rfl
/-- A `ValueError` of the second member stops the sweep. -/
example : doMethod (σ := Nat) [some 0, some 1, some 2]
    (fun i s => if i = 1 then (.error .valueError, s) else (.ok (), s + 10 + i)) 0 =
      (.error .valueError, 10) := by rfl

end Group

/-! ### Deprecated attributes -/

/-- **C59 (listed names).** Looking up a listed name returns the listed value and issues exactly one
warning, which names the attribute and the replacement (if there is one). -/
theorem C59_listed {β : Type} (name obj : String) (table : List (String × (Option String × β)))
    (newName : Option String) (v : β) (h : table.lookup name = some (newName, v))
    (ws : List String) :
    ∃ w, getDeprecatedAttr name obj table ws = (.ok v, ws ++ [w]) ∧
      (obj ++ "." ++ name).toList <+: w.toList ∧
      ∀ n, newName = some n → n.toList <:+: w.toList := by
  refine ⟨_, by unfold getDeprecatedAttr; rw [h]; rfl, ?_, ?_⟩
  · refine ⟨(" is deprecated and will be removed in the next major version release." ++
      replaceStr newName).toList, ?_⟩
    simp only [String.toList_append, List.append_assoc]
  · rintro n rfl
    by_cases hn : n = ""
    · subst hn; exact List.nil_infix
    · refine ⟨(obj ++ "." ++ name ++
        " is deprecated and will be removed in the next major version release." ++
        " Please use ").toList, " instead.".toList, ?_⟩
      simp only [replaceStr, hn, if_false, String.toList_append, List.append_assoc]

/-- **C59 (no replacement).** Without a replacement the warning mentions only the deprecation, so it
is the same whether the replacement is missing or empty, and with a replacement it is longer. -/
theorem C59_no_replacement {β : Type} (name obj : String) (table : List (String × (Option String × β)))
    (newName : Option String) (v : β) (h : table.lookup name = some (newName, v))
    (ws : List String) :
    (newName = none ∨ newName = some "" → getDeprecatedAttr name obj table ws = (.ok v, ws ++
      [obj ++ "." ++ name ++ " is deprecated and will be removed in the next major version release."])) ∧
    (∀ n, newName = some n → n ≠ "" → ∃ before after,
      getDeprecatedAttr name obj table ws = (.ok v, ws ++ [obj ++ "." ++ name ++
        " is deprecated and will be removed in the next major version release." ++
        (before ++ n ++ after)])) := by
  unfold getDeprecatedAttr
  rw [h]
  refine ⟨?_, ?_⟩
  · rintro (rfl | rfl) <;>
      simp [replaceStr, PyM.run_modify_bind, PyM.pure_apply]
  · rintro n rfl hn
    refine ⟨" Please use ", " instead.", ?_⟩
    simp [replaceStr, hn, PyM.run_modify_bind, PyM.pure_apply]

/-- **C59 (other names).** Any other name is an `AttributeError` and issues no warning. -/
theorem C59_unlisted {β : Type} (name obj : String) (table : List (String × (Option String × β)))
    (h : table.lookup name = none) (ws : List String) :
    getDeprecatedAttr name obj table ws = (.error .attributeError, ws) := by
  unfold getDeprecatedAttr; rw [h]; rfl

/-- The table of `emitters/wrappers.py` 416-418. -/
example : getDeprecatedAttr "Wrap" "fauxdoc.emitters.wrappers"
    [("Wrap", (some "WrapOne or WrapMany", 7))] [] = (.ok 7,
      ["fauxdoc.emitters.wrappers.Wrap is deprecated and will be removed in the next major " ++
        "version release. Please use WrapOne or WrapMany instead."]) := by rfl
example : getDeprecatedAttr "Old" "m" [("Old", (none, 7))] [] = (.ok 7,
      ["m.Old is deprecated and will be removed in the next major version release."]) := by rfl

end Fauxdoc
