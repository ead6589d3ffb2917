import Verif.Spec.WrapObj
import Verif.Props.Rebind
/-
C111: a wrapper describes its function, and calls it with the generator of its emitter.
-/
namespace Fauxdoc
variable {G : Type}
namespace WrapStore

theorem put_wr (s : WrapStore G) (r x : Nat) (a : WrapAttrs G) :
    (s.put r a).wr x = if x = r then a else s.wr x := rfl

theorem put_put (s : WrapStore G) (r : Nat) (a b : WrapAttrs G) : (s.put r a).put r b = s.put r b := by
  unfold put
  congr 1
  funext x
  dsimp only
  split <;> rfl

/-- What an assignment does, in all cases. -/
theorem setFunction_run (r : Nat) (f : FnObj G) (s : WrapStore G) :
    setFunction r f s = match signatureOf f with
      | .ok ps => (.ok (), s.put r ⟨f, some ps, ps.any fun p => p.name = "rng", (s.wr r).owner⟩)
      | .error .valueError => (.ok (), s.put r ⟨f, none, false, (s.wr r).owner⟩)
      | .error e => (.error e, s.put r { s.wr r with fn := f }) := by
  unfold setFunction
  rw [PyM.run_modify_bind]
  rcases signatureOf f with e | ps
  · cases e <;> first
      | rfl
      | (change (Except.ok (), _) = (_, _)
         dsimp only
         rw [put_wr, if_pos rfl, put_put])
  · change (Except.ok (), _) = (_, _)
    dsimp only
    rw [put_wr, if_pos rfl, put_put]

theorem callable_sig {f : FnObj G} (h : f.Callable) :
    (∃ ps, signatureOf f = .ok ps) ∨ signatureOf f = .error .valueError := by
  cases f with
  | plain cb => cases hs : cb.sig <;> simp [signatureOf, hs]
  | having cb f => cases hs : cb.sig <;> simp [signatureOf, hs]
  | junk => exact h.elim
  | wrapper r => exact .inl ⟨_, rfl⟩

end WrapStore
open WrapStore

/-- **C111.** Assigning a function that can be called always succeeds, whatever happened before: then the
wrapper has this function, and `signature` and `wants_rng` describe it; nothing else changes. -/
theorem C111_assign (r : Nat) (f : FnObj G) (hf : f.Callable) (s : WrapStore G) :
    (setFunction r f s).1 = .ok () ∧ ((setFunction r f s).2.wr r).fn = f ∧
      ((setFunction r f s).2.wr r).Describes ∧
      ((setFunction r f s).2.wr r).owner = (s.wr r).owner ∧
      (setFunction r f s).2.gen = s.gen ∧ ∀ x, x ≠ r → (setFunction r f s).2.wr x = s.wr x := by
  rw [setFunction_run]
  rcases callable_sig hf with ⟨ps, h⟩ | h
  · rw [h]
    refine ⟨rfl, ?_, ?_, ?_, rfl, fun x hx => ?_⟩
    · dsimp only; rw [put_wr, if_pos rfl]
    · dsimp only
      rw [put_wr, if_pos rfl]
      unfold WrapAttrs.Describes
      dsimp only
      rw [h]
      exact ⟨rfl, by simp⟩
    · dsimp only; rw [put_wr, if_pos rfl]
    · dsimp only; rw [put_wr, if_neg hx]
  · rw [h]
    refine ⟨rfl, ?_, ?_, ?_, rfl, fun x hx => ?_⟩
    · dsimp only; rw [put_wr, if_pos rfl]
    · dsimp only
      rw [put_wr, if_pos rfl]
      unfold WrapAttrs.Describes
      dsimp only
      rw [h]
      exact ⟨rfl, rfl⟩
    · dsimp only; rw [put_wr, if_pos rfl]
    · dsimp only; rw [put_wr, if_neg hx]

/-- **C111 (what is left after a failed assignment).** Assigning something that cannot be called raises a
`TypeError`, but it is stored all the same, next to the `signature` and the `wants_rng` of the function
before it.  From then on every call raises a `TypeError` and has no effect. -/
theorem C111_failed (r : Nat) (s : WrapStore G) :
    (setFunction r (.junk : FnObj G) s).1 = .error .typeError ∧
      ((setFunction r (.junk : FnObj G) s).2.wr r) = { s.wr r with fn := .junk } ∧
      ∀ fuel args kwargs, call (fuel + 1) r args kwargs (setFunction r .junk s).2 =
        (.error .typeError, (setFunction r .junk s).2) := by
  rw [setFunction_run]
  refine ⟨rfl, if_pos rfl, fun fuel args kwargs => ?_⟩
  change call (fuel + 1) r args kwargs (s.put r { s.wr r with fn := .junk }) =
    (_, s.put r { s.wr r with fn := .junk })
  unfold call
  split
  · rfl
  · rw [PyM.run_get_bind, put_wr, if_pos rfl]
    dsimp only
    split <;> rfl

/-- **C111.** `BoundWrapper(f, bound_to)`: if `f` has an attribute `function`, then that is what is
wrapped, else `f`.  It fails if this cannot be called; otherwise the wrapper describes it and is bound
to the object. -/
theorem C111_new (r : Nat) (f : FnObj G) (owner : Nat) (s : WrapStore G) :
    let f' := (s.functionOf f).getD f
    ((init r f owner s).1 = .ok () ↔ f'.Callable) ∧
      (∀ x, x ≠ r → (init r f owner s).2.wr x = s.wr x) ∧ (init r f owner s).2.gen = s.gen ∧
      (f'.Callable → ((init r f owner s).2.wr r).fn = f' ∧ ((init r f owner s).2.wr r).Describes ∧
        ((init r f owner s).2.wr r).owner = owner) := by
  intro f'
  have hi : init r f owner s = (setFunction r f' >>= fun _ =>
      PyM.modify fun s => s.put r { s.wr r with owner := owner } : PyM (WrapStore G) Unit) s := by
    unfold init
    rw [PyM.run_get_bind]
  rw [hi, PyM.bind_apply]
  by_cases hf : f'.Callable
  · obtain ⟨h1, h2, h3, h4, h5, h6⟩ := C111_assign r f' hf s
    revert h1 h2 h3 h4 h5 h6
    rcases setFunction r f' s with ⟨e | u, s1⟩
    · intro h1; cases h1
    · intro h1 h2 h3 h4 h5 h6
      refine ⟨⟨fun _ => hf, fun _ => rfl⟩, fun x hx => ?_, h5, fun _ => ⟨?_, ?_, ?_⟩⟩
      · change (if x = r then _ else s1.wr x) = _
        rw [if_neg hx]
        exact h6 x hx
      · change (if r = r then _ else s1.wr r : WrapAttrs G).fn = _
        rw [if_pos rfl]
        exact h2
      · change (if r = r then _ else s1.wr r : WrapAttrs G).Describes
        rw [if_pos rfl]
        exact h3
      · change (if r = r then _ else s1.wr r : WrapAttrs G).owner = _
        rw [if_pos rfl]
  · have hj : f' = .junk := by
      revert hf
      generalize f' = g
      intro hf
      cases g <;> first | rfl | exact absurd trivial hf
    rw [hj, setFunction_run]
    refine ⟨⟨fun h => (by cases h), fun h => h.elim⟩, fun x hx => ?_, rfl, fun h => h.elim⟩
    change (if x = r then _ else s.wr x) = _
    rw [if_neg hx]

theorem call_keeps (fuel r : Nat) (args : List Val) (kwargs : Dict Val) (s : WrapStore G) :
    (WrapStore.call fuel r args kwargs s).2.wr = s.wr := by
  induction fuel generalizing r with
  | zero => rfl
  | succ fuel ih =>
    unfold WrapStore.call
    split
    · rfl
    · rw [PyM.run_get_bind]
      split
      · cases (s.wr r).fn <;> rfl
      · rcases (s.wr r).fn with cb | ⟨cb, f⟩ | _ | r'
        · rfl
        · rfl
        · rfl
        · exact ih r'

/-- **C111.** In every history of wrappers — with functions assigned that can be called and others that
cannot, and constructions that fail — `signature` and `wants_rng` of every wrapper describe its
function, except while the function is something that cannot be called. -/
theorem C111_describes_partial {rs : List Nat} {s : WrapStore G} (h : WrapReach rs s) (r : Nat)
    (hr : r ∈ rs) (hf : (s.wr r).fn.Callable) : (s.wr r).Describes := by
  induction h with
  | start => cases hr
  | @new rs s h r' hr' f _ owner hok ih =>
    obtain ⟨h1, h2, _, h3⟩ := C111_new r' f owner s
    rcases List.mem_cons.1 hr with rfl | hr
    · exact (h3 (h1.1 hok)).2.1
    · have hne : r ≠ r' := fun e => hr' (e ▸ hr)
      rw [h2 r hne] at hf ⊢
      exact ih hr hf
  | @failed rs s h r' hr' f _ owner hok ih =>
    obtain ⟨h1, h2, _, h3⟩ := C111_new r' f owner s
    have hne : r ≠ r' := fun e => hr' (e ▸ hr)
    rw [h2 r hne] at hf ⊢
    exact ih hr hf
  | @assign rs s h r' hr' f _ ih =>
    by_cases hne : r = r'
    · subst hne
      cases f with
      | junk =>
        rw [(C111_failed r s).2.1] at hf
        exact hf.elim
      | plain cb => exact (C111_assign r (.plain cb) trivial s).2.2.1
      | having cb f => exact (C111_assign r (.having cb f) trivial s).2.2.1
      | wrapper x => exact (C111_assign r (.wrapper x) trivial s).2.2.1
    · have he : (setFunction r' f s).2.wr r = s.wr r := by
        cases f with
        | junk => rw [setFunction_run]; exact if_neg hne
        | plain cb => exact (C111_assign r' (.plain cb) trivial s).2.2.2.2.2 r hne
        | having cb f => exact (C111_assign r' (.having cb f) trivial s).2.2.2.2.2 r hne
        | wrapper x => exact (C111_assign r' (.wrapper x) trivial s).2.2.2.2.2 r hne
      rw [he] at hf ⊢
      exact ih hr hf
  | @use rs s h fuel r' _ args kwargs ih =>
    rw [call_keeps] at hf ⊢
    exact ih hr hf

theorem describes_wants {a : WrapAttrs G} {cb : Callback G} (h : a.Describes)
    (hf : a.fn = .plain cb ∨ ∃ f, a.fn = .having cb f) : a.wants = cb.wantsRng := by
  have hs : signatureOf a.fn = match cb.sig with
      | some ps => .ok ps
      | none => .error .valueError := by
    rcases hf with hf | ⟨f, hf⟩ <;> rw [hf] <;> rfl
  unfold WrapAttrs.Describes at h
  rw [hs] at h
  unfold Callback.wantsRng
  cases hc : cb.sig with
  | none => rw [hc] at h; exact h.2
  | some ps =>
    rw [hc] at h
    have := h.2
    rw [Bool.eq_iff_iff, this]
    simp

theorem within_mono {rs : List Nat} (r : Nat) {f : FnObj G} (h : f.Within rs) : f.Within (r :: rs) := by
  induction f with
  | plain cb => trivial
  | junk => trivial
  | having cb f ih => exact ih h
  | wrapper x => exact List.mem_cons_of_mem _ h

theorem functionOf_within {rs : List Nat} {s : WrapStore G} (hs : ∀ r ∈ rs, (s.wr r).fn.Within rs)
    {f : FnObj G} (hf : f.Within rs) : ((s.functionOf f).getD f).Within rs := by
  cases f with
  | plain cb => trivial
  | junk => trivial
  | having cb f => exact hf
  | wrapper x => exact hs x hf

theorem setFunction_fn (r x : Nat) (f : FnObj G) (s : WrapStore G) :
    ((setFunction r f s).2.wr x).fn = if x = r then f else (s.wr x).fn := by
  rw [setFunction_run]
  split <;> · dsimp only; rw [put_wr]; split <;> rfl

/-- Every wrapper refers to existing wrappers only. -/
theorem reach_within {rs : List Nat} {s : WrapStore G} (h : WrapReach rs s) :
    ∀ r ∈ rs, (s.wr r).fn.Within rs := by
  induction h with
  | start => intro r hr; cases hr
  | @new rs s h r' hr' f hf owner hok ih =>
    obtain ⟨h1, h2, _, h3⟩ := C111_new r' f owner s
    intro r hr
    by_cases hne : r = r'
    · subst hne
      rw [(h3 (h1.1 hok)).1]
      exact within_mono _ (functionOf_within ih hf)
    · rw [h2 r hne]
      exact within_mono _ (ih r ((List.mem_cons.1 hr).resolve_left hne))
  | @failed rs s h r' hr' f hf owner hok ih =>
    obtain ⟨h1, h2, _, h3⟩ := C111_new r' f owner s
    intro r hr
    rw [h2 r fun e => hr' (e ▸ hr)]
    exact ih r hr
  | @assign rs s h r' hr' f hf ih =>
    intro r hr
    rw [setFunction_fn]
    split
    · exact hf
    · exact ih r hr
  | @use rs s h fuel r' _ args kwargs ih =>
    intro r hr
    rw [call_keeps]
    exact ih r hr

/-- **C111.** A call of a wrapper is a call of the function at the end of the chain of wrappers, which
gets the generator of the emitter that the *last* wrapper of the chain is bound to, and only if it
declares `rng`.  (`Callback.call` is the call in `Model/Wrappers`, used for `WrapOne` and the others.) -/
theorem C111_call {rs : List Nat} {s : WrapStore G} (h : WrapReach rs s) {r : Nat} {cb : Callback G}
    {i n : Nat} (hs : Serves s r cb i n) (hr : r ∈ rs) (fuel : Nat) (args : List Val) (kwargs : Dict Val) :
    WrapStore.call (fuel + n) r args kwargs s = cb.call (genOf i) args kwargs s := by
  have key : ∀ {r : Nat} {cb : Callback G} {i n : Nat}, Serves s r cb i n →
      (r ∈ rs) → WrapStore.call (fuel + n) r args kwargs s = cb.call (genOf i) args kwargs s := by
    intro r cb i n hs
    induction hs with
    | @plain r cb hf =>
      intro hr'
      have hd := C111_describes_partial h r hr' (by rw [hf]; trivial)
      unfold WrapStore.call Callback.call
      split
      · rfl
      · rw [PyM.run_get_bind]
        rw [describes_wants hd (.inl hf), hf]
    | @having r cb f hf =>
      intro hr'
      have hd := C111_describes_partial h r hr' (by rw [hf]; trivial)
      unfold WrapStore.call Callback.call
      split
      · rfl
      · rw [PyM.run_get_bind]
        rw [describes_wants hd (.inr ⟨f, hf⟩), hf]
    | @wrapper r r' cb i n hf hs' ih =>
      intro hr'
      have hd := C111_describes_partial h r hr' (by rw [hf]; trivial)
      have hw : (s.wr r).wants = false := by
        unfold WrapAttrs.Describes at hd
        rw [hf] at hd
        rw [Bool.eq_false_iff]
        intro hw
        have := hd.2.1 hw
        revert this
        unfold callSig
        simp
      have hin := reach_within h r hr'
      rw [hf] at hin
      have := ih hin
      rw [← this]
      change WrapStore.call ((fuel + n) + 1) r args kwargs s = _
      conv_lhs => unfold WrapStore.call
      split
      · rename_i hself
        rw [this]
        unfold Callback.call
        rw [if_pos hself]
      · rw [PyM.run_get_bind]
        rw [hw, hf]
        rfl
  exact key hs hr

/-- **C111.** A wrapper given to the constructor is rebound: a call of the new one runs the function of
the old one, with the generator of the new emitter, and assigning another function to the old one
later does not change that. -/
theorem C111_rebound {s : WrapStore G} {r r' : Nat} (hne : r ≠ r') {cb : Callback G} (hcb : (s.wr r').fn = .plain cb) (owner : Nat) (g : FnObj G)
    (fuel : Nat) (args : List Val) (kwargs : Dict Val) :
    let s' := (init r (.wrapper r') owner s).2
    WrapStore.call (fuel + 1) r args kwargs s' = cb.call (genOf owner) args kwargs s' ∧
      (WrapStore.call (fuel + 1) r args kwargs (setFunction r' g s').2).1 =
        (cb.call (genOf owner) args kwargs s').1 := by
  intro s'
  obtain ⟨h1, h2, h3, h4⟩ := C111_new r (.wrapper r') owner s
  have hf : (s.functionOf (.wrapper r')).getD (.wrapper r') = .plain cb := hcb
  rw [hf] at h1 h4
  obtain ⟨e1, e2, e3⟩ := h4 trivial
  have key : ∀ t : WrapStore G, t.wr r = s'.wr r →
      WrapStore.call (fuel + 1) r args kwargs t = cb.call (genOf owner) args kwargs t := by
    intro t ht
    unfold WrapStore.call Callback.call
    split
    · rfl
    · rw [PyM.run_get_bind, ht, describes_wants e2 (.inl e1), e1, e3]
  refine ⟨key s' rfl, ?_⟩
  have hw : (setFunction r' g s').2.wr r = s'.wr r := by
    rw [setFunction_run]
    split <;> exact if_neg hne
  have hg : (setFunction r' g s').2.gen = s'.gen := by
    rw [setFunction_run]
    split <;> rfl
  rw [key _ hw]
  unfold Callback.call
  split
  · rfl
  · split
    · change (cb.invokeRng args kwargs ((setFunction r' g s').2.gen owner)).1 = _
      rw [hg]
      rfl
    · rfl

/-! ### Where it fails -/

/-- Wrappers 0 (of the emitter 0) and 1 (of the emitter 1), both with a function that wants `rng`; the
generators are at 7 and 40. -/
def twoWrappers : WrapStore Nat := (init 1 (.plain tagWithRng) 1 (init 0 (.plain tagWithRng) 0
  ⟨fun _ => ⟨.junk, none, false, 0⟩, fun i => if i = 0 then 7 else 40⟩).2).2

theorem two_reach : WrapReach [1, 0] twoWrappers :=
  .new (.new (.start _) 0 (by simp) (.plain tagWithRng) trivial 0 rfl) 1 (by simp) (.plain tagWithRng)
    trivial 1 rfl

/-- The functions get the generators of their own emitters. -/
example : (WrapStore.call 5 0 [.int 3] [] twoWrappers).1 = .ok (.tuple [.int 3, .int 7]) ∧
    (WrapStore.call 5 1 [.int 3] [] twoWrappers).1 = .ok (.tuple [.int 3, .int 40]) := ⟨rfl, rfl⟩
example : (twoWrappers.wr 0).Describes :=
  C111_describes_partial two_reach 0 (by simp) (by trivial)
example : Serves twoWrappers 1 tagWithRng 1 1 := .plain (r := 1) rfl

/-- **C111, violated.** After a failed assignment of something that cannot be called (here to a wrapper
whose function wants `rng`) the wrapper has no callable function, yet `wants_rng` is true and
`signature` is that of the old function. -/
theorem C111_failed_violated : ∃ s : WrapStore Nat, WrapReach [1, 0] s ∧
    (s.wr 0).fn = .junk ∧ (s.wr 0).wants = true ∧ (s.wr 0).sig = tagWithRng.sig ∧
      ¬ (s.wr 0).Describes ∧ (WrapStore.call 5 0 [.int 3] [] s).1 = .error .typeError :=
  ⟨_, .assign two_reach 0 (by simp) .junk trivial, rfl, rfl, rfl, fun h => h, rfl⟩

/-- **C111, violated.** A wrapper assigned to `function` of another (rather than given to
`set_wrapper_function`) is not rebound: the wrapper of emitter 0 then draws from emitter 1, and
`wants_rng` says it draws from none. -/
theorem C111_nested_violated : ∃ s : WrapStore Nat, WrapReach [1, 0] s ∧
    (s.wr 0).owner = 0 ∧ (s.wr 0).fn = .wrapper 1 ∧ (s.wr 0).wants = false ∧
      WrapStore.call 5 0 [.int 3] [] s = (.ok (.tuple [.int 3, .int 40]), (genOf 1).set 41 s) :=
  ⟨_, .assign two_reach 0 (by simp) (.wrapper 1) (by simp [FnObj.Within]), rfl, rfl, rfl, rfl⟩

/-- Given to the constructor instead, it draws from emitter 0. -/
example : (WrapStore.call 5 2 [.int 3] [] (init 2 (.wrapper 1) 0 twoWrappers).2).1 =
    .ok (.tuple [.int 3, .int 7]) := rfl

/-- In that case the chain is followed. -/
example : Serves (setFunction 0 (.wrapper 1) twoWrappers).2 0 tagWithRng 1 2 :=
  .wrapper (r' := 1) rfl (.plain (r := 1) rfl)

/-- A callable object (such as a class) that happens to have an attribute `function`. -/
def someClass : FnObj Nat := .having ⟨some [⟨"v", .posOrKw, false⟩], fun a _ => .ok (.list a),
  fun _ _ => PyM.raise .typeError⟩ (.plain tagWithRng)

/-- **C111, violated.** What is given to `BoundWrapper` is not what is called, if it has an attribute
`function`: the attribute is called instead. -/
theorem C111_attribute_violated : ((init 2 someClass 0 twoWrappers).1 = .ok ()) ∧
    (WrapStore.call 5 2 [.int 3] [] (init 2 someClass 0 twoWrappers).2).1 =
      .ok (.tuple [.int 3, .int 7]) ∧
    (WrapStore.call 5 0 [.int 3] [] (setFunction 0 someClass twoWrappers).2).1 = .ok (.list [.int 3]) :=
  ⟨rfl, rfl, rfl⟩

/-- **C111, violated.** A function assigned to the attribute is not tried: one with the wrong number of
parameters is accepted, and each later call raises a `TypeError`. -/
theorem C111_unchecked_violated (s : WrapStore Nat) :
    (setFunction 0 (.plain pairAB) s).1 = .ok () ∧
      (WrapStore.call 5 0 [.int 3] [] (setFunction 0 (.plain pairAB) s).2).1 = .error .typeError :=
  ⟨rfl, rfl⟩

end Fauxdoc
