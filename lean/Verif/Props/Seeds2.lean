import Verif.Props.Seeds
/-
C39: creating or re-targeting a wrapper does not consume values of its sources; C53 for wrappers.
-/
set_option linter.unusedSectionVars false
namespace Fauxdoc
open PyM World
variable {K : Type} [Field K] [LinearOrder K] [FloorRing K] {R : Rng K}

/-- Only assigning the function and resetting, without a trial call. -/
def assignAndReset (fuel : Nat) (r : Ref) (cb : Callback R.G) : PyM (World R) Unit := do
  PyM.modify (World.upd r fun a => { a with wrapper := some cb })
  World.reset fuel r

namespace World

theorem shape_setWrapper (a : Attrs R) (o : Option (Callback R.G)) :
    ({ a with wrapper := o } : Attrs R).shape = { a.shape with wrapper := o } := by
  obtain ⟨node, c, _, _, _, _, _, _, _, _⟩ := a
  rcases node with _ | (_ | _ | _ | _ | _ | _ | _ | _ | _ | _ | _) <;> rfl

theorem rngSeed_setWrapper (a : Attrs R) (o : Option (Callback R.G)) :
    ({ a with wrapper := o } : Attrs R).rngSeed = a.rngSeed := rfl

theorem rngSeed_of_config {a b : Attrs R} (h : a.config = b.config) : a.rngSeed = b.rngSeed := by
  have key : ∀ a : Attrs R, a.config.rngSeed = a.rngSeed := by
    rintro ⟨node, c, _, _, _, _, _, _, _, _⟩
    have : c.config.rngSeed = c.rngSeed := by unfold ChoiceSt.config; split <;> rfl
    rcases node with _ | (_ | _ | _ | _ | _ | _ | _ | _ | _ | _ | _) <;>
      first | rfl | exact this
  rw [← key, h, key]

theorem upd_node {r : Ref} {f : Attrs R → Attrs R} (hf : ∀ a, (f a).node = a.node) (w : World R)
    (x : Ref) : ((w.upd r f).obj x).node = (w.obj x).node := by
  rw [upd_obj]
  by_cases hx : x = r
  · rw [if_pos hx, hf, hx]
  · rw [if_neg hx]

/-- Whatever calls below `r` have done, a seeded reset undoes it. -/
theorem assignAndReset_frame {fuel : Nat} {r : Ref} {cb : Callback R.G} {w w1 : World R}
    (hran : (w.obj r).random = true) (hseed : (w.obj r).rngSeed ≠ none)
    (h : Frame (Below w r) w w1) :
    (assignAndReset fuel r cb w1).1 = (assignAndReset fuel r cb w).1 ∧
    ((assignAndReset fuel r cb w).1 = .ok () →
      ∀ x, (assignAndReset fuel r cb w1).2.obj x = (assignAndReset fuel r cb w).2.obj x) := by
  unfold assignAndReset
  rw [PyM.run_modify_bind, PyM.run_modify_bind]
  set f : Attrs R → Attrs R := fun a => { a with wrapper := some cb } with hf
  have hn0 : ∀ x, (w1.obj x).node = (w.obj x).node :=
    fun x => node_of_shape (shape_of_config (h.config x))
  have hnw : ∀ x, ((w.upd r f).obj x).node = (w.obj x).node :=
    upd_node (f := f) (fun _ => rfl) w
  have hnv : ∀ x, ((w1.upd r f).obj x).node = (w.obj x).node :=
    fun x => (upd_node (f := f) (fun _ => rfl) w1 x).trans (hn0 x)
  obtain ⟨z, hz⟩ : ∃ z : Int, (w.obj r).rngSeed = some z := by
    rcases hs : (w.obj r).rngSeed with _ | z
    · exact absurd hs hseed
    · exact ⟨z, rfl⟩
  have hA : Agree (fun x => (w.obj x).node) (Below w r) (fun _ => False) (· = r)
      (w.upd r f) (w1.upd r f) := by
    refine ⟨fun x _ => hnw x, fun x _ => hnv x, fun x _ => ?_, fun _ h => h.elim, fun x hx _ => ?_⟩
    · rw [upd_obj, upd_obj]
      by_cases hx : x = r
      · rw [if_pos hx, if_pos hx, hf]
        exact (shape_setWrapper _ _).trans ((congrArg (fun a : Attrs R => { a with wrapper := some cb })
          (shape_of_config (h.config r)).symm).trans (shape_setWrapper _ _).symm)
      · rw [if_neg hx, if_neg hx]
        exact (shape_of_config (h.config x)).symm
    · subst hx
      refine ⟨z, ?_, ?_⟩
      · rw [upd_obj, if_pos rfl]; exact hz
      · rw [upd_obj, if_pos rfl]
        exact (rngSeed_of_config (h.config x)).trans hz
  obtain ⟨h1, _, h3⟩ := reset_agree (P := Below w r) (T := (· = r))
    (fun _ hr _ hc => Below.child hr hc) fuel (.self r) rfl hran
    (w.upd r f) (w1.upd r f) hA
  refine ⟨h1.symm, fun hok x => ?_⟩
  by_cases hx : Below w r x
  · exact ((h3 hok).same x (.inr ((BelowN.iff w r x).2 hx))).symm
  · have hxr : x ≠ r := fun e => hx (by rw [e]; exact .self r)
    have e1 := (reset_frame fuel r (Below w r) (w.upd r f) (fun y hy c hc => hy.child (by
      unfold Attrs.children at hc ⊢; rwa [hnw] at hc)) (.self r)).frame x hx
    have e2 := (reset_frame fuel r (Below w r) (w1.upd r f) (fun y hy c hc => hy.child (by
      unfold Attrs.children at hc ⊢; rwa [hnv] at hc)) (.self r)).frame x hx
    rw [e1, e2, upd_obj, upd_obj, if_neg hxr, if_neg hxr]
    exact h.frame x hx

theorem finally_state {σ α : Type} (m : PyM σ α) (fin : PyM σ PUnit) (s : σ) :
    (PyM.finally_ m fin s).2 = (fin (m s).2).2 := by
  unfold PyM.finally_
  rcases m s with ⟨res, s1⟩
  dsimp only
  rcases fin s1 with ⟨e | u, s2⟩ <;> rfl

theorem finally_outcome {σ α : Type} (m : PyM σ α) (fin : PyM σ PUnit) (s : σ)
    (h : (fin (m s).2).1 = .ok ()) : (PyM.finally_ m fin s).1 = (m s).1 := by
  unfold PyM.finally_
  rcases hm : m s with ⟨res, s1⟩
  rw [hm] at h
  dsimp only at h ⊢
  rcases hf : fin s1 with ⟨e | u, s2⟩
  · rw [hf] at h; cases h
  · rfl

theorem finally_ok {σ α : Type} {m : PyM σ α} {fin : PyM σ PUnit} {s s' : σ} {a : α}
    (h : PyM.finally_ m fin s = (.ok a, s')) : (m s).1 = .ok a ∧ fin (m s).2 = (.ok (), s') := by
  unfold PyM.finally_ at h
  rcases hm : m s with ⟨res, s1⟩
  rw [hm] at h
  dsimp only at h ⊢
  rcases hf : fin s1 with ⟨e | u, s2⟩ <;> rw [hf] at h
  · cases h
  · cases h; exact ⟨rfl, rfl⟩

/-- The trial call of `WrapOne`: one value of the source, checked against the signature. -/
def trialOne (str : Val → List Char) (fuel : Nat) (s : Ref) (cb : Callback R.G) :
    PyM (World R) Unit := do
  let v ← call str fuel s none
  PyM.lift (cb.tryMockCall [v] [])

/-- The trial values of `WrapMany`: one of each source. -/
def trialMany (str : Val → List Char) (fuel : Nat) (ss : Dict Ref) : PyM (World R) (Dict Val) :=
  WrapMany.draw (ss.map fun ks => (ks.1, call str fuel ks.2)) none

theorem setWrapper_one (str : Val → List Char) (fuel : Nat) (r s : Ref) (cb : Callback R.G)
    (w : World R) (hr : (w.obj r).node = some (.wrapOne s)) :
    setWrapper str fuel r cb w = PyM.finally_ (trialOne str fuel s cb) (assignAndReset fuel r cb) w := by
  unfold setWrapper
  rw [PyM.run_get_bind, hr]
  rfl

theorem setWrapper_many (str : Val → List Char) (fuel : Nat) (r : Ref) (ss : Dict Ref)
    (cb : Callback R.G) (w : World R) (hr : (w.obj r).node = some (.wrapMany ss)) :
    setWrapper str fuel r cb w = (trialMany str fuel ss >>= fun kwargs =>
      PyM.finally_ (PyM.lift (cb.tryMockCall [] kwargs)) (assignAndReset fuel r cb)) w := by
  unfold setWrapper
  rw [PyM.run_get_bind, hr]
  rfl

theorem trialOne_frame (str : Val → List Char) (fuel : Nat) (r s : Ref) (cb : Callback R.G)
    (w : World R) (hr : (w.obj r).node = some (.wrapOne s)) :
    Frame (Below w r) w (trialOne str fuel s cb w).2 := by
  have hs : Below w r s := .step (by unfold Attrs.children; rw [hr]; simp [Node.childRefs]) (.self s)
  have := call_frame str fuel s none (Below w r) w (fun _ hr _ hc => hr.child hc) hs w (.refl _ w)
  unfold trialOne
  rw [PyM.bind_apply]
  rcases hq : call str fuel s none w with ⟨e | v, w1⟩ <;> rw [hq] at this <;> exact this

theorem mapPyM_keeps {σ α β : Type} {I : σ → Prop} {f : α → PyM σ β} {l : List α}
    (h : ∀ a ∈ l, Keeps I (f a)) : Keeps I (mapPyM f l) := by
  induction l with
  | nil => exact fun _ hs => hs
  | cons a l ih =>
    intro s hs
    unfold mapPyM
    rw [PyM.bind_apply]
    have h1 := h a (by simp) s hs
    rcases hq : f a s with ⟨e | b, s1⟩ <;> rw [hq] at h1
    · exact h1
    · dsimp only
      rw [PyM.bind_apply]
      have h2 := ih (fun a ha => h a (by simp [ha])) s1 h1
      rcases hq2 : mapPyM f l s1 with ⟨e | bs, s2⟩ <;> rw [hq2] at h2 <;> exact h2

theorem trialMany_frame (str : Val → List Char) (fuel : Nat) (r : Ref) (ss : Dict Ref)
    (w : World R) (hr : (w.obj r).node = some (.wrapMany ss)) :
    Frame (Below w r) w (trialMany str fuel ss w).2 := by
  unfold trialMany WrapMany.draw
  refine mapPyM_keeps (I := Frame (Below w r) w) ?_ w (.refl _ w)
  intro ke hke v hv
  obtain ⟨ks, hks, rfl⟩ := List.mem_map.1 hke
  have hs : Below w r ks.2 := .step (by
    unfold Attrs.children; rw [hr]; exact List.mem_map_of_mem hks) (.self _)
  have := call_frame str fuel ks.2 none (Below w r) w (fun _ hr _ hc => hr.child hc) hs v hv
  change Frame (Below w r) w ((call str fuel ks.2 none >>= fun a => pure (ks.1, a)) v).2
  rw [PyM.bind_apply]
  rcases hq : call str fuel ks.2 none v with ⟨e | x, w1⟩ <;> rw [hq] at this <;> exact this

end World

/-- **C39 (WrapOne).** Setting the function of a seeded `WrapOne` leaves every object exactly as it
would be if the function had been stored and the emitter reset without any trial call, whatever the
trial call returned or raised.  (The outcome is that of the trial.) -/
theorem C39_wrap_one (str : Val → List Char) (fuel : Nat) (r s : Ref) (cb : Callback R.G)
    (w : World R) (hr : (w.obj r).node = some (.wrapOne s)) (hseed : (w.obj r).rngSeed ≠ none)
    (hok : (assignAndReset fuel r cb w).1 = .ok ()) :
    (∀ x, (World.setWrapper str fuel r cb w).2.obj x = (assignAndReset fuel r cb w).2.obj x) ∧
    (World.setWrapper str fuel r cb w).1 = (trialOne str fuel s cb w).1 := by
  have hran : (w.obj r).random = true := by unfold Attrs.random; rw [hr]
  obtain ⟨h1, h2⟩ := assignAndReset_frame (fuel := fuel) (cb := cb) hran hseed
    (trialOne_frame str fuel r s cb w hr)
  rw [setWrapper_one str fuel r s cb w hr]
  refine ⟨fun x => ?_, finally_outcome _ _ _ (h1.trans hok)⟩
  rw [finally_state]
  exact h2 hok x

/-- **C39 (WrapMany).** The same for `WrapMany`, provided the sources return their trial values.
(If one raises, `C39_violated` shows that the property fails.) -/
theorem C39_wrap_many_partial (str : Val → List Char) (fuel : Nat) (r : Ref) (ss : Dict Ref)
    (cb : Callback R.G) (w : World R) (hr : (w.obj r).node = some (.wrapMany ss))
    (hseed : (w.obj r).rngSeed ≠ none) (hok : (assignAndReset fuel r cb w).1 = .ok ())
    (kwargs : Dict Val) (hd : (trialMany str fuel ss w).1 = .ok kwargs) :
    (∀ x, (World.setWrapper str fuel r cb w).2.obj x = (assignAndReset fuel r cb w).2.obj x) ∧
    (World.setWrapper str fuel r cb w).1 = cb.tryMockCall [] kwargs := by
  have hran : (w.obj r).random = true := by unfold Attrs.random; rw [hr]
  have hfr := trialMany_frame str fuel r ss w hr
  rw [setWrapper_many str fuel r ss cb w hr, PyM.bind_apply]
  rcases hq : trialMany str fuel ss w with ⟨e | kw, w1⟩ <;> rw [hq] at hd hfr
  · cases hd
  · cases hd
    obtain ⟨h1, h2⟩ := assignAndReset_frame (fuel := fuel) (cb := cb) hran hseed hfr
    refine ⟨fun x => ?_, finally_outcome _ _ _ (h1.trans hok)⟩
    dsimp only
    rw [finally_state]
    exact h2 hok x

/-- **C39 (sources are fresh).** With any seed, `None` included: when setting the function returns,
everything below the wrapper is freshly seeded, and none of it has handed out a value. -/
theorem C39_fresh (str : Val → List Char) (fuel : Nat) (r : Ref) (cb : Callback R.G) (w w' : World R)
    (h : World.setWrapper str fuel r cb w = (.ok (), w')) (x : Ref) (hx : Below w' r x) :
    (w'.obj x).Seeded (w.obj r).rngSeed ∧ (w'.obj x).Rewound := by
  have main : ∀ w1 : World R, Frame (Below w r) w w1 → (w.obj r).random = true →
      assignAndReset fuel r cb w1 = (.ok (), w') →
      (w'.obj x).Seeded (w.obj r).rngSeed ∧ (w'.obj x).Rewound := by
    intro w1 hfr hran h1
    unfold assignAndReset at h1
    rw [PyM.run_modify_bind] at h1
    have hnode := fun y => upd_node (f := fun a : Attrs R => { a with wrapper := some cb })
      (fun _ => rfl) w1 y (r := r)
    have hn1 := fun y => reset_node fuel r y (w1.upd r fun a => { a with wrapper := some cb })
    have hc := C53_reset fuel r (w1.upd r fun a => { a with wrapper := some cb }) (by
      rw [Attrs.random_eq, hnode, node_of_shape (shape_of_config (hfr.config r)), ← Attrs.random_eq]
      exact hran) (by rw [h1]) x
    rw [h1] at hc hn1
    dsimp only at hc hn1
    have hs : ((w1.upd r fun a => { a with wrapper := some cb }).obj r).rngSeed =
        (w.obj r).rngSeed := by
      rw [upd_obj, if_pos rfl]
      exact (rngSeed_setWrapper _ _).trans (rngSeed_of_config (hfr.config r))
    rw [hs] at hc
    exact hc ((Below.congr hn1).1 hx)
  rcases hn : (w.obj r).node with _ | node
  · unfold World.setWrapper at h
    rw [PyM.run_get_bind, hn] at h
    cases h
  · cases node with
    | wrapOne s =>
      rw [setWrapper_one str fuel r s cb w hn] at h
      exact main _ (trialOne_frame str fuel r s cb w hn) (by unfold Attrs.random; rw [hn])
        (finally_ok h).2
    | wrapMany ss =>
      rw [setWrapper_many str fuel r ss cb w hn] at h
      obtain ⟨kw, w1, h1, h2⟩ := PyM.bind_eq_ok h
      have := trialMany_frame str fuel r ss w hn
      rw [h1] at this
      exact main _ this (by unfold Attrs.random; rw [hn]) (finally_ok h2).2
    | _ =>
      unfold World.setWrapper at h
      rw [PyM.run_get_bind, hn] at h
      cases h

/-- **C53, C39 (construction of WrapOne).** -/
theorem C53_newWrapOne (str : Val → List Char) (fuel : Nat) (source : Ref) (cb : Callback R.G)
    (s : Option Int) (w w' : World R) (r : Ref)
    (h : World.newWrapOne str fuel source cb s w = (.ok r, w')) (x : Ref) (hx : Below w' r x) :
    (w'.obj x).Seeded s ∧ (w'.obj x).Rewound := by
  unfold World.newWrapOne at h
  obtain ⟨q, w3, h3, h⟩ := PyM.bind_eq_ok h
  obtain ⟨u, w4, h4, h⟩ := PyM.bind_eq_ok h
  obtain ⟨u', w5, h5, h⟩ := PyM.bind_eq_ok h
  rw [PyM.pure_apply, Prod.mk.injEq, Except.ok.injEq] at h
  obtain ⟨rfl, rfl⟩ := h
  have := C39_fresh str fuel q cb w4 w5 h5 x hx
  cases h3
  have hob : ((⟨fun x => if x = w.next then _ else w.obj x, w.next + 1, w.entropy⟩ : World R).obj
      w.next) = { World.blank with node := some (.wrapOne source), seed := s } := if_pos rfl
  have hs := World.reset_seed fuel w.next
    (⟨fun x => if x = w.next then { World.blank with node := some (.wrapOne source), seed := s }
      else w.obj x, w.next + 1, w.entropy⟩ : World R) (by rw [hob]; rfl)
  rw [h4, hob] at hs
  rw [hs] at this
  exact this

/-- **C53, C39 (construction of WrapMany).** -/
theorem C53_newWrapMany (str : Val → List Char) (fuel : Nat) (sources : Dict Ref) (cb : Callback R.G)
    (s : Option Int) (w w' : World R) (r : Ref)
    (h : World.newWrapMany str fuel sources cb s w = (.ok r, w')) (x : Ref) (hx : Below w' r x) :
    (w'.obj x).Seeded s ∧ (w'.obj x).Rewound := by
  unfold World.newWrapMany at h
  obtain ⟨q, w3, h3, h⟩ := PyM.bind_eq_ok h
  obtain ⟨u, w4, h4, h⟩ := PyM.bind_eq_ok h
  obtain ⟨u', w5, h5, h⟩ := PyM.bind_eq_ok h
  rw [PyM.pure_apply, Prod.mk.injEq, Except.ok.injEq] at h
  obtain ⟨rfl, rfl⟩ := h
  have := C39_fresh str fuel q cb w4 w5 h5 x hx
  cases h3
  have hob : ((⟨fun x => if x = w.next then _ else w.obj x, w.next + 1, w.entropy⟩ : World R).obj
      w.next) = { World.blank with node := some (.wrapMany sources), seed := s } := if_pos rfl
  have hs := World.reset_seed fuel w.next
    (⟨fun x => if x = w.next then { World.blank with node := some (.wrapMany sources), seed := s }
      else w.obj x, w.next + 1, w.entropy⟩ : World R) (by rw [hob]; rfl)
  rw [h4, hob] at hs
  rw [hs] at this
  exact this

/-! ### A source that raises -/

/-- `lambda **kwargs: 0`. -/
def zeroOf : Callback Nat where
  sig := some [⟨"kwargs", .varKw, false⟩]
  run _ _ := .ok (.int 0)
  runRng _ _ := PyM.raise .typeError

/-- `a = Sequential([1, 2])`, `b = Choice([1, 1], weights=[0, 0])`, which cannot be called. -/
def brokenSources : PyM (World demoRng) Unit := do
  let _ ← World.newSequential .list [.int 1, .int 2] false
  let _ ← World.newChoice .list [.int 1, .int 1] (some [0, 0]) true false (some 1) none

/-- **C39 (finding).** `WrapMany` draws its trial values before the `try`, so if a source raises,
the values already drawn are lost: after `WrapMany({'a': a, 'b': b}, f, rng_seed=1)` has raised the
`ValueError` of `b`, the first value of `a` is 2 instead of 1.  `WrapOne` resets in that case. -/
theorem C39_violated :
    (World.call demoStr 5 0 none (brokenSources emptyWorld).2).1 = .ok (.int 1) ∧
    (World.newWrapMany demoStr 5 [("a", 0), ("b", 1)] zeroOf (some 1)
      (brokenSources emptyWorld).2).1 = .error .valueError ∧
    (World.call demoStr 5 0 none (World.newWrapMany demoStr 5 [("a", 0), ("b", 1)] zeroOf (some 1)
      (brokenSources emptyWorld).2).2).1 = .ok (.int 2) := by
  decide +kernel

/-! ### Examples -/

/-- `a = Sequential([1, 2])`, `b = Choice(['x', 'y'], replace=False)`, and
`WrapOne(a, lambda v: [v, v], rng_seed=1)`, `WrapMany({'a': a, 'b': b}, f, rng_seed=1)`. -/
def wrapped : PyM (World demoRng) Unit := do
  let a ← World.newSequential .list [.int 1, .int 2] false
  let b ← World.newChoice .list [.str ['x'], .str ['y']] none false false (some 7) none
  let _ ← World.newWrapOne demoStr 5 a doubled (some 1)
  let _ ← World.newWrapMany demoStr 5 [("a", a), ("b", b)] zeroOf (some 1)

/-- `wrapped` builds; the wrappers are objects 2 and 3. -/
example : (wrapped emptyWorld).1 = .ok () := by decide +kernel
example : ((wrapped emptyWorld).2.obj 2).node = some (.wrapOne 0) ∧
    ((wrapped emptyWorld).2.obj 3).node = some (.wrapMany [("a", 0), ("b", 1)]) ∧
    ((wrapped emptyWorld).2.obj 2).rngSeed = some 1 ∧
    ((wrapped emptyWorld).2.obj 3).rngSeed = some 1 := by decide +kernel
/-- Nothing is missing from the output, ... -/
example : (World.call demoStr 5 2 none (wrapped emptyWorld).2).1 =
    .ok (.list [.int 1, .int 1]) := by decide +kernel
/-- ... although setting a function draws a value, even if the function does not fit. -/
example : (World.setWrapper demoStr 5 3 doubled (wrapped emptyWorld).2).1 = .error .typeError ∧
    (assignAndReset 5 3 doubled (wrapped emptyWorld).2).1 = .ok () ∧
    (World.trialMany demoStr 5 [("a", 0), ("b", 1)] (wrapped emptyWorld).2).1 =
      .ok [("a", .int 1), ("b", .str ['x'])] := by decide +kernel
example : (assignAndReset 5 2 zeroOf (wrapped emptyWorld).2).1 = .ok () ∧
    (World.setWrapper demoStr 5 2 zeroOf (wrapped emptyWorld).2).1 = .error .typeError := by
  decide +kernel
example : (World.call demoStr 5 0 none
    (World.setWrapper demoStr 5 3 doubled (wrapped emptyWorld).2).2).1 = .ok (.int 1) := by
  decide +kernel

end Fauxdoc
