import Verif.Spec.AliasValues
import Verif.Props.Alias
/-
C91: as long as the user changes no list, documents made of list objects are the documents that the
other models describe.
-/
namespace Fauxdoc.Alias
open PyM
variable {G : Type}

/-! ### Values -/

mutual
theorem Shows.mono {m m' : Mem} (h : Untouched m m') : ∀ {v : PVal} {x : Val},
    Shows m v x → Shows m' v x
  | _, _, .atom a => .atom a
  | _, _, .list ha hl => .list (Nat.lt_of_lt_of_le ha h.1) (by rw [h.2 _ ha]; exact hl.mono h)

theorem ShowsAll.mono {m m' : Mem} (h : Untouched m m') : ∀ {vs : List PVal} {xs : List Val},
    ShowsAll m vs xs → ShowsAll m' vs xs
  | _, _, .nil => .nil
  | _, _, .cons hv hs => .cons (hv.mono h) (hs.mono h)
end

theorem Atom.view_toVal (a : Atom) (d : Nat) : view a.toVal (d + 1) = a.toVal := by
  cases a <;> simp [Atom.toVal, view]

mutual
theorem Shows.read {m : Mem} : ∀ {v : PVal} {x : Val}, Shows m v x → ∀ d, read m d v = view x d
  | _, _, .atom a, 0 => by simp [Alias.read, view]
  | _, _, .atom a, d + 1 => by rw [Atom.view_toVal]; rfl
  | _, _, .list ha hl, 0 => by simp [Alias.read, view]
  | _, _, .list ha hl, d + 1 => by
    simp only [Alias.read, view]
    rw [hl.read d]

theorem ShowsAll.read {m : Mem} : ∀ {vs : List PVal} {xs : List Val}, ShowsAll m vs xs →
    ∀ d, vs.map (Alias.read m d) = xs.map fun x => view x d
  | _, _, .nil, _ => rfl
  | _, _, .cons hv hs, d => by
    rw [List.map_cons, List.map_cons, hv.read d, hs.read d]
end

theorem ShowsAll.views {m : Mem} : ∀ {vs : List PVal} {xs : List Val}, ShowsAll m vs xs →
    (vs.map fun v d => Alias.read m d v) = xs.map view
  | _, _, .nil => rfl
  | _, _, .cons hv hs => by
    rw [List.map_cons, List.map_cons, hs.views]
    congr 1
    funext d
    exact hv.read d

theorem ShowsAll.length {m : Mem} : ∀ {vs : List PVal} {xs : List Val}, ShowsAll m vs xs →
    vs.length = xs.length
  | _, _, .nil => rfl
  | _, _, .cons _ hs => by simp [hs.length]

theorem ShowsAll.getD {m : Mem} : ∀ {vs : List PVal} {xs : List Val}, ShowsAll m vs xs →
    ∀ i, Shows m (vs.getD i (.atom .none)) (xs.getD i .none)
  | _, _, .nil, i => by
    rw [List.getD_nil, List.getD_nil]
    exact Shows.atom .none
  | _, _, .cons hv _, 0 => by simpa using hv
  | _, _, .cons _ hs, i + 1 => by simpa using hs.getD i

theorem ShowsAll.append {m : Mem} : ∀ {vs vs' : List PVal} {xs xs' : List Val}, ShowsAll m vs xs →
    ShowsAll m vs' xs' → ShowsAll m (vs ++ vs') (xs ++ xs')
  | _, _, _, _, .nil, h => h
  | _, _, _, _, .cons hv hs, h => .cons hv (hs.append h)

theorem ShowsAll.replicate {m : Mem} {v : PVal} {x : Val} (h : Shows m v x) :
    ∀ n, ShowsAll m (List.replicate n v) (List.replicate n x)
  | 0 => .nil
  | n + 1 => .cons h (ShowsAll.replicate h n)

theorem ShowsAll.map {α : Type} {m : Mem} {f : α → PVal} {f' : α → Val}
    (h : ∀ a, Shows m (f a) (f' a)) : ∀ l : List α, ShowsAll m (l.map f) (l.map f')
  | [] => .nil
  | a :: l => .cons (h a) (ShowsAll.map h l)

theorem Piece.shows {m : Mem} {vs : List PVal} {xs : List Val} (h : ShowsAll m vs xs) (p : Piece) :
    Shows m (p.val vs) (p.ofVals xs) := by
  cases p with
  | arg i => exact h.getD i
  | atom a => exact .atom a

theorem Shows.truthy {m : Mem} {v : PVal} {x : Val} (h : Shows m v x) :
    Alias.truthy m v = x.truthy := by
  cases h with
  | atom a => cases a <;> rfl
  | list ha hl =>
    simp only [Alias.truthy, Val.truthy]
    generalize m.lists _ = vs at hl
    cases hl <;> rfl

/-! ### Computations -/

/-- Two computations, started in these states, do the same: the same exceptions, results related by
`Q`, states related; and no list is changed. -/
def Tally {α β : Type} (m0 : Mem) (Q : Mem → α → β → Prop) (c : PyM (State G) α) (c' : PyM (VS G) β)
    (s : State G) (σ : VS G) : Prop :=
  Untouched s.mem (c s).2.mem ∧ ShowsState m0 (c s).2 (c' σ).2 ∧
    match (c s).1, (c' σ).1 with
    | .ok a, .ok b => Q (c s).2.mem a b
    | .error e, .error e' => e = e'
    | _, _ => False

variable {m0 : Mem}

theorem Tally.bind {α β α' β' : Type} {Q : Mem → α → β → Prop} {Q' : Mem → α' → β' → Prop}
    {c : PyM (State G) α} {c' : PyM (VS G) β} {k : α → PyM (State G) α'} {k' : β → PyM (VS G) β'}
    {s : State G} {σ : VS G} (h : Tally m0 Q c c' s σ)
    (hk : ∀ a b t τ, Untouched s.mem t.mem → ShowsState m0 t τ → Q t.mem a b →
      Tally m0 Q' (k a) (k' b) t τ) :
    Tally m0 Q' (c >>= k) (c' >>= k') s σ := by
  obtain ⟨h1, h2, h3⟩ := h
  unfold Tally
  show Untouched s.mem ((PyM.bind c k) s).2.mem ∧ ShowsState m0 ((PyM.bind c k) s).2
    ((PyM.bind c' k') σ).2 ∧ match ((PyM.bind c k) s).1, ((PyM.bind c' k') σ).1 with
    | .ok a, .ok b => Q' ((PyM.bind c k) s).2.mem a b
    | .error e, .error e' => e = e'
    | _, _ => False
  unfold PyM.bind
  generalize c s = p at *
  generalize c' σ = p' at *
  obtain ⟨r, t⟩ := p
  obtain ⟨r', τ⟩ := p'
  cases r with
  | error e =>
    cases r' with
    | error e' => exact ⟨h1, h2, h3⟩
    | ok b => exact h3.elim
  | ok a =>
    cases r' with
    | error e' => exact h3.elim
    | ok b =>
      obtain ⟨k1, k2, k3⟩ := hk a b t τ h1 h2 h3
      exact ⟨h1.trans k1, k2, k3⟩

theorem Tally.pure {α β : Type} {Q : Mem → α → β → Prop} {a : α} {b : β} {s : State G} {σ : VS G}
    (h : ShowsState m0 s σ) (hq : Q s.mem a b) :
    Tally m0 Q (pure a : PyM (State G) α) (pure b : PyM (VS G) β) s σ := ⟨.refl _, h, hq⟩

theorem Tally.raise {α β : Type} {Q : Mem → α → β → Prop} {s : State G} {σ : VS G} (e : Err)
    (h : ShowsState m0 s σ) :
    Tally m0 Q (PyM.raise e : PyM (State G) α) (PyM.raise e : PyM (VS G) β) s σ := ⟨.refl _, h, rfl⟩

theorem Tally.get {s : State G} {σ : VS G} (h : ShowsState m0 s σ) :
    Tally m0 (fun _ t τ => t = s ∧ τ = σ) (PyM.get : PyM (State G) (State G))
      (PyM.get : PyM (VS G) (VS G)) s σ := ⟨.refl _, h, rfl, rfl⟩

theorem Tally.get_bind {α β : Type} {Q : Mem → α → β → Prop} {k : State G → PyM (State G) α}
    {k' : VS G → PyM (VS G) β} {s : State G} {σ : VS G} (h : Tally m0 Q (k s) (k' σ) s σ) :
    Tally m0 Q (PyM.get >>= k) (PyM.get >>= k') s σ := h

theorem Tally.get_left {α β : Type} {Q : Mem → α → β → Prop} {k : State G → PyM (State G) α}
    {c : PyM (VS G) β} {s : State G} {σ : VS G} (h : Tally m0 Q (k s) c s σ) :
    Tally m0 Q (PyM.get >>= k) c s σ := h

/-- What is known of the value may be kept. -/
theorem Tally.keep {α β : Type} {Q : Mem → α → β → Prop} {P : β → Prop} {c : PyM (State G) α}
    {c' : PyM (VS G) β} {s : State G} {σ : VS G} (h : Tally m0 Q c c' s σ)
    (hp : ∀ b, (c' σ).1 = .ok b → P b) : Tally m0 (fun m a b => Q m a b ∧ P b) c c' s σ := by
  obtain ⟨h1, h2, h3⟩ := h
  refine ⟨h1, h2, ?_⟩
  generalize (c s) = p at *
  generalize (c' σ) = p' at *
  obtain ⟨r, t⟩ := p
  obtain ⟨r', τ⟩ := p'
  cases r <;> cases r' <;> first | exact h3 | exact ⟨h3, hp _ rfl⟩

theorem Tally.weaken {α β : Type} {Q Q' : Mem → α → β → Prop} {c : PyM (State G) α}
    {c' : PyM (VS G) β} {s : State G} {σ : VS G} (h : Tally m0 Q c c' s σ)
    (hq : ∀ m a b, Q m a b → Q' m a b) : Tally m0 Q' c c' s σ := by
  obtain ⟨h1, h2, h3⟩ := h
  refine ⟨h1, h2, ?_⟩
  generalize (c s) = p at *
  generalize (c' σ) = p' at *
  obtain ⟨r, t⟩ := p
  obtain ⟨r', τ⟩ := p'
  cases r <;> cases r' <;> first | exact h3 | exact hq _ _ _ h3

/-- The result is a list. -/
def ShowsList (m : Mem) (v : PVal) (x : Val) : Prop :=
  ∃ a l, v = .list a ∧ x = .list l ∧ a < m.next ∧ ShowsAll m (m.lists a) l

theorem ShowsList.shows {m : Mem} {v : PVal} {x : Val} (h : ShowsList m v x) : Shows m v x := by
  obtain ⟨a, l, rfl, rfl, ha, hl⟩ := h
  exact .list ha hl

theorem ShowsState.new {s : State G} {σ : VS G} (h : ShowsState m0 s σ) (l : List PVal) :
    ShowsState m0 (new l s).2 σ :=
  ⟨h.mem.trans (untouched_new s.mem l), h.gen, fun f => (h.cache f).mono (untouched_new s.mem l)⟩

theorem tally_new {s : State G} {σ : VS G} (h : ShowsState m0 s σ) {l : List PVal} {xs : List Val}
    (hl : ShowsAll s.mem l xs) :
    Tally m0 ShowsList (new l) (Pure.pure (.list xs) : PyM (VS G) Val) s σ := by
  refine ⟨untouched_new s.mem l, h.new l, s.mem.next, xs, rfl, rfl, Nat.lt_succ_self _, ?_⟩
  have := hl.mono (untouched_new s.mem l)
  simpa [Alias.new] using this

/-! ### Callbacks -/

theorem byValue_accepts (cb : Callback G) (n : Nat) (kw : List String) :
    (byValue cb).accepts n (kw ++ ["rng"]) = true := by
  simp [Callback.accepts, byValue, Sig.callOk, Sig.positional]

/-- What `apply` does with the result of the callback. -/
def finish (args : List PVal) : Out → PyM (State G) PVal
  | .one p => return p.val args
  | .list ps => new (ps.map (Piece.val args))

theorem tally_apply (cb : Callback G) {args : List PVal} {pos : List Val} {kw : Dict Val}
    {s : State G} {σ : VS G} (h : ShowsState m0 s σ)
    (ha : ShowsAll s.mem args (pos ++ kw.map (·.2))) (h1 : "self" ∉ kw.keys) (h2 : "rng" ∉ kw.keys) :
    Tally m0 Shows (apply cb args) ((byValue cb).call VS.genAttr pos kw) s σ := by
  have hc : (byValue cb).call (σ := VS G) VS.genAttr pos kw =
      VS.genAttr.run (do
        let o ← cb ((pos ++ kw.map (·.2)).map view)
        return o.ofVals (pos ++ kw.map (·.2))) := by
    unfold Callback.call
    rw [if_neg h1, if_pos (by rfl)]
    unfold Callback.invokeRng
    rw [if_neg h2, byValue_accepts, if_pos rfl]
    rfl
  rw [hc]
  have hv := ha.views
  generalize pos ++ kw.map (·.2) = xs at *
  have key : ∀ t τ, ShowsState m0 t τ → Untouched s.mem t.mem → ∀ o : Out,
      Tally m0 Shows (finish args o)
        (Pure.pure (o.ofVals xs) : PyM (VS G) Val) t τ := by
    intro t τ ht hu o
    cases o with
    | one p => exact .pure ht (Piece.shows (ha.mono hu) p)
    | list ps =>
      exact (tally_new ht (ShowsAll.map (fun p => Piece.shows (ha.mono hu) p) ps)).weaken
        fun _ _ _ h => h.shows
  have e1 : apply cb args s = (match cb (xs.map view) s.gen with
      | (.ok o, g) => finish args o { s with gen := g }
      | (.error e, g) => (.error e, { s with gen := g })) := by
    rw [← hv]
    show (onGen (cb (args.map fun v d => Alias.read s.mem d v)) >>= finish args) s = _
    rw [PyM.bind_apply]
    unfold onGen
    cases hcb : cb (args.map fun v d => Alias.read s.mem d v) s.gen with
    | mk r g => cases r <;> rfl
  have e2 : VS.genAttr.run (do
        let o ← cb (xs.map view)
        return o.ofVals xs) σ = (match cb (xs.map view) s.gen with
      | (.ok o, g) => (.ok (o.ofVals xs), { σ with gen := g })
      | (.error e, g) => (.error e, { σ with gen := g })) := by
    unfold Attr.run
    show (match (cb (xs.map view) >>= fun o => (return o.ofVals xs : PyM G Val)) σ.gen with
      | (r, g) => (r, VS.genAttr.set g σ)) = _
    rw [h.gen, PyM.bind_apply]
    cases hcb : cb (xs.map view) σ.gen with
    | mk r g => cases r <;> rfl
  unfold Tally
  rw [e1, e2]
  cases hcb : cb (xs.map view) s.gen with
  | mk r g =>
    have hs : ShowsState m0 { s with gen := g } { σ with gen := g } := ⟨h.mem, rfl, h.cache⟩
    cases r with
    | error e => exact ⟨.refl _, hs, rfl⟩
    | ok o => exact key _ _ hs (.refl _) o

/-! ### Emitters -/

/-- The emitter does the same with list objects as the other with values. -/
def Does (m0 : Mem) (e : Emitter G) (c : Child (VS G)) : Prop :=
  ∃ bad em many, c = emitterCallOr bad em many ∧
    (∀ s σ, ShowsState m0 s σ → Tally m0 Shows e.emit em s σ) ∧
    ∀ n s σ, ShowsState m0 s σ →
      Tally m0 ShowsList (e.emitMany n) (many n >>= fun l => Pure.pure (.list l)) s σ

theorem Does.none {e : Emitter G} {c : Child (VS G)} (h : Does m0 e c) {s : State G} {σ : VS G}
    (hs : ShowsState m0 s σ) : Tally m0 Shows e.emit (c Option.none) s σ := by
  obtain ⟨bad, em, many, rfl, h1, -⟩ := h
  exact h1 s σ hs

theorem Does.count {e : Emitter G} {c : Child (VS G)} (h : Does m0 e c) {a : Atom} {n : Int}
    (ha : a.toVal.asInt = some n) {s : State G} {σ : VS G} (hs : ShowsState m0 s σ) :
    Tally m0 ShowsList (e.call (.atom a)) (c (some a.toVal)) s σ := by
  obtain ⟨bad, em, many, rfl, h1, h2⟩ := h
  have key : Tally m0 ShowsList (if n = 1 then e.emit >>= fun v => new [v] else e.emitMany n)
      (if n = 1 then em >>= fun v => Pure.pure (.list [v])
        else many n >>= fun l => Pure.pure (.list l)) s σ := by
    by_cases hn : n = 1
    · rw [if_pos hn, if_pos hn]
      exact (h1 s σ hs).bind fun v x t τ hu ht hv => tally_new ht (.cons hv .nil)
    · rw [if_neg hn, if_neg hn]
      exact h2 n s σ hs
  have e1 : e.call (.atom a) = if n = 1 then e.emit >>= fun v => new [v] else e.emitMany n := by
    cases a with
    | none => simp [Atom.toVal, Val.asInt] at ha
    | bool b => simp only [Emitter.call, ha]
    | int i => simp only [Emitter.call, ha]
    | str l => simp [Atom.toVal, Val.asInt] at ha
    | other k => simp [Atom.toVal, Val.asInt] at ha
  have e2 : emitterCallOr bad em many (some a.toVal) =
      if n = 1 then em >>= fun v => Pure.pure (.list [v])
        else many n >>= fun l => Pure.pure (.list l) := by
    cases a with
    | none => simp [Atom.toVal, Val.asInt] at ha
    | bool b => simp only [Atom.toVal] at ha ⊢; simp only [emitterCallOr, ha]
    | int i => simp only [Atom.toVal] at ha ⊢; simp only [emitterCallOr, ha]
    | str l => simp [Atom.toVal, Val.asInt] at ha
    | other k => simp [Atom.toVal, Val.asInt] at ha
  rw [e1, e2]
  exact key

theorem Does.number {e : Emitter G} {c : Child (VS G)} (h : Does m0 e c) (n : Int) {s : State G}
    {σ : VS G} (hs : ShowsState m0 s σ) :
    Tally m0 ShowsList (e.call (.atom (.int n))) (c (some (.int n))) s σ :=
  h.count (a := .int n) rfl hs

theorem tally_members {s : State G} {σ : VS G} (h : ShowsState m0 s σ) {v : PVal} {x : Val}
    (hv : ShowsList s.mem v x) :
    Tally m0 ShowsAll (members v) (PyM.lift x.elems) s σ := by
  obtain ⟨a, l, rfl, rfl, ha, hl⟩ := hv
  exact ⟨.refl _, h, hl⟩

theorem tally_applyAll (cb : Callback G) : ∀ {vs : List PVal} {xs : List Val} {s : State G}
    {σ : VS G}, ShowsState m0 s σ → ShowsAll s.mem vs xs →
    Tally m0 ShowsAll (applyAll cb (vs.map fun v => [v]))
      (mapPyM (fun v => (byValue cb).call VS.genAttr [v] []) xs) s σ
  | _, _, _, _, h, .nil => .pure h .nil
  | _, _, _, _, h, .cons hv hs => by
    refine (tally_apply cb h (pos := [_]) (kw := []) (.cons hv .nil) (by simp [Dict.keys])
      (by simp [Dict.keys])).bind fun x y t τ hu ht hx => ?_
    refine (tally_applyAll cb ht (hs.mono hu)).bind fun xs ys t' τ' hu' ht' hxs => ?_
    exact .pure ht' (.cons (hx.mono hu') hxs)

theorem does_leaf {one : PyM G PVal} {many : Int → PyM G (List PVal)} {one' : PyM G Val}
    {many' : Int → PyM G (List Val)} (bad : Val → PyM (VS G) Val)
    (h : SameLeaf m0 one many one' many') :
    Does m0 (leaf one many)
      (emitterCallOr bad (VS.genAttr.run one') fun n => VS.genAttr.run (many' n)) := by
  refine ⟨bad, _, _, rfl, fun s σ hs => ?_, fun n s σ hs => ?_⟩
  · have h1 := h.state s.gen
    have h2 := h.value s.gen
    show Tally m0 Shows (onGen one) (VS.genAttr.run one') s σ
    have e1 : onGen one s = ((one s.gen).1, { s with gen := (one s.gen).2 }) := rfl
    have e2 : VS.genAttr.run one' σ = ((one' s.gen).1, { σ with gen := (one' s.gen).2 }) := by
      rw [hs.gen]; rfl
    unfold Tally
    rw [e1, e2]
    refine ⟨.refl _, ⟨hs.mem, h1, hs.cache⟩, ?_⟩
    generalize (one s.gen).1 = r at *
    generalize (one' s.gen).1 = r' at *
    cases r <;> cases r' <;> first | exact h2 | exact h2.mono hs.mem
  · have h1 := h.states n s.gen
    have h2 := h.values n s.gen
    refine Tally.bind (Q := ShowsAll) (c := onGen (many n)) (c' := VS.genAttr.run (many' n)) ?_
      fun l xs t τ hu ht hl => tally_new ht hl
    have e1 : onGen (many n) s = ((many n s.gen).1, { s with gen := (many n s.gen).2 }) := rfl
    have e2 : VS.genAttr.run (many' n) σ =
        ((many' n s.gen).1, { σ with gen := (many' n s.gen).2 }) := by
      rw [hs.gen]; rfl
    unfold Tally
    rw [e1, e2]
    refine ⟨.refl _, ⟨hs.mem, h1, hs.cache⟩, ?_⟩
    generalize (many n s.gen).1 = r at *
    generalize (many' n s.gen).1 = r' at *
    cases r <;> cases r' <;> first | exact h2 | exact h2.mono hs.mem

theorem does_wrapOne {e : Emitter G} {c : Child (VS G)} (cb : Callback G) (h : Does m0 e c) :
    Does m0 (wrapOne e cb) (WrapOne.call VS.genAttr c (byValue cb)) := by
  refine ⟨_, _, _, rfl, fun s σ hs => ?_, fun n s σ hs => ?_⟩
  · refine (h.none hs).bind fun v x t τ hu ht hv => ?_
    exact tally_apply cb ht (pos := [x]) (kw := []) (.cons hv .nil) (by simp [Dict.keys])
      (by simp [Dict.keys])
  · unfold WrapOne.emitMany
    rw [bind_assoc]
    refine (h.number n hs).bind fun v x t τ hu ht hv => ?_
    rw [bind_assoc]
    refine (tally_members ht hv).bind fun vs xs t τ hu ht hv => ?_
    exact (tally_applyAll cb ht hv).bind fun vs xs t τ hu ht hv => tally_new ht hv

/-! #### WrapMany -/

/-- Several results, named. -/
def ShowsDict (names : List String) (m : Mem) (vs : List PVal) (d : Dict Val) : Prop :=
  d.keys = names ∧ ShowsAll m vs (d.map (·.2))

theorem tally_callAll : ∀ {es : List (String × Emitter G × Child (VS G))} {s : State G} {σ : VS G},
    ShowsState m0 s σ → (∀ x ∈ es, Does m0 x.2.1 x.2.2) →
    Tally m0 (ShowsDict (es.map (·.1))) (callAll (.atom .none) (es.map (·.2.1)))
      (WrapMany.draw (es.map fun x => (x.1, x.2.2)) Option.none) s σ
  | [], _, _, hs, _ => .pure hs ⟨rfl, .nil⟩
  | x :: es, s, σ, hs, h => by
    have h1 := (h x (by simp)).none hs
    show Tally m0 _ (x.2.1.emit >>= _) ((x.2.2 Option.none >>= fun v => Pure.pure (x.1, v)) >>= _) s σ
    rw [bind_assoc]
    refine h1.bind fun v y t τ hu ht hv => ?_
    rw [pure_bind]
    refine (tally_callAll ht fun z hz => h z (List.mem_cons_of_mem _ hz)).bind
      fun vs d t' τ' hu' ht' hd => ?_
    exact .pure ht' ⟨by simpa [Dict.keys] using hd.1, .cons (hv.mono hu') hd.2⟩

/-- Several lists, named. -/
def ShowsLists (names : List String) (m : Mem) (vs : List PVal) (d : Dict Val) : Prop :=
  d.keys = names ∧ List.Forall₂ (fun v kx => ShowsList m v kx.2) vs d

theorem ShowsList.mono {m m' : Mem} (h : Untouched m m') {v : PVal} {x : Val}
    (hv : ShowsList m v x) : ShowsList m' v x := by
  obtain ⟨a, l, rfl, rfl, ha, hl⟩ := hv
  exact ⟨a, l, rfl, rfl, Nat.lt_of_lt_of_le ha h.1, by rw [h.2 _ ha]; exact hl.mono h⟩

theorem tally_callNumber (n : Int) : ∀ {es : List (String × Emitter G × Child (VS G))} {s : State G}
    {σ : VS G}, ShowsState m0 s σ → (∀ x ∈ es, Does m0 x.2.1 x.2.2) →
    Tally m0 (ShowsLists (es.map (·.1))) (callAll (.atom (.int n)) (es.map (·.2.1)))
      (WrapMany.draw (es.map fun x => (x.1, x.2.2)) (some (.int n))) s σ
  | [], _, _, hs, _ => .pure hs ⟨rfl, .nil⟩
  | x :: es, s, σ, hs, h => by
    have h1 := (h x (by simp)).number n hs
    show Tally m0 _ (x.2.1.call (.atom (.int n)) >>= _)
      ((x.2.2 (some (.int n)) >>= fun v => Pure.pure (x.1, v)) >>= _) s σ
    rw [bind_assoc]
    refine h1.bind fun v y t τ hu ht hv => ?_
    rw [pure_bind]
    refine (tally_callNumber n ht fun z hz => h z (List.mem_cons_of_mem _ hz)).bind
      fun vs d t' τ' hu' ht' hd => ?_
    exact .pure ht' ⟨by simpa [Dict.keys] using hd.1, .cons (hv.mono hu') hd.2⟩

/-- The members of several lists. -/
def ShowsRows (m : Mem) (ls : List (List PVal)) (d : Dict Val) : Prop :=
  List.Forall₂ (fun l (kx : String × Val) => ∃ xs, kx.2 = .list xs ∧ ShowsAll m l xs) ls d

theorem ShowsRows.mono {m m' : Mem} (h : Untouched m m') {ls : List (List PVal)} {d : Dict Val}
    (hd : ShowsRows m ls d) : ShowsRows m' ls d := by
  refine hd.imp ?_
  rintro l kx ⟨xs, h1, h2⟩
  exact ⟨xs, h1, h2.mono h⟩

theorem membersAll_rows {s : State G} : ∀ {vs : List PVal} {d : Dict Val},
    List.Forall₂ (fun v kx => ShowsList s.mem v kx.2) vs d →
    ∃ ls, membersAll vs s = (.ok ls, s) ∧ ShowsRows s.mem ls d
  | _, _, .nil => ⟨[], rfl, .nil⟩
  | _, _, .cons (a := v) (b := kx) hv hs => by
    obtain ⟨a, l, rfl, hx, ha, hl⟩ := hv
    obtain ⟨ls, h1, h2⟩ := membersAll_rows hs
    refine ⟨s.mem.lists a :: ls, ?_, .cons ⟨l, hx, hl⟩ h2⟩
    unfold membersAll
    rw [PyM.bind_ok (m := members (.list a)) (a := s.mem.lists a) (s' := s) rfl, PyM.bind_ok h1]
    rfl

theorem ShowsAll.getElem? {m : Mem} : ∀ {vs : List PVal} {xs : List Val}, ShowsAll m vs xs →
    ∀ i : Nat, match vs[i]?, xs[i]? with
      | some v, some x => Shows m v x
      | Option.none, Option.none => True
      | _, _ => False
  | _, _, .nil, i => by simp
  | _, _, .cons hv _, 0 => by simpa using hv
  | _, _, .cons _ hs, i + 1 => by simpa using hs.getElem? i

theorem pyListGet_nat {α : Type} (l : List α) (i : Nat) :
    pyListGet l (i : Int) = match l[i]? with
      | some x => .ok x
      | Option.none => .error .indexError := by
  unfold pyListGet
  simp only [Int.not_lt.mpr (Int.natCast_nonneg i), if_false, Int.toNat_natCast]
  rfl

theorem column_row (i : Nat) (s : State G) : ∀ {ls : List (List PVal)} {d : Dict Val},
    ShowsRows s.mem ls d →
    (column i ls s).2 = s ∧ match (column i ls s).1, WrapMany.row d (i : Int) with
      | .ok vs, .ok kw => ShowsDict d.keys s.mem vs kw
      | .error e, .error e' => e = e'
      | _, _ => False
  | _, _, .nil => ⟨rfl, rfl, .nil⟩
  | _, _, .cons (a := l) (b := kx) (l₁ := ls) (l₂ := d) hv hs => by
    obtain ⟨k, x⟩ := kx
    obtain ⟨xs, rfl, hl⟩ := hv
    obtain ⟨h1, h2⟩ := column_row i s hs
    have hi := hl.getElem? i
    have hrow : WrapMany.row ((k, .list xs) :: d) (i : Int) =
        (pyListGet xs (i : Int) >>= fun v => WrapMany.row d (i : Int) >>= fun kw =>
          Except.ok ((k, v) :: kw)) := by
      unfold WrapMany.row
      rw [mapPy]
      simp only [Val.getItem]
      cases pyListGet xs (i : Int) <;> rfl
    rw [hrow, pyListGet_nat]
    unfold column
    cases hx : xs[i]? with
    | none =>
      cases hl' : l[i]? with
      | none => exact ⟨rfl, rfl⟩
      | some v => rw [hx, hl'] at hi; exact hi.elim
    | some x =>
      cases hl' : l[i]? with
      | none => rw [hx, hl'] at hi; exact hi.elim
      | some v =>
        rw [hx, hl'] at hi
        simp only [Py.ok_bind]
        rw [PyM.bind_apply]
        generalize column i ls s = p at *
        generalize WrapMany.row d (i : Int) = q at *
        obtain ⟨r, t⟩ := p
        simp only at h1
        subst h1
        cases r with
        | error e =>
          cases q with
          | error e' => exact ⟨rfl, h2⟩
          | ok kw => exact h2.elim
        | ok vs =>
          cases q with
          | error e' => exact h2.elim
          | ok kw => exact ⟨rfl, by simpa [Dict.keys] using h2.1, .cons hi h2.2⟩

theorem tally_column (i : Nat) {ls : List (List PVal)} {d : Dict Val} {s : State G} {σ : VS G}
    (hs : ShowsState m0 s σ) (hr : ShowsRows s.mem ls d) :
    Tally m0 (ShowsDict d.keys) (column i ls) (PyM.lift (WrapMany.row d (i : Int))) s σ := by
  obtain ⟨h1, h2⟩ := column_row i s hr
  have e2 : (PyM.lift (WrapMany.row d (i : Int)) : PyM (VS G) (Dict Val)) σ =
    (WrapMany.row d (i : Int), σ) := rfl
  unfold Tally
  rw [h1, e2]
  refine ⟨.refl _, hs, ?_⟩
  generalize (column i ls s).1 = p at *
  generalize WrapMany.row d (i : Int) = q at *
  cases p <;> cases q <;> exact h2

theorem tally_rows (cb : Callback G) {ls : List (List PVal)} {d : Dict Val} (h1 : "self" ∉ d.keys)
    (h2 : "rng" ∉ d.keys) : ∀ (k i : Nat) {s : State G} {σ : VS G}, ShowsState m0 s σ →
    ShowsRows s.mem ls d →
    Tally m0 ShowsAll (rows cb ls i k) (mapPyM (fun (j : Nat) => do
      let kwargs ← PyM.lift (WrapMany.row d (j : Int))
      (byValue cb).call VS.genAttr [] kwargs) (List.range' i k)) s σ
  | 0, _, _, _, hs, _ => .pure hs .nil
  | k + 1, i, s, σ, hs, hr => by
    show Tally m0 _ (column i ls >>= _) ((PyM.lift (WrapMany.row d (i : Int)) >>= _) >>= _) s σ
    rw [bind_assoc]
    refine (tally_column i hs hr).bind fun vs kw t τ hu ht hv => ?_
    refine (tally_apply cb ht (pos := []) (kw := kw) hv.2 (by rw [hv.1]; exact h1)
      (by rw [hv.1]; exact h2)).bind fun v x t' τ' hu' ht' hx => ?_
    refine (tally_rows cb h1 h2 k (i + 1) ht' (hr.mono (hu.trans hu'))).bind
      fun vs xs t'' τ'' hu'' ht'' hxs => ?_
    exact .pure ht'' (.cons (hx.mono hu'') hxs)

theorem does_wrapMany {es : List (String × Emitter G × Child (VS G))} (cb : Callback G)
    (hn : OkNames (es.map (·.1))) (h : ∀ x ∈ es, Does m0 x.2.1 x.2.2) :
    Does m0 (wrapMany (es.map (·.2.1)) cb)
      (WrapMany.call VS.genAttr (es.map fun x => (x.1, x.2.2)) (byValue cb)) := by
  refine ⟨_, _, _, rfl, fun s σ hs => ?_, fun n s σ hs => ?_⟩
  · refine (tally_callAll hs h).bind fun vs d t τ hu ht hd => ?_
    exact tally_apply cb ht (pos := []) (kw := d) hd.2 (by rw [hd.1]; exact hn.2.1)
      (by rw [hd.1]; exact hn.2.2)
  · unfold WrapMany.emitMany
    rw [bind_assoc]
    refine (tally_callNumber n hs h).bind fun vs d t τ hu ht hd => ?_
    obtain ⟨ls, hl1, hl2⟩ := membersAll_rows hd.2
    have key : Tally m0 ShowsList (rows cb ls 0 n.toNat >>= new) (mapPyM (fun (i : Nat) => do
        let kwargs ← PyM.lift (WrapMany.row d (i : Int))
        (byValue cb).call VS.genAttr [] kwargs) (List.range n.toNat) >>=
          fun l => Pure.pure (.list l)) t τ := by
      rw [List.range_eq_range']
      exact (tally_rows cb (by rw [hd.1]; exact hn.2.1) (by rw [hd.1]; exact hn.2.2) n.toNat 0 ht
        hl2).bind fun vs xs t τ hu ht hv => tally_new ht hv
    unfold Tally at key ⊢
    rw [PyM.bind_ok hl1]
    exact key

/-! #### CopyFields and BasedOnFields -/

theorem joinWith_eq (sep : List Char) : ∀ l : List (List Char), joinWith sep l = sep.intercalate l
  | [] => by simp [joinWith]
  | [a] => by simp [joinWith]
  | a :: b :: l => by
    rw [joinWith, joinWith_eq sep (b :: l)]
    simp [List.intercalate, List.intersperse]

theorem pieces_shows {m : Mem} {v : PVal} {x : Val} (h : Shows m v x) :
    ∃ l, ShowsAll m (pieces m v) l ∧ ∀ {σ : VS G} (vals : List Val) (f : SourceField (VS G))
      (fs : List (SourceField (VS G))), f.previous σ = x →
      CopyFields.collect σ vals (f :: fs) = CopyFields.collect σ (vals ++ l) fs := by
  cases h with
  | atom a =>
    cases a with
    | none =>
      refine ⟨[], .nil, fun vals f fs hf => ?_⟩
      rw [CopyFields.collect, hf, List.append_nil]
      rfl
    | bool b =>
      exact ⟨[.bool b], .cons (.atom (.bool b)) .nil, fun vals f fs hf => by
        rw [CopyFields.collect, hf]; rfl⟩
    | int b =>
      exact ⟨[.int b], .cons (.atom (.int b)) .nil, fun vals f fs hf => by
        rw [CopyFields.collect, hf]; rfl⟩
    | str b =>
      exact ⟨[.str b], .cons (.atom (.str b)) .nil, fun vals f fs hf => by
        rw [CopyFields.collect, hf]; rfl⟩
    | other b =>
      exact ⟨[.other b], .cons (.atom (.other b)) .nil, fun vals f fs hf => by
        rw [CopyFields.collect, hf]; rfl⟩
  | list ha hl => exact ⟨_, hl, fun vals f fs hf => by rw [CopyFields.collect, hf]⟩

theorem collect_shows {s : State G} {σ : VS G} (h : ShowsState m0 s σ) :
    ∀ {source : List Ref} {fs : List (SourceField (VS G))},
    fs.map (·.previous σ) = source.map σ.cache → ∃ l,
      ShowsAll s.mem (source.flatMap fun f => pieces s.mem (s.cache f)) l ∧
      ∀ vals, CopyFields.collect σ vals fs = vals ++ l
  | [], [], _ => ⟨[], .nil, fun vals => by simp [CopyFields.collect]⟩
  | [], _ :: _, e => by simp at e
  | _ :: _, [], e => by simp at e
  | r :: source, f :: fs, e => by
    simp only [List.map_cons, List.cons.injEq] at e
    obtain ⟨l1, h1, h2⟩ := pieces_shows (h.cache r)
    obtain ⟨l2, h3, h4⟩ := collect_shows h e.2
    refine ⟨l1 ++ l2, ?_, fun vals => ?_⟩
    · rw [List.flatMap_cons]
      exact h1.append h3
    · rw [h2 vals f fs e.1, h4, List.append_assoc]

theorem tally_copyEmit (str : View → List Char) {source : List Ref} {single : Bool}
    (sep : Option (List Char)) {g : SourceGroup (VS G)}
    (hg : ∀ σ, g.fields.map (·.previous σ) = source.map σ.cache)
    (hs : ∀ σ, g.singleValued σ = single) {s : State G} {σ : VS G} (h : ShowsState m0 s σ) :
    Tally m0 Shows (copyEmit str source single sep)
      (CopyFields.emit (fun x => str (view x)) g sep) s σ := by
  unfold copyEmit CopyFields.emit
  refine Tally.get_bind ?_
  have hg := hg σ
  rw [hs σ]
  cases single with
  | true =>
    rw [if_pos rfl, if_pos rfl]
    generalize g.fields = fs at *
    cases source with
    | nil =>
      cases fs with
      | nil => exact .raise _ h
      | cons f fs => simp at hg
    | cons r source =>
      cases fs with
      | nil => simp at hg
      | cons f fs =>
        simp only [List.map_cons, List.cons.injEq] at hg
        exact .pure h (hg.1 ▸ h.cache r)
  | false =>
    rw [if_neg (by simp), if_neg (by simp)]
    obtain ⟨l, h1, h2⟩ := collect_shows h hg
    rw [h2 [], List.nil_append]
    generalize (source.flatMap fun f => pieces s.mem (s.cache f)) = vs at *
    cases sep with
    | none =>
      cases h1 with
      | nil => exact .pure h (.atom .none)
      | cons hv hl =>
        exact (tally_new h (.cons hv hl)).weaken fun _ _ _ h => h.shows
    | some sep =>
      have e : (vs.map fun v => str fun d => Alias.read s.mem d v) = l.map fun x => str (view x) := by
        have := congrArg (List.map str) h1.views
        simpa [List.map_map, Function.comp_def] using this
      show Tally m0 Shows (Pure.pure _) (Pure.pure _) s σ
      rw [e, joinWith_eq]
      exact .pure h (.atom (.str _))

theorem tally_repeated {c : PyM (State G) PVal} {c' : PyM (VS G) Val} {s : State G} {σ : VS G}
    (h : Tally m0 Shows c c' s σ) (n : Int) :
    Tally m0 ShowsList (repeated c n)
      ((do
        let v ← c'
        return List.replicate n.toNat v) >>= fun l => Pure.pure (.list l)) s σ := by
  rw [bind_assoc]
  refine h.bind fun v x t τ hu ht hv => ?_
  rw [pure_bind]
  exact tally_new ht (.replicate hv _)

theorem does_copyFields (str : View → List Char) {source : List Ref} {single : Bool}
    (sep : Option (List Char)) {g : SourceGroup (VS G)}
    (hg : ∀ σ, g.fields.map (·.previous σ) = source.map σ.cache)
    (hs : ∀ σ, g.singleValued σ = single) :
    Does m0 (copyFields str source single sep) (CopyFields.call (fun x => str (view x)) g sep) :=
  ⟨_, _, _, rfl, fun _ _ h => tally_copyEmit str sep hg hs h,
    fun n _ _ h => tally_repeated (tally_copyEmit str sep hg hs h) n⟩

theorem tally_basedOn {source : List Ref} (cb : Callback G) {g : SourceGroup (VS G)}
    (hg : ∀ σ, g.fields.map (·.previous σ) = source.map σ.cache)
    (hn : OkNames (g.fields.map (·.name))) {s : State G} {σ : VS G} (h : ShowsState m0 s σ) :
    Tally m0 Shows (basedOnEmit source cb) (BasedOnFields.emit VS.genAttr g (byValue cb)) s σ := by
  unfold basedOnEmit BasedOnFields.emit
  refine Tally.get_bind ?_
  have hg := hg σ
  have hall : ShowsAll s.mem (source.map s.cache) (g.fields.map (·.previous σ)) := by
    rw [hg]
    exact .map (fun r => h.cache r) source
  generalize hfs : g.fields = fs at *
  match fs, hfs, hall, hn with
  | [f], _, hall, _ =>
    exact tally_apply cb h (pos := [_]) (kw := []) hall (by simp [Dict.keys]) (by simp [Dict.keys])
  | [], _, hall, _ =>
    exact tally_apply cb h (pos := []) (kw := []) hall (by simp [Dict.keys]) (by simp [Dict.keys])
  | f :: f' :: fs, _, hall, hn =>
    have hk : Dict.keys ((f :: f' :: fs).map fun f => (f.name, f.previous σ)) =
        (f :: f' :: fs).map (·.name) := by simp [Dict.keys, List.map_map, Function.comp_def]
    show Tally m0 Shows _ ((byValue cb).call VS.genAttr []
      (Dict.ofItems ((f :: f' :: fs).map fun f => (f.name, f.previous σ)))) s σ
    rw [Dict.ofItems_of_nodup _ (by rw [hk]; exact hn.1)]
    refine tally_apply cb h (pos := []) (kw := _) ?_ (by rw [hk]; exact hn.2.1)
      (by rw [hk]; exact hn.2.2)
    simpa [List.map_map, Function.comp_def] using hall

theorem does_basedOn {source : List Ref} (cb : Callback G) {g : SourceGroup (VS G)}
    (hg : ∀ σ, g.fields.map (·.previous σ) = source.map σ.cache)
    (hn : OkNames (g.fields.map (·.name))) :
    Does m0 (basedOnFields source cb) (BasedOnFields.call VS.genAttr g (byValue cb)) :=
  ⟨_, _, _, rfl, fun _ _ h => tally_basedOn cb hg hn h,
    fun n _ _ h => tally_repeated (tally_basedOn cb hg hn h) n⟩

theorem Valued.does {e : Emitter G} {c : Child (VS G)} (h : Valued m0 e c) : Does m0 e c := by
  induction h with
  | leaf bad h => exact does_leaf bad h
  | wrapOne cb _ ih => exact does_wrapOne cb ih
  | wrapMany cb hn _ ih => exact does_wrapMany cb hn ih
  | copyFields str sep hg hs => exact does_copyFields str sep hg hs
  | basedOnFields cb hg hn => exact does_basedOn cb hg hn

/-- **C91 (emitters).**  Every emitter, called with `None` or an integer, does with
list objects what the models with lists as values say: the same exceptions, and a result that looks
like theirs. -/
theorem C91_emitter {e : Emitter G} {c : Child (VS G)} (h : Valued m0 e c) (a : Atom)
    (ha : a = .none ∨ a.toVal.asInt.isSome = true) (s : State G) (σ : VS G)
    (hs : ShowsState m0 s σ) : Tally m0 Shows (e.call (.atom a)) (c (some a.toVal)) s σ := by
  rcases ha with rfl | ha
  · obtain ⟨bad, em, many, rfl, h1, -⟩ := h.does
    exact h1 s σ hs
  · obtain ⟨n, hn⟩ := Option.isSome_iff_exists.1 ha
    exact (h.does.count hn hs).weaken fun _ _ _ h => h.shows

/-! ### Fields and documents -/

theorem tally_setCache (f : Ref) {v : PVal} {x : Val} {s : State G} {σ : VS G}
    (h : ShowsState m0 s σ) (hv : Shows s.mem v x) :
    Tally m0 (fun m _ _ => Shows m v x) (setCache f v) (PyM.modify ((VS.cacheAttr f).set x)) s σ := by
  refine ⟨.refl _, ⟨h.mem, h.gen, fun r => ?_⟩, hv⟩
  show Shows s.mem (if r = f then v else s.cache r) (if r = f then x else σ.cache r)
  by_cases hr : r = f
  · rw [if_pos hr, if_pos hr]; exact hv
  · rw [if_neg hr, if_neg hr]; exact h.cache r

theorem tally_field {f : FieldObj G} {c : FieldChildren G} (hf : ValuedField m0 f c) {s : State G}
    {σ : VS G} (h : ShowsState m0 s σ) :
    Tally m0 Shows f.call (callByValue (f, c)) s σ := by
  unfold FieldObj.call callByValue Field.call
  refine (hf.gate.does.none h).bind fun g x t τ hu ht hg => ?_
  refine Tally.get_left ?_
  rw [hg.truthy]
  by_cases hx : x.truthy = true
  · rw [if_pos hx, if_pos hx]
    refine ((hf.rep.does.none ht).keep (hf.number τ)).bind fun n y t τ hu ht hn => ?_
    obtain ⟨hn, hy⟩ := hn
    have hcall : Tally m0 Shows (f.emitter.call n) (c.emitter (some y)) t τ := by
      cases hn with
      | atom a =>
        refine C91_emitter hf.emitter a ?_ t τ ht
        rcases hy with hy | hy
        · exact .inl (by cases a <;> first | rfl | exact absurd hy (by simp [Atom.toVal]))
        · exact .inr hy
      | list ha hl => simp [Val.asInt] at hy
    refine hcall.bind fun v z t τ hu ht hv => ?_
    exact (tally_setCache f.ref ht hv).bind fun _ _ t τ hu ht hv => .pure ht hv
  · rw [if_neg hx, if_neg hx]
    exact (tally_setCache f.ref ht (.atom .none)).bind fun _ _ t τ hu ht hv => .pure ht hv

/-- Two documents that look the same. -/
def ShowsDoc (m : Mem) (d : Dict PVal) (d' : Dict Val) : Prop :=
  List.Forall₂ (fun kv kx => kv.1 = kx.1 ∧ Shows m kv.2 kx.2) d d'

theorem loop_append {ι : Type} {σ : Type} (hide : ι → Bool) (call : ι → PyM σ Val) :
    ∀ (doc : Dict Val) (fs : Dict ι), (doc.keys ++ fs.keys).Nodup →
    Schema.loop hide call doc fs = Schema.loop hide call [] fs >>= fun d => Pure.pure (doc ++ d)
  | doc, [], _ => by
    rw [Schema.loop, Schema.loop, pure_bind, List.append_nil]
  | doc, (k, f) :: fs, hn => by
    have hk : k ∉ doc.keys := by
      intro hk
      have := List.disjoint_of_nodup_append hn hk
      simp [Dict.keys] at this
    have hd : (doc.keys ++ Dict.keys fs).Nodup := by
      refine hn.sublist (List.Sublist.append_left ?_ _)
      exact List.sublist_cons_self _ _
    have hfs : (Dict.keys fs).Nodup := (List.nodup_append.1 hd).2.1
    have hkf : k ∉ Dict.keys fs := by
      have := (List.nodup_append.1 hn).2.1
      simp only [Dict.keys, List.map_cons, List.nodup_cons] at this
      exact this.1
    rw [Schema.loop, Schema.loop, bind_assoc]
    refine congrArg _ (funext fun v => ?_)
    by_cases hh : hide f = true
    · rw [if_pos hh, if_pos hh]
      exact loop_append hide call doc fs hd
    · rw [if_neg hh, if_neg hh]
      rw [Dict.set_of_not_mem hk v, Dict.set_of_not_mem (by simp [Dict.keys]) v]
      rw [loop_append hide call (doc ++ [(k, v)]) fs, loop_append hide call ([] ++ [(k, v)]) fs,
        bind_assoc]
      · refine congrArg _ (funext fun d => ?_)
        rw [pure_bind]
        simp
      · have : (k :: Dict.keys fs).Nodup := List.nodup_cons.2 ⟨hkf, hfs⟩
        simpa [Dict.keys] using this
      · simpa [Dict.keys, List.append_assoc] using hn

theorem tally_document : ∀ {fs : List (FieldObj G × FieldChildren G)} {s : State G} {σ : VS G},
    ShowsState m0 s σ → (fs.map (·.1.name)).Nodup → (∀ fc ∈ fs, ValuedField m0 fc.1 fc.2) →
    Tally m0 ShowsDoc (document (fs.map (·.1))) (documentByValue fs) s σ
  | [], _, _, h, _, _ => .pure h .nil
  | fc :: fs, s, σ, h, hn, hf => by
    simp only [List.map_cons, List.nodup_cons] at hn
    have hd : documentByValue (fc :: fs) = callByValue fc >>= fun v => documentByValue fs >>= fun d =>
        Pure.pure (if fc.1.hide then d else (fc.1.name, v) :: d) := by
      unfold documentByValue Schema.call
      rw [List.map_cons, Schema.loop]
      refine congrArg _ (funext fun v => ?_)
      by_cases hh : fc.1.hide = true
      · simp [hh]
      · rw [if_neg hh, Dict.set_of_not_mem (by simp [Dict.keys]) v, loop_append]
        · simp [hh]
        · simpa [Dict.keys, List.map_map, Function.comp_def] using hn
    rw [hd]
    refine (tally_field (hf fc (by simp)) h).bind fun v x t τ hu ht hv => ?_
    refine (tally_document ht hn.2 fun fc' h' => hf fc' (by simp [h'])).bind
      fun d d' t' τ' hu' ht' hd' => ?_
    by_cases hh : fc.1.hide = true
    · rw [if_pos hh, if_pos hh]
      exact .pure ht' hd'
    · rw [if_neg hh, if_neg hh]
      exact .pure ht' (.cons ⟨rfl, hv.mono hu'⟩ hd')

/-- The state after `k` documents, made or failed. -/
def afterDocs {σ α : Type} (doc : PyM σ α) (k : Nat) (s : σ) : σ := (fun s => (doc s).2)^[k] s

/-- **C91 (documents).**  As long as a user changes no list, documents made of list
objects are those of the models in which lists are values: however many documents have been made, the
next one fails with the same exception or has the same keys in the same order, and every value in it
looks, to every depth, like the value of the models — right away and after any number of further
documents. -/
theorem C91_documents (fs : List (FieldObj G × FieldChildren G)) (hn : (fs.map (·.1.name)).Nodup)
    (hf : ∀ fc ∈ fs, ValuedField m0 fc.1 fc.2) (s : State G) (σ : VS G) (hs : ShowsState m0 s σ)
    (k : Nat) :
    match (document (fs.map (·.1)) (afterDocs (document (fs.map (·.1))) k s)).1,
      (documentByValue fs (afterDocs (documentByValue fs) k σ)).1 with
    | .ok d, .ok d' => ∀ j, List.Forall₂ (fun kv kx => kv.1 = kx.1 ∧
        (fun depth => read (afterDocs (document (fs.map (·.1))) (k + 1 + j) s).mem depth kv.2) =
          view kx.2) d d'
    | .error e, .error e' => e = e'
    | _, _ => False := by
  have hstate : ∀ k, ShowsState m0 (afterDocs (document (fs.map (·.1))) k s)
      (afterDocs (documentByValue fs) k σ) := by
    intro k
    induction k with
    | zero => exact hs
    | succ k ih =>
      unfold afterDocs at *
      rw [Function.iterate_succ_apply', Function.iterate_succ_apply']
      exact (tally_document ih hn hf).2.1
  have hmem : ∀ k j, Untouched (afterDocs (document (fs.map (·.1))) k s).mem
      (afterDocs (document (fs.map (·.1))) (k + j) s).mem := by
    intro k j
    induction j with
    | zero => exact .refl _
    | succ j ih =>
      refine ih.trans ?_
      have := (tally_document (hstate (k + j)) hn hf).1
      unfold afterDocs at *
      rw [← Nat.add_assoc, Function.iterate_succ_apply']
      exact this
  obtain ⟨-, -, h3⟩ := tally_document (hstate k) hn hf
  have e : (document (fs.map (·.1)) (afterDocs (document (fs.map (·.1))) k s)).2 =
      afterDocs (document (fs.map (·.1))) (k + 1) s := by
    unfold afterDocs
    rw [Function.iterate_succ_apply']
  rw [e] at h3
  generalize (document (fs.map (·.1)) (afterDocs (document (fs.map (·.1))) k s)).1 = r at *
  generalize (documentByValue fs (afterDocs (documentByValue fs) k σ)).1 = r' at *
  cases r with
  | error e => cases r' <;> exact h3
  | ok d =>
    cases r' with
    | error e => exact h3
    | ok d' =>
      intro j
      refine List.Forall₂.imp (fun kv kx h => ⟨h.1, ?_⟩) h3
      funext depth
      exact (h.2.mono (hmem (k + 1) j)).read depth

/-- Fields that have not been called yet. -/
theorem showsState_start (m : Mem) (g : G) :
    ShowsState m ⟨m, fun _ => .atom .none, g⟩ ⟨fun _ => .none, g⟩ :=
  ⟨.refl _, rfl, fun _ => .atom .none⟩

/-! ### Example: a repeated counter, pairs of it, a copy, and a value based on both -/

/-- `counter` with values. -/
def counterV : Child (VS Nat) :=
  emitterCallOr (fun _ => PyM.raise .typeError) (VS.genAttr.run fun g => (.ok (.int g), g + 1))
    fun n => VS.genAttr.run fun g =>
      (.ok ((List.range n.toNat).map fun i => .int (g + i)), g + n.toNat)

/-- `Static(a)` with values. -/
def staticV (a : Val) : Child (VS Nat) :=
  emitterCallOr (fun _ => PyM.raise .typeError) (VS.genAttr.run (pure a))
    fun n => VS.genAttr.run (pure (List.replicate n.toNat a))

theorem valued_counter : Valued m0 counter counterV :=
  .leaf _ ⟨fun _ => rfl, fun _ _ => rfl, fun g => .atom (.int g),
    fun _ _ => ShowsAll.map (fun _ => .atom (.int _)) _⟩

theorem valued_static (a : Atom) : Valued m0 (static (.atom a)) (staticV a.toVal) :=
  .leaf _ ⟨fun _ => rfl, fun _ _ => rfl, fun _ => .atom a,
    fun _ _ => ShowsAll.replicate (.atom a) _⟩

theorem valuedField {name : String} {ref : Ref} {e : Emitter Nat} {c : Child (VS Nat)} {a : Atom}
    (h : Valued m0 e c) (ha : a = .none ∨ a.toVal.asInt.isSome = true) :
    ValuedField m0 (fieldOf name ref e a) ⟨c, staticV a.toVal, staticV (.bool true)⟩ where
  emitter := h
  rep := valued_static a
  gate := valued_static (.bool true)
  number σ v hv := by
    cases hv
    exact ha.imp (fun h => by rw [h]; rfl) id

/-- The field with this number, as a source field. -/
def sourceV (name : String) (ref : Ref) : SourceField (VS Nat) where
  name := name
  previous σ := σ.cache ref
  multiValued _ := true
  call := PyM.raise .typeError
  reset := PyM.raise .typeError
  seed _ := PyM.raise .typeError

/-- The two source fields. -/
def sourcesV : SourceGroup (VS Nat) := .ofList [sourceV "n" 0, sourceV "pair" 1]

/-- `Field('n', counter, repeat=Static(2))`, `Field('pair', WrapOne(counter, lambda x: [x, x]))`,
`Field('copy', CopyFields([n, pair]))`, `Field('both', BasedOnFields([n, pair], ...))`. -/
def demoV : List (FieldObj Nat × FieldChildren Nat) :=
  [(fieldOf "n" 0 counter (.int 2), ⟨counterV, staticV (.int 2), staticV (.bool true)⟩),
    (fieldOf "pair" 1 (wrapOne counter twice) .none,
      ⟨WrapOne.call VS.genAttr counterV (byValue twice), staticV .none, staticV (.bool true)⟩),
    (fieldOf "copy" 2 (copyFields anyStr [0, 1] false none) .none,
      ⟨CopyFields.call (fun x => anyStr (view x)) sourcesV none, staticV .none, staticV (.bool true)⟩),
    (fieldOf "both" 3 (basedOnFields [0, 1] twice) .none,
      ⟨BasedOnFields.call VS.genAttr sourcesV (byValue twice), staticV .none, staticV (.bool true)⟩)]

theorem demoV_valued : ∀ fc ∈ demoV, ValuedField m0 fc.1 fc.2 := by
  intro fc h
  simp only [demoV, List.mem_cons, List.not_mem_nil, or_false] at h
  rcases h with rfl | rfl | rfl | rfl
  · exact valuedField valued_counter (.inr rfl)
  · exact valuedField (.wrapOne twice valued_counter) (.inl rfl)
  · exact valuedField (.copyFields anyStr none (fun _ => rfl) fun _ => rfl) (.inl rfl)
  · exact valuedField (.basedOnFields twice (fun _ => rfl) ⟨by decide, by decide, by decide⟩) (.inl rfl)

/-- The theorem applies to every document of these fields. -/
example : (demoV.map (·.1.name)).Nodup ∧ (∀ fc ∈ demoV, ValuedField ⟨fun _ => [], 0⟩ fc.1 fc.2) ∧
    ShowsState ⟨fun _ => [], 0⟩ blank ⟨fun _ => .none, 0⟩ :=
  ⟨by decide, demoV_valued, showsState_start _ _⟩
/-- The second document, with values ... -/
example : (documentByValue demoV (afterDocs (documentByValue demoV) 1 ⟨fun _ => .none, 0⟩)).1 = .ok
    [("n", .list [.int 3, .int 4]), ("pair", .list [.int 5, .int 5]),
      ("copy", .list [.int 3, .int 4, .int 5, .int 5]),
      ("both", .list [.list [.int 3, .int 4], .list [.int 3, .int 4]])] := by decide +kernel
/-- ... and with list objects, the pair in `both` being the list in `n` twice. -/
example : (document (demoV.map (·.1)) (afterDocs (document (demoV.map (·.1))) 1 blank)).1 =
    .ok [("n", .list 4), ("pair", .list 5), ("copy", .list 6), ("both", .list 7)] := by
  decide +kernel
example : (afterDocs (document (demoV.map (·.1))) 2 blank).mem.lists 7 = [.list 4, .list 4] := by
  decide +kernel

end Fauxdoc.Alias
