import Verif.Proofs.Wrappers
import Verif.Props.Text2
/-
C37, C38, C40, C41: the wrapper emitters.
-/
namespace Fauxdoc
variable {σ G : Type}

/-! ### C37: WrapOne is map -/

/-- `wrap_one()` returns exactly when the source does and the callback does on the source's value;
the source is called once, without argument. -/
theorem C37_one (L : Attr σ G) (src : Child σ) (cb : Callback G) (s t : σ) (w : Val) :
    WrapOne.call L src cb none s = (.ok w, t) ↔
      ∃ v t1, src none s = (.ok v, t1) ∧ Applies L cb [([v], [])] t1 [w] t := by
  have e : WrapOne.call L src cb none = WrapOne.emit L src cb := rfl
  rw [e]
  have key : ∀ v t1, cb.call L [v] [] t1 = (.ok w, t) ↔ Applies L cb [([v], [])] t1 [w] t := by
    intro v t1
    rw [← runs_call_iff (by simp [Dict.keys])]
    constructor
    · intro h; exact .cons h (.nil _)
    · intro h
      cases h with
      | cons h1 h2 => cases h2; exact h1
  constructor
  · intro h
    obtain ⟨v, t1, h1, h2⟩ := PyM.bind_eq_ok h
    exact ⟨v, t1, h1, (key v t1).1 h2⟩
  · rintro ⟨v, t1, h1, h2⟩
    unfold WrapOne.emit
    rw [PyM.bind_ok h1]
    exact (key v t1).2 h2

/-- `wrap_one(n)` is the callback applied, in order, to the members of `source(n)`; the source is
called once with `n`. -/
theorem C37_many (L : Attr σ G) (src : Child σ) {I : σ → Prop} (hsrc : SingleIsEmit I src)
    (cb : Callback G) (n : Int) (s t : σ) (w : Val) (hI : I s) :
    WrapOne.call L src cb (some (.int n)) s = (.ok w, t) ↔
      ∃ v l t1 ws, src (some (.int n)) s = (.ok v, t1) ∧ v.elems = .ok l ∧
        Applies L cb (l.map fun v => ([v], [])) t1 ws t ∧ w = .list ws := by
  by_cases hn : n = 1
  · subst hn
    have e1 := (singleIsEmit_call (Word.emitBad src) (WrapOne.emit L src cb) (WrapOne.emitMany L src cb) s
      trivial).1
    change WrapOne.call L src cb (some (.int 1)) s = _ at e1
    have e2 : emitterCallOr (Word.emitBad src) (WrapOne.emit L src cb) (WrapOne.emitMany L src cb) none
      = WrapOne.call L src cb none := rfl
    rw [e2] at e1
    have e3 := (hsrc s hI).1
    constructor
    · intro h
      rw [h] at e1
      cases h1 : WrapOne.call L src cb none s with
      | mk r t' =>
        cases r with
        | error x => rw [h1] at e1; cases e1
        | ok w' =>
          rw [h1] at e1
          cases e1
          obtain ⟨v, t1, h2, h3⟩ := (C37_one L src cb s t w').1 h1
          rw [h2] at e3
          exact ⟨_, [v], t1, [w'], e3, rfl, h3, rfl⟩
    · rintro ⟨v, l, t1, ws, h1, h2, h3, rfl⟩
      rw [e1]
      cases h4 : src none s with
      | mk r t' =>
        cases r with
        | error x => rw [h4, h1] at e3; cases e3
        | ok v' =>
          rw [h4, h1] at e3
          cases e3
          cases h2
          have : ∃ w', ws = [w'] := by
            have hl := (runs_call_iff (by simp [Dict.keys])).2 h3
            have := hl.length_eq
            exact List.length_eq_one_iff.1 this
          obtain ⟨w', rfl⟩ := this
          rw [(C37_one L src cb s t w').2 ⟨v', _, h4, h3⟩]
  · have e : WrapOne.call L src cb (some (.int n))
        = (do return Val.list (← WrapOne.emitMany L src cb n) : PyM σ Val) := by
      change (if n = 1 then _ else _ : PyM σ Val) = _
      rw [if_neg hn]
    rw [e]
    have key : ∀ l t1 ws, mapPyM (fun v => cb.call L [v] []) l t1 = (.ok ws, t) ↔
        Applies L cb (l.map fun v => ([v], [])) t1 ws t := by
      intro l t1 ws
      rw [mapPyM_ok_iff, ← runs_call_iff (by simp [Dict.keys]), runs_map]
    constructor
    · intro h
      obtain ⟨ws, t', h1, h2⟩ := PyM.bind_eq_ok h
      cases h2
      obtain ⟨v, t1, h3, h4⟩ := PyM.bind_eq_ok h1
      obtain ⟨l, t2, h5, h6⟩ := PyM.bind_eq_ok h4
      rw [PyM.lift_apply, Prod.mk.injEq] at h5
      obtain ⟨h5, rfl⟩ := h5
      exact ⟨v, l, t1, ws, h3, h5, (key l t1 ws).1 h6, rfl⟩
    · rintro ⟨v, l, t1, ws, h1, h2, h3, rfl⟩
      have h4 : WrapOne.emitMany L src cb n s = (.ok ws, t) := by
        unfold WrapOne.emitMany
        rw [PyM.bind_ok h1, PyM.lift_bind h2]
        exact (key l t1 ws).2 h3
      rw [PyM.bind_ok h4]; rfl

/-- The plain reading: for a function of one value that does not ask for `rng`, the result is
`[f(v) for v in source(n)]` and the state is the one the source leaves. -/
theorem C37_map (L : Attr σ G) (src : Child σ) {I : σ → Prop} (hsrc : SingleIsEmit I src)
    (cb : Callback G) (hcb : ¬ cb.DeclaresRng) (f : Val → Val) (n : Int) (s t : σ) (l : List Val)
    (hI : I s)
    (hs : src (some (.int n)) s = (.ok (.list l), t)) (hf : ∀ v ∈ l, cb.invoke [v] [] = .ok (f v)) :
    WrapOne.call L src cb (some (.int n)) s = (.ok (.list (l.map f)), t) := by
  refine (C37_many L src hsrc cb n s t _ hI).2 ⟨_, l, t, l.map f, hs, rfl, ?_, rfl⟩
  refine ⟨fun h => absurd h hcb, fun _ => ⟨?_, rfl⟩⟩
  rw [List.forall₂_map_left_iff, List.forall₂_map_right_iff, List.forall₂_same]
  exact hf

/-! ### C38: WrapMany is zip-with -/

theorem draw_ok_iff {srcs : Dict (Child σ)} {arg : Option Val} {s t : σ} {vals : Dict Val} :
    WrapMany.draw srcs arg s = (.ok vals, t) ↔ Called arg srcs s vals t := by
  unfold WrapMany.draw
  rw [mapPyM_ok_iff]
  constructor
  · intro h
    induction h with
    | nil => exact .nil _
    | cons h1 _ ih =>
      obtain ⟨v, s1, h2, h3⟩ := PyM.bind_eq_ok h1
      cases h3
      exact .cons h2 ih
  · intro h
    induction h with
    | nil => exact .nil _
    | cons h1 _ ih => exact .cons (by rw [PyM.bind_ok h1]; rfl) ih

theorem Called.keys {arg : Option Val} {srcs : Dict (Child σ)} {s t : σ} {vals : Dict Val}
    (h : Called arg srcs s vals t) : vals.keys = srcs.keys := by
  induction h with
  | nil => rfl
  | cons _ _ ih => exact congrArg (_ :: ·) ih

theorem pyListGet_nat {α : Type} {l : List α} {i : Nat} {a : α} :
    pyListGet l (i : Int) = .ok a ↔ l[i]? = some a := by
  have e : pyListGet l (i : Int) = match l[i]? with
      | some a => .ok a
      | none => .error .indexError := by
    unfold pyListGet
    simp only [if_neg (by omega : ¬ (i : Int) < 0), Int.toNat_natCast]
    cases l[i]? <;> rfl
  rw [e]
  cases l[i]? <;> simp

theorem getItem_ok_iff {v : Val} {i : Nat} {x : Val} :
    v.getItem i = .ok x ↔ ∃ l, v.elems = .ok l ∧ l[i]? = some x := by
  cases v with
  | list l =>
    exact pyListGet_nat.trans ⟨fun h => ⟨l, rfl, h⟩, fun ⟨_, e, h⟩ => by cases e; exact h⟩
  | tuple l =>
    exact pyListGet_nat.trans ⟨fun h => ⟨l, rfl, h⟩, fun ⟨_, e, h⟩ => by cases e; exact h⟩
  | str cs =>
    constructor
    · intro h
      obtain ⟨c, h1, h2⟩ := Py.bind_eq_ok h
      cases h2
      exact ⟨_, rfl, by rw [List.getElem?_map, pyListGet_nat.1 h1]; rfl⟩
    · rintro ⟨l, e, h⟩
      cases e
      rw [List.getElem?_map] at h
      cases hc : cs[i]? with
      | none => rw [hc] at h; cases h
      | some c =>
        rw [hc] at h
        cases h
        change (do return Val.str [← pyListGet cs i] : Py Val) = _
        rw [pyListGet_nat.2 hc]; rfl
  | _ =>
    constructor
    · intro h; cases h
    · rintro ⟨l, e, _⟩; cases e

theorem row_ok_iff {vals : Dict Val} {i : Nat} {r : Dict Val} :
    WrapMany.row vals i = .ok r ↔ RowAt vals i r := by
  unfold WrapMany.row
  rw [mapPy_ok_iff]
  have key : ∀ (kv kx : String × Val),
      (do return (kv.1, ← kv.2.getItem i) : Py (String × Val)) = .ok kx ↔
        kx.1 = kv.1 ∧ ∃ l, kv.2.elems = .ok l ∧ l[i]? = some kx.2 := by
    intro kv kx
    rw [← getItem_ok_iff]
    constructor
    · intro h
      obtain ⟨x, h1, h2⟩ := Py.bind_eq_ok h
      cases h2
      exact ⟨rfl, h1⟩
    · rintro ⟨h1, h2⟩
      rw [h2]
      obtain ⟨a, b⟩ := kx
      cases h1; rfl
  constructor
  · intro h; exact h.imp fun _ _ h => (key _ _).1 h
  · intro h; exact h.imp fun _ _ h => (key _ _).2 h

theorem RowAt.keys {vals : Dict Val} {i : Nat} {r : Dict Val} (h : RowAt vals i r) :
    r.keys = vals.keys := by
  unfold RowAt at h
  induction h with
  | nil => rfl
  | cons h1 _ ih =>
    exact (congrArg₂ List.cons h1.1 ih)

/-- `wrap_many()` calls every source exactly once, in order, and gives the callback one keyword
argument per source. -/
theorem C38_one (L : Attr σ G) (srcs : Dict (Child σ)) (cb : Callback G)
    (hself : "self" ∉ srcs.keys) (s t : σ) (w : Val) :
    WrapMany.call L srcs cb none s = (.ok w, t) ↔
      ∃ vals t1, Called none srcs s vals t1 ∧ Applies L cb [([], vals)] t1 [w] t := by
  have e : WrapMany.call L srcs cb none = WrapMany.emit L srcs cb := rfl
  rw [e]
  have key : ∀ vals t1, "self" ∉ vals.keys →
      (cb.call L [] vals t1 = (.ok w, t) ↔ Applies L cb [([], vals)] t1 [w] t) := by
    intro vals t1 hs
    rw [← runs_call_iff (by simpa using hs)]
    constructor
    · intro h; exact .cons h (.nil _)
    · intro h
      cases h with
      | cons h1 h2 => cases h2; exact h1
  constructor
  · intro h
    obtain ⟨vals, t1, h1, h2⟩ := PyM.bind_eq_ok h
    have hc := draw_ok_iff.1 h1
    exact ⟨vals, t1, hc, (key vals t1 (by rwa [hc.keys])).1 h2⟩
  · rintro ⟨vals, t1, h1, h2⟩
    unfold WrapMany.emit
    rw [PyM.bind_ok (draw_ok_iff.2 h1)]
    exact (key vals t1 (by rwa [h1.keys])).2 h2

/-- Calling conforming sources with 1 is calling them without argument and wrapping each value. -/
theorem called_one {srcs : Dict (Child σ)} {I : σ → Prop} (h1 : ∀ kc ∈ srcs, SingleIsEmit I kc.2)
    {s t : σ} {vals : Dict Val} (hI : I s) :
    Called (some (.int 1)) srcs s vals t ↔
      ∃ vs, Called none srcs s vs t ∧ vals = vs.map fun kv => (kv.1, .list [kv.2]) := by
  induction srcs generalizing s vals with
  | nil =>
    constructor
    · intro h; cases h; exact ⟨[], .nil _, rfl⟩
    · rintro ⟨vs, h, rfl⟩; cases h; exact .nil _
  | cons kc srcs ih =>
    obtain ⟨k, c⟩ := kc
    obtain ⟨hc, hI1⟩ := h1 (k, c) (by simp) s hI
    dsimp only at hc hI1
    have ih := fun s vals => ih (fun kc h => h1 kc (by simp [h])) (s := s) (vals := vals)
    constructor
    · intro h
      cases h with
      | @cons _ _ _ _ s1 _ v vs a1 a2 =>
        rw [hc] at a1
        cases h4 : c none s with
        | mk r t' =>
          cases r with
          | error x => rw [h4] at a1; cases a1
          | ok v' =>
            rw [h4] at a1 hI1
            cases a1
            obtain ⟨vs', b1, rfl⟩ := (ih _ _ hI1).1 a2
            exact ⟨(k, v') :: vs', .cons h4 b1, rfl⟩
    · rintro ⟨vs, h, rfl⟩
      cases h with
      | cons a1 a2 =>
        rw [a1] at hI1
        refine .cons ?_ ((ih _ _ hI1).2 ⟨_, a2, rfl⟩)
        rw [hc, a1]

theorem rows_self {vals : Dict Val} (hs : "self" ∉ vals.keys) {js : List Nat}
    {rows : List (Dict Val)} (h : List.Forall₂ (fun i r => RowAt vals i r) js rows) :
    ∀ r ∈ rows, "self" ∉ r.keys := by
  induction h with
  | nil => simp
  | cons h1 _ ih =>
    intro r hr
    rcases List.mem_cons.1 hr with rfl | hr
    · rwa [h1.keys]
    · exact ih r hr

/-- The loop of `emit_many` of `WrapMany` over the positions `js`. -/
theorem runs_rows_iff {L : Attr σ G} {cb : Callback G} {vals : Dict Val}
    (hs : "self" ∉ vals.keys) {js : List Nat} {s t : σ} {ws : List Val} :
    Runs (fun (i : Nat) => do
      let kwargs ← PyM.lift (WrapMany.row vals (i : Int))
      cb.call L [] kwargs) js s ws t ↔
    ∃ rows : List (Dict Val), List.Forall₂ (fun i r => RowAt vals i r) js rows ∧
      Applies L cb (rows.map fun r => ([], r)) s ws t := by
  have e : (∃ rows : List (Dict Val), List.Forall₂ (fun i r => RowAt vals i r) js rows ∧
      Applies L cb (rows.map fun r => ([], r)) s ws t) ↔
      ∃ rows : List (Dict Val), List.Forall₂ (fun i r => RowAt vals i r) js rows ∧
        Runs (fun r => cb.call L [] r) rows s ws t := by
    constructor
    · rintro ⟨rows, a1, a2⟩
      have := (runs_call_iff (by simpa using rows_self hs a1)).2 a2
      rw [runs_map] at this
      exact ⟨rows, a1, this⟩
    · rintro ⟨rows, a1, a2⟩
      refine ⟨rows, a1, (runs_call_iff ?_).1 (runs_map.2 a2)⟩
      simpa using rows_self hs a1
  rw [e]
  clear e
  induction js generalizing s ws with
  | nil =>
    constructor
    · intro h; cases h; exact ⟨[], .nil, .nil _⟩
    · rintro ⟨rows, a1, a2⟩; cases a1; cases a2; exact .nil _
  | cons j js ih =>
    constructor
    · intro h
      cases h with
      | cons b1 b2 =>
        obtain ⟨r, s1, c1, c2⟩ := PyM.bind_eq_ok b1
        rw [PyM.lift_apply, Prod.mk.injEq] at c1
        obtain ⟨c1, rfl⟩ := c1
        obtain ⟨rows, d1, d2⟩ := ih.1 b2
        exact ⟨r :: rows, .cons (row_ok_iff.1 c1) d1, .cons c2 d2⟩
    · rintro ⟨rows, a1, a2⟩
      cases a1 with
      | cons d1 d2 =>
        cases a2 with
        | cons e1 e2 =>
          refine .cons ?_ (ih.2 ⟨_, d2, e2⟩)
          rw [PyM.lift_bind (row_ok_iff.2 d1)]
          exact e1

/-- `wrap_many(n)` calls every source exactly once with `n`, in order, and its `i`-th value is the
callback applied to the `i`-th members of the sources' values. -/
theorem C38_many (L : Attr σ G) (srcs : Dict (Child σ)) {I : σ → Prop}
    (h1 : ∀ kc ∈ srcs, SingleIsEmit I kc.2) (cb : Callback G) (hself : "self" ∉ srcs.keys) (n : Nat)
    (s t : σ) (w : Val) (hI : I s) :
    WrapMany.call L srcs cb (some (.int n)) s = (.ok w, t) ↔
      ∃ (vals : Dict Val) (t1 : σ) (rows : List (Dict Val)) (ws : List Val),
        Called (some (.int n)) srcs s vals t1 ∧ rows.length = n ∧
        (∀ i r, rows[i]? = some r → RowAt vals i r) ∧
        Applies L cb (rows.map fun r => ([], r)) t1 ws t ∧ w = .list ws := by
  by_cases hn : n = 1
  · subst hn
    have e1 := (singleIsEmit_call (WrapMany.emitBad srcs) (WrapMany.emit L srcs cb) (WrapMany.emitMany L srcs cb)
      s trivial).1
    change WrapMany.call L srcs cb (some (.int 1)) s = _ at e1
    have e2 : emitterCallOr (WrapMany.emitBad srcs) (WrapMany.emit L srcs cb) (WrapMany.emitMany L srcs cb) none
      = WrapMany.call L srcs cb none := rfl
    rw [e2] at e1
    have hrow : ∀ (vs r : Dict Val),
        RowAt (vs.map fun kv => (kv.1, Val.list [kv.2])) 0 r ↔ r = vs := by
      intro vs r
      unfold RowAt
      rw [List.forall₂_map_left_iff]
      have : (fun (a c : String × Val) => c.1 = a.1 ∧
          ∃ l, (Val.list [a.2]).elems = .ok l ∧ l[0]? = some c.2) = fun a c => a = c := by
        funext a c
        apply propext
        constructor
        · rintro ⟨e, l, e1, e2⟩
          cases e1
          exact Prod.ext e.symm (Option.some.inj e2)
        · rintro rfl
          exact ⟨rfl, _, rfl, rfl⟩
      rw [this]
      rw [List.forall₂_eq_eq_eq]
      exact eq_comm
    constructor
    · intro h
      change WrapMany.call L srcs cb (some (.int 1)) s = _ at h
      rw [h] at e1
      cases hc : WrapMany.call L srcs cb none s with
      | mk r t' =>
        cases r with
        | error x => rw [hc] at e1; cases e1
        | ok w' =>
          rw [hc] at e1
          cases e1
          obtain ⟨vs, t1, h2, h3⟩ := (C38_one L srcs cb hself s t w').1 hc
          refine ⟨_, t1, [vs], [w'], (called_one h1 hI).2 ⟨vs, h2, rfl⟩, rfl, ?_, h3, rfl⟩
          intro i r hi
          cases i with
          | zero => cases hi; exact (hrow _ _).2 rfl
          | succ i => simp at hi
    · rintro ⟨vals, t1, rows, ws, a1, a2, a3, a4, rfl⟩
      change WrapMany.call L srcs cb (some (.int 1)) s = _
      rw [e1]
      obtain ⟨vs, b1, rfl⟩ := (called_one h1 hI).1 a1
      obtain ⟨r, rfl⟩ := List.length_eq_one_iff.1 a2
      have := (hrow _ _).1 (a3 0 r rfl)
      subst this
      have hl := ((runs_call_iff (by simpa [b1.keys] using hself)).2 a4).length_eq
      obtain ⟨w', rfl⟩ := List.length_eq_one_iff.1 hl
      rw [(C38_one L srcs cb hself s t w').2 ⟨_, t1, b1, a4⟩]
  · have e : WrapMany.call L srcs cb (some (.int n))
        = (do return Val.list (← WrapMany.emitMany L srcs cb n) : PyM σ Val) := by
      change (if (n : Int) = 1 then _ else _ : PyM σ Val) = _
      rw [if_neg (by omega)]
    rw [e]
    have key := fun vals hs js t1 ws => runs_rows_iff (L := L) (cb := cb) (vals := vals) hs (js := js)
      (s := t1) (ws := ws) (t := t)
    constructor
    · intro h
      obtain ⟨ws, t', h1', h2⟩ := PyM.bind_eq_ok h
      cases h2
      obtain ⟨vals, t1, h3, h4⟩ := PyM.bind_eq_ok h1'
      have hc := draw_ok_iff.1 h3
      rw [mapPyM_ok_iff, key vals (by rwa [hc.keys])] at h4
      obtain ⟨rows, a1, a2⟩ := h4
      have hl := a1.length_eq
      simp only [Int.toNat_natCast, List.length_range] at hl
      refine ⟨vals, t1, rows, ws, hc, hl.symm, ?_, a2, rfl⟩
      intro i r hi
      obtain ⟨hlt, rfl⟩ := List.getElem?_eq_some_iff.1 hi
      have := (List.forall₂_iff_get.1 a1).2 i (by simp; omega) hlt
      simpa using this
    · rintro ⟨vals, t1, rows, ws, a1, a2, a3, a4, rfl⟩
      have h4 : WrapMany.emitMany L srcs cb n s = (.ok ws, t) := by
        unfold WrapMany.emitMany
        rw [PyM.bind_ok (draw_ok_iff.2 a1), mapPyM_ok_iff, key vals (by rwa [a1.keys])]
        refine ⟨rows, List.forall₂_iff_get.2 ⟨by simp [a2], ?_⟩, a4⟩
        intro i hi hi2
        have := a3 i rows[i] (by simp)
        simpa using this
      rw [PyM.bind_ok h4]; rfl

/-- The plain reading: if the sources give the lists `cols` of length `n` and the callback is a
function of the keyword arguments that does not ask for `rng`, then the `i`-th value is the callback
of the `i`-th members. -/
theorem C38_zip (L : Attr σ G) (srcs : Dict (Child σ)) {I : σ → Prop}
    (h1 : ∀ kc ∈ srcs, SingleIsEmit I kc.2) (cb : Callback G) (hcb : ¬ cb.DeclaresRng) (hself : "self" ∉ srcs.keys) (f : Dict Val → Val)
    (n : Nat) (s t : σ) (cols : Dict (List Val)) (hI : I s)
    (hc : Called (some (.int n)) srcs s (cols.map fun c => (c.1, .list c.2)) t)
    (hl : ∀ c ∈ cols, c.2.length = n)
    (hf : ∀ kw : Dict Val, kw.keys = srcs.keys → cb.invoke [] kw = .ok (f kw)) :
    ∃ ws, WrapMany.call L srcs cb (some (.int n)) s = (.ok (.list ws), t) ∧ ws.length = n ∧
      ∀ i < n, ws[i]? = some (f (cols.map fun c => (c.1, c.2.getD i .none))) := by
  have hk : Dict.keys (cols.map fun c => (c.1, Val.list c.2)) = srcs.keys := hc.keys
  have hk' : ∀ i, Dict.keys (cols.map fun c => (c.1, c.2.getD i .none)) = srcs.keys := by
    intro i
    rw [← hk]
    unfold Dict.keys
    rw [List.map_map, List.map_map]; rfl
  refine ⟨(List.range n).map fun i => f (cols.map fun c => (c.1, c.2.getD i .none)),
    (C38_many L srcs h1 cb hself n s t _ hI).2
      ⟨_, t, (List.range n).map fun i => cols.map fun c => (c.1, c.2.getD i .none), _, hc,
        by simp, ?_, ⟨fun h => absurd h hcb, fun _ => ⟨?_, rfl⟩⟩, rfl⟩, by simp, ?_⟩
  · intro i r hi
    obtain ⟨hlt, rfl⟩ := List.getElem?_eq_some_iff.1 hi
    have hlt' : i < n := by simpa using hlt
    unfold RowAt
    rw [List.getElem_map, List.getElem_range, List.forall₂_map_left_iff,
      List.forall₂_map_right_iff, List.forall₂_same]
    intro c hcm
    refine ⟨rfl, c.2, rfl, ?_⟩
    have := hl c hcm
    rw [List.getElem?_eq_getElem (by omega)]
    simp [List.getD, List.getElem?_eq_getElem (by omega : i < c.2.length)]
  · rw [List.map_map, List.forall₂_map_left_iff, List.forall₂_map_right_iff, List.forall₂_same]
    intro i _
    exact hf _ (hk' i)
  · intro i hi
    simp [hi]

/-! ### C40: accepted callbacks get acceptable arguments -/

/-- The call that emission makes is the one that was checked: the body of the callback runs, Python
does not reject the arguments. -/
def BodyRuns (L : Attr σ G) (cb : Callback G) (args : List Val) (kwargs : Dict Val) : Prop :=
  (cb.DeclaresRng → cb.call L args kwargs = L.run (cb.runRng args kwargs)) ∧
  (¬ cb.DeclaresRng → cb.call L args kwargs = PyM.lift (cb.run args kwargs))

theorem bodyRuns_of_mock (L : Attr σ G) (cb : Callback G) (hv : ∀ ps, cb.sig = some ps → Sig.Valid ps)
    {args args' : List Val} {kw kw' : Dict Val} (hn : kw.keys.Nodup)
    (hrng : cb.DeclaresRng → "rng" ∉ kw.keys) (h : cb.tryMockCall args kw = .ok ())
    (ha : args'.length = args.length) (hk : kw'.keys = kw.keys) : BodyRuns L cb args' kw' := by
  unfold Callback.tryMockCall at h
  by_cases hself : "self" ∈ kw.keys
  · rw [if_pos hself] at h; cases h
  rw [if_neg hself] at h
  have hself' : "self" ∉ kw'.keys := by rwa [hk]
  refine ⟨?_, ?_⟩
  · intro hd
    obtain ⟨ps, e, p, hp, hpn⟩ := id hd
    have hw := (cb.wantsRng_iff).2 hd
    have hr := hrng hd
    simp only [e, hw, hr, not_false_iff, and_self, if_true] at h
    have hb : Sig.bindOk ps args.length (kw.keys ++ ["rng"]) = true := by
      by_contra hb
      rw [if_neg hb] at h; cases h
    have hc := Sig.callOk_of_bindOk (hv ps e) (by
      refine List.nodup_append.2 ⟨hn, by simp, ?_⟩
      intro a ha b hb
      simp only [List.mem_singleton] at hb
      subst hb
      intro e; exact hr (e ▸ ha)) hb
    unfold Callback.call
    rw [if_neg hself', if_pos hw]
    unfold Callback.invokeRng
    rw [hk, if_neg hr, ha]
    have : cb.accepts args.length (kw.keys ++ ["rng"]) = true := by
      unfold Callback.accepts; rw [e]; exact hc
    rw [if_pos this]
  · intro hd
    have hw : ¬ cb.wantsRng = true := fun h => hd ((cb.wantsRng_iff).1 h)
    unfold Callback.call
    rw [if_neg hself', if_neg hw]
    unfold Callback.invoke
    have : cb.accepts args'.length kw'.keys = true := by
      rw [ha, hk]
      unfold Callback.accepts
      cases e : cb.sig with
      | none => rfl
      | some ps =>
        have hb : Sig.bindOk ps args.length kw.keys = true := by
          by_contra hb
          simp [e, hw, hb] at h
        exact Sig.callOk_of_bindOk (hv ps e) hn hb
    rw [if_pos this]

theorem finally_eq_ok {m : PyM σ Unit} {fin : PyM σ Unit} {s t : σ}
    (h : PyM.finally_ m fin s = (.ok ⟨⟩, t)) : ∃ s1, m s = (.ok ⟨⟩, s1) := by
  unfold PyM.finally_ at h
  cases h1 : m s with
  | mk r s1 =>
    rw [h1] at h
    cases h2 : fin s1 with
    | mk r2 s2 =>
      simp only [h2] at h
      cases r2 with
      | error e => cases h
      | ok _ => cases h; exact ⟨s1, rfl⟩

/-- `WrapOne`: if the setter accepts the callback, then no emission fails because of the arguments:
the body of the callback is run for every value. -/
theorem C40_wrap_one (L : Attr σ G) (src : Child σ) (cb : Callback G)
    (hv : ∀ ps, cb.sig = some ps → Sig.Valid ps) (store reset : PyM σ Unit) (s t : σ)
    (h : WrapOne.setWrapper src cb store reset s = (.ok ⟨⟩, t)) (v : Val) :
    BodyRuns L cb [v] [] := by
  obtain ⟨s1, h1⟩ := finally_eq_ok h
  obtain ⟨v0, s2, _, h3⟩ := PyM.bind_eq_ok h1
  rw [PyM.lift_apply, Prod.mk.injEq] at h3
  exact bodyRuns_of_mock L cb hv (by simp [Dict.keys]) (by simp [Dict.keys]) h3.1 rfl rfl

/-- `WrapMany`: the same, provided no source is labelled `rng` when the callback asks for a
generator. -/
theorem C40_wrap_many_partial (L : Attr σ G) (srcs : Dict (Child σ)) (hn : srcs.keys.Nodup)
    (cb : Callback G) (hv : ∀ ps, cb.sig = some ps → Sig.Valid ps)
    (hrng : cb.DeclaresRng → "rng" ∉ srcs.keys) (store reset : PyM σ Unit) (s t : σ)
    (h : WrapMany.setWrapper srcs cb store reset s = (.ok ⟨⟩, t)) (kw : Dict Val)
    (hk : kw.keys = srcs.keys) : BodyRuns L cb [] kw := by
  obtain ⟨kw0, s1, h1, h2⟩ := PyM.bind_eq_ok h
  obtain ⟨s2, h3⟩ := finally_eq_ok h2
  rw [PyM.lift_apply, Prod.mk.injEq] at h3
  have hk0 := (draw_ok_iff.1 h1).keys
  exact bodyRuns_of_mock L cb hv (by rwa [hk0]) (by rwa [hk0]) h3.1 rfl (by rw [hk, hk0])

/-- `lambda rng: ...` -/
def rngOnly : Callback Nat where
  sig := some [⟨"rng", .posOrKw, false⟩]
  run _ _ := .ok .none
  runRng _ _ := fun g => (.ok (.int g), g + 1)

/-- The whole state is the generator. -/
def Attr.id (G : Type) : Attr G G where
  get g := g
  set g _ := g
  get_set _ _ := rfl
  set_get _ := rfl
  set_set _ _ _ := rfl

/-- A source that always gives the same value. -/
def sameSource (v : Val) : Child σ :=
  emitterCall (pure v) (fun n => pure (List.replicate n.toNat v))

/-- `WrapMany({'rng': src}, lambda rng: ...)` is accepted, and every emission then fails with a
`TypeError`: the statement without the restriction on labels is false. -/
theorem C40_violated :
    ¬ ∀ (L : Attr Nat Nat) (srcs : Dict (Child Nat)) (_ : srcs.keys.Nodup) (cb : Callback Nat)
      (_ : ∀ ps, cb.sig = some ps → Sig.Valid ps) (store reset : PyM Nat Unit) (s t : Nat)
      (_ : WrapMany.setWrapper srcs cb store reset s = (.ok ⟨⟩, t)) (kw : Dict Val)
      (_ : kw.keys = srcs.keys), BodyRuns L cb [] kw := by
  intro h
  have := h (Attr.id Nat) [("rng", sameSource .none)] (by simp [Dict.keys]) rngOnly
    (by
      intro ps e
      cases e
      exact ⟨by decide, by simp, by simp, by simp [Sig.positional]⟩)
    (pure ()) (pure ()) 0 0 rfl [("rng", .none)] rfl
  have h2 := this.1 ⟨_, rfl, _, List.mem_singleton.2 rfl, rfl⟩
  have h3 := congrFun h2 0
  have h4 : ((rngOnly.call (Attr.id Nat) [] [("rng", Val.none)]) 0).1 = .error .typeError := rfl
  rw [h3] at h4
  cases h4

/-- The same on the emitter: accepted by the setter, but every call fails. -/
theorem C40_violated_emission (s : Nat) :
    (WrapMany.setWrapper [("rng", sameSource Val.none)] rngOnly (pure ()) (pure ()) s).1 = .ok ⟨⟩ ∧
    (WrapMany.call (Attr.id Nat) [("rng", sameSource Val.none)] rngOnly none s).1
      = .error .typeError := ⟨rfl, rfl⟩

/-! A callback that is refused is refused with a `TypeError`, as documented (wrappers.py 131-137). -/

/-- `WrapMany`: a callback whose signature can be read is either accepted or refused with a
`TypeError` when the sources can be drawn from and the object can be reset; the attribute is set
either way. -/
theorem C40_wrap_many_refused (srcs : Dict (Child σ)) (cb : Callback G) (hsig : cb.sig ≠ none)
    (store reset : PyM σ Unit) (s s1 s2 t : σ) (kw : Dict Val)
    (hd : WrapMany.draw srcs none s = (.ok kw, s1)) (hst : store s1 = (.ok ⟨⟩, s2))
    (hre : reset s2 = (.ok ⟨⟩, t)) :
    WrapMany.setWrapper srcs cb store reset s = (.ok ⟨⟩, t) ∨
      WrapMany.setWrapper srcs cb store reset s = (.error .typeError, t) := by
  obtain ⟨ps, hps⟩ := Option.ne_none_iff_exists'.1 hsig
  have hm : cb.tryMockCall [] kw = .ok () ∨ cb.tryMockCall [] kw = .error .typeError := by
    unfold Callback.tryMockCall
    by_cases h : "self" ∈ kw.keys
    · exact .inr (if_pos h)
    · rw [if_neg h, hps]
      simp only
      generalize (Sig.bindOk ps _ _) = b
      cases b <;> simp
  have key : WrapMany.setWrapper srcs cb store reset s = (cb.tryMockCall [] kw, t) := by
    unfold WrapMany.setWrapper
    rw [PyM.bind_apply, hd]
    simp only [PyM.finally_, PyM.lift_apply]
    rw [PyM.bind_apply, hst]
    simp only [hre]
  rw [key]
  rcases hm with h | h <;> rw [h] <;> simp

/-- A source labelled `self` makes every callback unacceptable, whatever its signature: the label
clashes with the first parameter of `try_mock_call` and of the bound wrapper's `__call__`. -/
theorem C40_self_label (L : Attr σ G) (srcs : Dict (Child σ)) (hself : "self" ∈ srcs.keys)
    (cb : Callback G) (store reset : PyM σ Unit) (s s1 s2 t : σ) (kw : Dict Val)
    (hd : WrapMany.draw srcs none s = (.ok kw, s1)) (hst : store s1 = (.ok ⟨⟩, s2))
    (hre : reset s2 = (.ok ⟨⟩, t)) :
    WrapMany.setWrapper srcs cb store reset s = (.error .typeError, t) ∧
      WrapMany.call L srcs cb none s = (.error .typeError, s1) := by
  have hk : "self" ∈ kw.keys := by rw [(draw_ok_iff.1 hd).keys]; exact hself
  constructor
  · unfold WrapMany.setWrapper
    rw [PyM.bind_apply, hd]
    simp only [PyM.finally_, PyM.lift_apply]
    rw [PyM.bind_apply, hst]
    simp only [hre, Callback.tryMockCall, if_pos hk]
  · change WrapMany.emit L srcs cb s = _
    unfold WrapMany.emit
    rw [PyM.bind_apply, hd]
    simp only [Callback.call, if_pos hk]
    rfl

/-- `WrapMany({'self': src}, lambda **kw: ...)`. -/
example (s : Nat) :
    let cb : Callback Nat := { rngOnly with sig := some [⟨"kw", .varKw, false⟩] }
    (WrapMany.setWrapper [("self", sameSource Val.none)] cb (pure ()) (pure ()) s).1
      = .error .typeError ∧
    (WrapMany.setWrapper [("this", sameSource Val.none)] cb (pure ()) (pure ()) s).1 = .ok ⟨⟩ :=
  ⟨rfl, rfl⟩

/-! ### C41: the generator is forwarded iff the callback declares it -/

/-- A callback that does not declare `rng` neither sees nor touches the generator or anything
else. -/
theorem C41_not_declared (L : Attr σ G) (cb : Callback G) (h : ¬ cb.DeclaresRng)
    (args : List Val) (kw : Dict Val) :
    ∃ r, ∀ s, cb.call L args kw s = (r, s) := by
  unfold Callback.call
  have hw : ¬ cb.wantsRng = true := fun hw => h ((cb.wantsRng_iff).1 hw)
  by_cases hs : "self" ∈ kw.keys
  · exact ⟨.error .typeError, fun s => by rw [if_pos hs]; rfl⟩
  · exact ⟨cb.invoke args kw, fun s => by rw [if_neg hs, if_neg hw]; rfl⟩

/-- A callback that declares `rng` runs on the current generator of the bound emitter: its result and
the generator it leaves are functions of that generator, nothing else changes; whatever the callback
does with a generator is thus reproduced in any state with an equal generator. -/
theorem C41_declared (L : Attr σ G) (cb : Callback G) (h : cb.DeclaresRng)
    (args : List Val) (kw : Dict Val) (hs : "self" ∉ kw.keys) (s : σ) :
    cb.call L args kw s =
      ((cb.invokeRng args kw (L.get s)).1, L.set (cb.invokeRng args kw (L.get s)).2 s) := by
  unfold Callback.call
  rw [if_neg hs, if_pos ((cb.wantsRng_iff).2 h)]
  rfl

/-- ... and the callback's body does receive it: accepted arguments reach `runRng`. -/
theorem C41_receives (cb : Callback G) (ps : List Param) (hsig : cb.sig = some ps)
    (args : List Val) (kw : Dict Val) (hr : "rng" ∉ kw.keys)
    (hc : Sig.callOk ps args.length (kw.keys ++ ["rng"]) = true) :
    cb.invokeRng args kw = cb.runRng args kw := by
  unfold Callback.invokeRng
  rw [if_neg hr, if_pos]
  unfold Callback.accepts
  rw [hsig]; exact hc

theorem Runs.deterministic {α β : Type} {f : α → PyM G β} {l : List α} {g t t' : G} {r r' : List β}
    (h : Runs f l g r t) (h' : Runs f l g r' t') : r' = r ∧ t' = t := by
  have h1 := mapPyM_ok_iff.2 h
  have h2 := mapPyM_ok_iff.2 h'
  rw [h1] at h2
  cases h2
  exact ⟨rfl, rfl⟩

/-- Reproducibility: in two states with equal generators, applying a callback to the same arguments
gives the same values and leaves equal generators. -/
theorem C41_reproducible (L : Attr σ G) (cb : Callback G) (as : List (List Val × Dict Val))
    (s s' t t' : σ) (ws ws' : List Val) (hg : L.get s = L.get s')
    (h : Applies L cb as s ws t) (h' : Applies L cb as s' ws' t') :
    ws' = ws ∧ L.get t' = L.get t := by
  by_cases hd : cb.DeclaresRng
  · obtain ⟨g, h1, rfl⟩ := h.1 hd
    obtain ⟨g', h1', rfl⟩ := h'.1 hd
    rw [← hg] at h1'
    obtain ⟨rfl, rfl⟩ := h1.deterministic h1'
    exact ⟨rfl, by rw [L.get_set, L.get_set]⟩
  · obtain ⟨h1, rfl⟩ := h.2 hd
    obtain ⟨h1', rfl⟩ := h'.2 hd
    refine ⟨?_, hg.symm⟩
    clear h h'
    induction h1 generalizing ws' with
    | nil => cases h1'; rfl
    | cons a1 _ ih =>
      cases h1' with
      | cons b1 b2 =>
        rw [a1] at b1
        cases b1
        rw [ih _ b2]

/-! ### Concrete cases -/

/-- `lambda v: (v, v)` -/
def pairUp : Callback Nat where
  sig := some [⟨"v", .posOrKw, false⟩]
  run args _ := .ok (.tuple (args ++ args))
  runRng _ _ := PyM.raise .typeError

/-- `lambda v, rng: (v, rng.next())` -/
def tagWithRng : Callback Nat where
  sig := some [⟨"v", .posOrKw, false⟩, ⟨"rng", .posOrKw, false⟩]
  run _ _ := .error .typeError
  runRng args _ := fun g => (.ok (.tuple (args ++ [.int g])), g + 1)

/-- `lambda a, b: (a, b)` -/
def pairAB : Callback Nat where
  sig := some [⟨"a", .posOrKw, false⟩, ⟨"b", .posOrKw, false⟩]
  run _ kw := .ok (.tuple (kw.map (·.2)))
  runRng _ _ := PyM.raise .typeError

/-- A source that counts in the state. -/
def counting : Child Nat :=
  emitterCall (fun s => (.ok (.int s), s + 1))
    (fun n s => (.ok ((List.range n.toNat).map fun (k : Nat) => .int (s + k)), s + n.toNat))

example : WrapOne.call (Attr.id Nat) counting pairUp (some (.int 2)) 5 =
    (.ok (.list [.tuple [.int 5, .int 5], .tuple [.int 6, .int 6]]), 7) := rfl
example : SingleIsEmit (fun _ => True) counting := singleIsEmit_call _ _ _
example : ¬ pairUp.DeclaresRng := fun ⟨ps, e, p, hp, hn⟩ => by
  cases e
  simp only [List.mem_singleton] at hp
  subst hp
  revert hn
  decide
example : tagWithRng.DeclaresRng := ⟨_, rfl, ⟨"rng", .posOrKw, false⟩, by simp, rfl⟩
example : Sig.Valid [⟨"v", .posOrKw, false⟩, ⟨"rng", .posOrKw, false⟩] :=
  ⟨by decide, by simp, by simp, by simp [Sig.positional]⟩
/-- The generator is the second component, the source counts in the first. -/
def Attr.snd (σ G : Type) : Attr (σ × G) G where
  get s := s.2
  set g s := (s.1, g)
  get_set _ _ := rfl
  set_get _ := rfl
  set_set _ _ _ := rfl
example : WrapOne.call (Attr.snd Nat Nat) (sameSource (.int 3)) tagWithRng (some (.int 2)) (0, 40) =
    (.ok (.list [.tuple [.int 3, .int 40], .tuple [.int 3, .int 41]]), (0, 42)) := rfl
example : WrapMany.call (Attr.id Nat) [("a", counting), ("b", counting)] pairAB
    (some (.int 2)) 0 =
    (.ok (.list [.tuple [.int 0, .int 2], .tuple [.int 1, .int 3]]), 4) := rfl
example : (WrapMany.setWrapper [("a", counting), ("b", counting)] pairAB (pure ()) (pure ()) 0).1
    = .ok ⟨⟩ := rfl
example : (WrapMany.setWrapper [("a", counting), ("c", counting)] pairAB (pure ()) (pure ()) 0).1
    = .error .typeError := rfl

end Fauxdoc
