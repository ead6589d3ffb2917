import Verif.Spec.Gate
import Verif.Props.Copies
import Verif.Proofs.Halt2
import Verif.Props.ChoiceProb
/-
C88: gates and values are drawn independently.
-/
set_option linter.unusedSectionVars false
namespace Fauxdoc
open PyM
variable {K : Type} [Field K] [LinearOrder K] [FloorRing K] {R : Rng K}

namespace World
section
open Choice

theorem withGen_obj (r x : Ref) (g : R.G) (w : World R) :
    (w.withGen r g).obj x = if x = r then { w.obj r with choice := { (w.obj r).choice with rng := g } }
      else w.obj x := rfl

theorem _root_.Fauxdoc.Picks.congr {items : List Val} {ws : List K} {a b : Attrs R}
    (h : Picks items ws a) (e : b.shape = a.shape) : Picks items ws b := by
  obtain ⟨k, hk⟩ := h.node
  have ha := alike_of_shape e.symm hk
  exact ⟨⟨k, (node_of_shape e).trans hk⟩, ha.items.symm.trans h.among, ha.weights.symm.trans h.weights,
    ha.cumWeights.symm.trans h.cumWeights, ha.replace.symm.trans h.replace, h.same, h.several, h.total⟩

theorem _root_.Fauxdoc.Picks.withGen {items : List Val} {ws : List K} {w : World R} {r : Ref}
    (h : Picks items ws (w.obj r)) (g : R.G) : Picks items ws ((w.withGen r g).obj r) := by
  rw [withGen_obj, if_pos rfl]
  exact ⟨h.node, h.among, h.weights, h.cumWeights, h.replace, h.same, h.several, h.total⟩

variable [IsStrictOrderedRing K]

/-- One draw decides what such a choice emits. -/
theorem picks_call {items : List Val} {ws : List K} {w : World R} {r : Ref}
    (h : Picks items ws (w.obj r)) (str : Val → List Char) (fuel : Nat) (arg : Option Val)
    (harg : arg = none ∨ arg = some .none) :
    ∃ v, items[choicesPick (accumulate ws) ws.sum (R.random (w.obj r).choice.rng).1]? = some v ∧
      World.call str (fuel + 1) r arg w =
        (.ok v, w.withGen r (R.random (w.obj r).choice.rng).2) := by
  obtain ⟨k, hk⟩ := h.node
  have hne : ws ≠ [] := by
    rintro rfl
    exact absurd h.total (by simp)
  obtain ⟨us, g, hd, hul, hu, hc⟩ := choicesCum_ok R ws hne h.total 1 (w.obj r).choice.rng
  have hr1 : R.rands 1 (w.obj r).choice.rng =
      (.ok [(R.random (w.obj r).choice.rng).1], (R.random (w.obj r).choice.rng).2) := rfl
  have hd' : R.rands 1 (w.obj r).choice.rng = (.ok us, g) := hd
  rw [hr1] at hd'
  obtain ⟨e1, e2⟩ := Prod.mk.inj hd'
  cases e1
  cases e2
  have hlt : choicesPick (accumulate ws) ws.sum (R.random (w.obj r).choice.rng).1 < items.length := by
    rw [← h.same]
    exact (choicesPick_spec ws hne h.total _ (R.random_nonneg _) (R.random_lt_one _)).1
  have hrun : withReplacement (1 : Int) ((w.obj r).choice, w.entropy) =
      (.ok [items[choicesPick (accumulate ws) ws.sum (R.random (w.obj r).choice.rng).1]],
        ({ (w.obj r).choice with rng := (R.random (w.obj r).choice.rng).2 }, w.entropy)) := by
    have hdw : drawWith (w.obj r).choice (1 : Int) (w.obj r).choice.rng =
        (.ok [choicesPick (accumulate ws) ws.sum (R.random (w.obj r).choice.rng).1],
          (R.random (w.obj r).choice.rng).2) := by
      unfold drawWith
      rw [if_neg (by simp [h.weights]), h.cumWeights]
      simp only
      rw [h.among, ← h.same]
      exact hc
    rw [withReplacement_run, if_neg (by rw [h.among]; exact h.several), hdw]
    simp only [h.among, pick, List.filterMap_cons, List.filterMap_nil, List.getElem?_eq_getElem hlt]
  have hem : emit ((w.obj r).choice, w.entropy) =
      (.ok items[choicesPick (accumulate ws) ws.sum (R.random (w.obj r).choice.rng).1],
        ({ (w.obj r).choice with rng := (R.random (w.obj r).choice.rng).2 }, w.entropy)) := by
    unfold emit
    rw [PyM.bind_ok (m := self) (a := (w.obj r).choice) (s' := ((w.obj r).choice, w.entropy)) rfl,
      if_neg (by simp [h.replace]), PyM.bind_ok hrun]
    rfl
  refine ⟨_, List.getElem?_eq_getElem hlt, ?_⟩
  have hch : child arg ((w.obj r).choice, w.entropy) = emit ((w.obj r).choice, w.entropy) := by
    rcases harg with rfl | rfl <;> rfl
  unfold call
  rw [PyM.run_get_bind, hk]
  change onChoice r (child arg) w = _
  unfold onChoice
  rw [hch, hem]
  rfl

end

variable [IsStrictOrderedRing K]

/-- One draw decides whether the gate is open. -/
theorem chance_call {p : K} {w : World R} {r : Ref} (h : Chance p (w.obj r)) (str : Val → List Char)
    (fuel : Nat) :
    World.call str (fuel + 1) r none w =
      (.ok (.bool (decide ((R.random (w.obj r).choice.rng).1 < p))),
        w.withGen r (R.random (w.obj r).choice.rng).2) := by
  obtain ⟨v, h1, h2⟩ := picks_call h str fuel none (.inl rfl)
  rw [h2]
  have hs : [p, 1 - p].sum = 1 := by simp
  rw [hs, choicesPick_chance] at h1
  split at h1 <;> rename_i hu <;> cases h1 <;> simp [hu]

/-- A field with such a gate. -/
theorem gate_field {str : Val → List Char} {fuel : Nat} {w w' : World R} {f e rp g : Ref} {n : String}
    {hd : Bool} {p : K} {x : Val} (hn : (w.obj f).node = some (.field n e rp g hd))
    (hg : Chance p (w.obj g)) (h : World.call str fuel f none w = (.ok x, w')) :
    ∃ w1, w' = w1.upd f (fun a => { a with cache := x }) ∧
    (p ≤ (R.random (w.obj g).choice.rng).1 ∧ x = .none ∧
        w1 = w.withGen g (R.random (w.obj g).choice.rng).2 ∨
      (R.random (w.obj g).choice.rng).1 < p ∧ ∃ fuel' k w2, fuel = fuel' + 2 ∧
        World.call str (fuel' + 1) rp none (w.withGen g (R.random (w.obj g).choice.rng).2) = (.ok k, w2) ∧
        World.call str (fuel' + 1) e (some k) w2 = (.ok x, w1)) := by
  cases fuel with
  | zero => cases h
  | succ fuel =>
    obtain ⟨gv, w1, h1, h2⟩ := (C46_store str fuel hn x w').1 h
    cases fuel with
    | zero => cases h1
    | succ fuel =>
      rw [chance_call hg] at h1
      obtain ⟨e1, e2⟩ := Prod.mk.inj h1
      cases e1
      subst e2
      rcases h2 with ⟨ht, rfl, rfl⟩ | ⟨ht, k, w2, w3, h3, h4, rfl⟩
      · refine ⟨_, rfl, .inl ⟨?_, rfl, rfl⟩⟩
        simpa [Val.truthy] using ht
      · refine ⟨_, rfl, .inr ⟨?_, fuel, k, w2, rfl, h3, h4⟩⟩
        simpa [Val.truthy] using ht

theorem loop_alike (str : Val → List Char) (w : World R) (fuel : Nat) (hide : Ref → Bool)
    (fs : Dict Ref) (doc : Dict Val) :
    Keeps (Alike w) (Schema.loop hide (fun r => World.call str fuel r none) doc fs) := by
  induction fs generalizing doc with
  | nil => exact fun v hv => hv
  | cons kf fs ih =>
    unfold Schema.loop
    refine Keeps.bind (call_alike str w fuel kf.2 none) fun x => ?_
    split <;> exact ih _

/-- The call of one field within a document. -/
theorem document_split {str : Val → List Char} {fuel : Nat} {fields : Dict Ref} {name : String} {f : Ref}
    (hkeys : fields.keys.Nodup) (hf : (name, f) ∈ fields) {d : Dict Val} {w w' : World R}
    (hh : (w.obj f).hide = false) (h : document str fuel fields w = (.ok d, w')) :
    ∃ x wA wf, World.call str fuel f none wA = (.ok x, wf) ∧ d.get? name = some x ∧ Alike w wA ∧
      Alike w w' ∧
      ∀ y, (∀ kf ∈ fields, kf.1 ≠ name → ¬ Below w kf.2 y) → wA.obj y = w.obj y ∧ w'.obj y = wf.obj y := by
  unfold document Schema.call at h
  rw [PyM.run_get_bind] at h
  have hal : Alike w w' := by
    have := loop_alike str w fuel (fun r => (w.obj r).hide) fields [] w fun _ => rfl
    rw [h] at this
    exact this
  obtain ⟨A, B, rfl⟩ := List.append_of_mem hf
  have hne : ∀ kf, kf ∈ A ∨ kf ∈ B → kf.1 ≠ name := fun kf hk => nodup_mid (g := Prod.fst) hkeys hk
  obtain ⟨dA, wA, eA, h⟩ := loop_append _ _ _ _ _ _ _ _ h
  obtain ⟨x, wf, ef, h⟩ := loop_cons (hide := fun r => (w.obj r).hide) hh h
  have aA : Alike w wA := by
    have := loop_alike str w fuel (fun r => (w.obj r).hide) A [] w fun _ => rfl
    rw [eA] at this
    exact this
  have af : Alike w wf := by
    have := call_alike str w fuel f none wA aA
    rw [ef] at this
    exact this
  refine ⟨x, wA, wf, ef, ?_, aA, hal, fun y hy => ⟨?_, ?_⟩⟩
  · rw [loop_get _ _ _ _ _ _ _ _ (fun hm => ?_) h, Dict.get?_set, if_pos rfl]
    obtain ⟨kg, hk, e⟩ := List.mem_map.1 hm
    exact hne kg (.inr hk) e
  · have := loop_apart (str := str) fuel (fun r => (w.obj r).hide) A [] w y fun kf hk =>
      hy kf (by simp [hk]) (hne kf (.inl hk))
    rw [eA] at this
    exact this
  · have := loop_apart (str := str) fuel (fun r => (w.obj r).hide) B (dA.set name x) wf y fun kf hk hb =>
      hy kf (by simp [hk]) (hne kf (.inr hk)) ((Below.congr fun z => node_of_shape (af z)).1 hb)
    rw [h] at this
    exact this

theorem _root_.Fauxdoc.GateOf.congr {w v : World R} {fields : Dict Ref} {name : String} {f e rp g : Ref}
    {p : K} (h : GateOf w fields name f e rp g p) (ha : Alike w v) :
    GateOf v fields name f e rp g p := by
  have hn : ∀ x, (v.obj x).node = (w.obj x).node := fun x => node_of_shape (ha x)
  refine ⟨h.keys, h.field, ?_, h.chance.congr (ha g), fun hb => h.value ((Below.congr hn).1 hb),
    fun hb => h.rep ((Below.congr hn).1 hb), fun kf hk hne hb => h.others kf hk hne ((Below.congr hn).1 hb)⟩
  rw [hn]
  exact h.node

theorem call_apart {str : Val → List Char} {fuel : Nat} {r x : Ref} {arg : Option Val} {w v v' : World R}
    {y : Val} (ha : Alike w v) (h : World.call str fuel r arg v = (.ok y, v')) (hb : ¬ Below w r x) :
    v'.obj x = v.obj x := by
  have := C57_only_below str fuel r x arg v fun hx =>
    hb ((Below.congr fun z => node_of_shape (ha z)).1 hx)
  rw [h] at this
  exact this

theorem alike_after {str : Val → List Char} {fuel : Nat} {r : Ref} {arg : Option Val} {w v v' : World R}
    {y : Val} (ha : Alike w v) (h : World.call str fuel r arg v = (.ok y, v')) : Alike w v' := by
  have := call_alike str w fuel r arg v ha
  rw [h] at this
  exact this

theorem withGen_alike {w v : World R} {r : Ref} {k : ItemsKind} (ha : Alike w v)
    (hk : (v.obj r).node = some (.choice k)) (g : R.G) : Alike w (v.withGen r g) := by
  intro x
  rw [← ha x, withGen_obj]
  split
  · rename_i hx
    subst hx
    rw [shape_choice hk, shape_choice (k := k) (by exact hk)]
    unfold ChoiceSt.config
    split <;> rfl
  · rfl

/-- One document of a schema with such a field. -/
theorem document_gate {str : Val → List Char} {fuel : Nat} {fields : Dict Ref} {name : String}
    {f e rp g : Ref} {p : K} {d : Dict Val} {w w' : World R} (hg : GateOf w fields name f e rp g p)
    (h : document str fuel fields w = (.ok d, w')) :
    Alike w w' ∧ (w'.obj g).choice.rng = (R.random (w.obj g).choice.rng).2 ∧
    ∃ x, d.get? name = some x ∧
      (p ≤ (R.random (w.obj g).choice.rng).1 ∧ x = .none ∨
        (R.random (w.obj g).choice.rng).1 < p ∧ ∃ fuel' k w1 w2 w3, Alike w w1 ∧ Alike w w2 ∧
          World.call str (fuel' + 1) rp none w1 = (.ok k, w2) ∧
          World.call str (fuel' + 1) e (some k) w2 = (.ok x, w3) ∧
          ∀ y, y ≠ g → (∀ kf ∈ fields, kf.1 ≠ name → ¬ Below w kf.2 y) → w1.obj y = w.obj y) := by
  obtain ⟨n, hn⟩ := hg.node
  obtain ⟨k, hk⟩ := hg.chance.node
  have hgf : g ≠ f := by
    rintro rfl
    rw [hn] at hk
    cases hk
  obtain ⟨x, wA, wf, hc, hx, aA, a', hother⟩ := document_split hg.keys hg.field
    (by unfold Attrs.hide; rw [hn]) h
  obtain ⟨o1, o2⟩ := hother g hg.others
  obtain ⟨w1, rfl, hcase⟩ := gate_field ((node_of_shape (aA f)).trans hn) (hg.chance.congr (aA g)) hc
  rw [o1] at hcase
  have ag : Alike w (wA.withGen g (R.random (w.obj g).choice.rng).2) :=
    withGen_alike aA ((node_of_shape (aA g)).trans hk) _
  have hrng : ((wA.withGen g (R.random (w.obj g).choice.rng).2).obj g).choice.rng =
      (R.random (w.obj g).choice.rng).2 := by
    rw [withGen_obj, if_pos rfl]
  have hupd : ((w1.upd f fun a => { a with cache := x }).obj g) = w1.obj g := if_neg hgf
  rw [o2, hupd]
  rcases hcase with ⟨hu, rfl, rfl⟩ | ⟨hu, fuel', k, w2, rfl, h1, h2⟩
  · exact ⟨a', hrng, _, hx, .inl ⟨hu, rfl⟩⟩
  · have a2 := alike_after ag h1
    refine ⟨a', ?_, x, hx, .inr ⟨hu, fuel', k, _, w2, w1, ag, a2, h1, h2, fun y hy ho => ?_⟩⟩
    · rw [call_apart a2 h2 hg.value, call_apart ag h1 hg.rep]
      exact hrng
    · rw [withGen_obj, if_neg hy]
      exact (hother y ho).1

theorem documents_length (str : Val → List Char) (fuel : Nat) (fields : Dict Ref) (n : Nat) :
    ∀ w : World R, (documents str fuel fields n w).length = n := by
  induction n with
  | zero => exact fun _ => rfl
  | succ n ih => exact fun w => congrArg (· + 1) (ih _)

/-- Successive documents of such a schema: the `i`-th draw of the gate decides about document `i`. -/
theorem documents_gate {str : Val → List Char} {fuel : Nat} {fields : Dict Ref} {name : String}
    {f e rp g : Ref} {p : K} (docs : List (Dict Val)) :
    ∀ {w : World R} (_ : GateOf w fields name f e rp g p) (n : Nat)
      (_ : documents str fuel fields n w = docs.map .ok) (i : Nat) (d : Dict Val), docs[i]? = some d →
      ∃ x, d.get? name = some x ∧
        (p ≤ R.nthDraw i (w.obj g).choice.rng ∧ x = .none ∨
          R.nthDraw i (w.obj g).choice.rng < p ∧ ∃ fuel' k w2, Alike w w2 ∧
            (World.call str fuel' e (some k) w2).1 = .ok x) := by
  induction docs with
  | nil => intro _ _ _ _ i d hd; simp at hd
  | cons d0 docs ih =>
    intro w hg n h i d hd
    cases n with
    | zero => cases h
    | succ n =>
      unfold documents at h
      rw [List.map_cons] at h
      obtain ⟨h1, h2⟩ := List.cons.inj h
      rcases hq : document str fuel fields w with ⟨y, w'⟩
      rw [hq] at h1 h2
      dsimp only at h1
      subst h1
      obtain ⟨ha, hr, x, hx, hcase⟩ := document_gate hg hq
      cases i with
      | zero =>
        cases hd
        refine ⟨x, hx, ?_⟩
        rcases hcase with hc | ⟨hu, fuel', k, w1, w2, w3, _, a2, _, h3, _⟩
        · exact .inl hc
        · exact .inr ⟨hu, fuel' + 1, k, w2, a2, by rw [h3]⟩
      | succ i =>
        obtain ⟨x, hx, hcase⟩ := ih (hg.congr ha) n h2 i d hd
        rw [hr] at hcase
        refine ⟨x, hx, ?_⟩
        rcases hcase with hc | ⟨hu, fuel', k, w2, a2, h3⟩
        · exact .inl hc
        · exact .inr ⟨hu, fuel', k, w2, fun z => (a2 z).trans (ha z), h3⟩

end World

variable [IsStrictOrderedRing K]

/-- The field is filled in document `i` exactly if the `i`-th draw of its gate is below `p`. -/
theorem filled_iff {str : Val → List Char} {fuel : Nat} {fields : Dict Ref} {name : String}
    {f e rp g : Ref} {p : K} {w : World R} (hg : GateOf w fields name f e rp g p)
    (he : NeverNone str w e) {n : Nat} {docs : List (Dict Val)}
    (h : World.documents str fuel fields n w = docs.map .ok) {i : Nat} {d : Dict Val}
    (hd : docs[i]? = some d) : Filled d name ↔ R.nthDraw i (w.obj g).choice.rng < p := by
  obtain ⟨x, hx, hc⟩ := World.documents_gate docs hg n h i d hd
  constructor
  · rintro ⟨y, hy, hne⟩
    rw [hx] at hy
    cases hy
    rcases hc with ⟨_, h0⟩ | ⟨hu, _⟩
    · exact absurd h0 hne
    · exact hu
  · intro hu
    rcases hc with ⟨h0, _⟩ | ⟨_, fuel', k, w2, a2, h3⟩
    · exact absurd hu (not_lt.2 h0)
    · refine ⟨x, hx, ?_⟩
      rintro rfl
      exact he fuel' (some k) w2 a2 h3

/-! ### Emitters that never return `None` -/

theorem emitterCallOr_none {σ : Type} {bad : Val → PyM σ Val} {emit : PyM σ Val}
    {many : Int → PyM σ (List Val)} {v : Val} {t : σ} (hbad : (bad v t).1 ≠ .ok .none)
    (hv : v ≠ .none) : (emitterCallOr bad emit many (some v) t).1 ≠ .ok .none := by
  have key : emitterCallOr bad emit many (some v) = match v.asInt with
      | none => bad v
      | some n => if n = 1 then do return .list [← emit] else do return .list (← many n) := by
    cases v <;> first | rfl | exact absurd rfl hv
  rw [key]
  rcases v.asInt with _ | n
  · exact hbad
  · dsimp only
    split
    · rw [PyM.bind_apply]
      rcases emit t with ⟨_ | x, t'⟩ <;> exact fun h => by cases h
    · rw [PyM.bind_apply]
      rcases many n t with ⟨_ | x, t'⟩ <;> exact fun h => by cases h

/-- A `Static` with a value. -/
theorem neverNone_static (str : Val → List Char) {w : World R} {e : Ref}
    (hn : (w.obj e).node = some .static) (hv : (w.obj e).static.value ≠ .none) : NeverNone str w e := by
  intro fuel arg v ha
  have hn' : (v.obj e).node = some .static := (World.node_of_shape (ha e)).trans hn
  have hs : v.obj e = w.obj e := by
    have := ha e
    unfold Attrs.shape at this
    rwa [hn, hn'] at this
  cases fuel with
  | zero => exact fun h => by cases h
  | succ fuel =>
    unfold World.call
    rw [PyM.run_get_bind, hn']
    change (World.staticChild e arg v).1 ≠ _
    have he : (((World.staticAttr e).run Static.emit) v).1 = .ok (v.obj e).static.value := rfl
    rcases arg with _ | k
    · change (((World.staticAttr e).run Static.emit) v).1 ≠ _
      rw [he, hs]
      exact fun h => hv (Except.ok.inj h)
    · by_cases hk : k = .none
      · subst hk
        change (((World.staticAttr e).run Static.emit) v).1 ≠ _
        rw [he, hs]
        exact fun h => hv (Except.ok.inj h)
      · exact emitterCallOr_none (fun h => by cases h) hk

/-- A `Choice` with weights of items other than `None`. -/
theorem neverNone_picks (str : Val → List Char) {w : World R} {e : Ref} {items : List Val} {ws : List K}
    (h : Picks items ws (w.obj e)) (hv : Val.none ∉ items) : NeverNone str w e := by
  intro fuel arg v ha
  cases fuel with
  | zero => exact fun h => by cases h
  | succ fuel =>
    have hp := h.congr (ha e)
    by_cases harg : arg = none ∨ arg = some .none
    · obtain ⟨x, h1, h2⟩ := World.picks_call hp str fuel arg harg
      rw [h2]
      intro hx
      cases hx
      exact hv (List.mem_of_getElem? h1)
    · rcases arg with _ | k
      · exact absurd (.inl rfl) harg
      · obtain ⟨kd, hk⟩ := hp.node
        unfold World.call
        rw [PyM.run_get_bind, hk]
        change (World.onChoice e (Choice.child (some k)) v).1 ≠ _
        unfold World.onChoice Choice.child
        have hb : (Choice.emitBad (R := R) k ((v.obj e).choice, v.entropy)).1 ≠ .ok .none := by
          unfold Choice.emitBad
          rw [PyM.bind_ok (m := Choice.self) (a := (v.obj e).choice)
            (s' := ((v.obj e).choice, v.entropy)) rfl, hp.replace, hp.cumWeights]
          rcases (v.obj e).choice.roac with _ | _
          · dsimp only
            rw [if_neg (by rw [hp.among]; exact hp.several), PyM.bind_apply]
            generalize (Choice.onRng (R.choicesCum (v.obj e).choice.items.length (accumulate ws) 0))
              ((v.obj e).choice, v.entropy) = q
            obtain ⟨_ | _, _⟩ := q
            · exact fun h => by cases h
            · exact fun h => by cases h
          · exact fun h => by cases h
        have := emitterCallOr_none (emit := Choice.emit) (many := Choice.emitMany) hb
          (fun hk => harg (.inr (by rw [hk])))
        revert this
        generalize emitterCallOr Choice.emitBad Choice.emit Choice.emitMany (some k)
          ((v.obj e).choice, v.entropy) = q
        obtain ⟨r, c, n⟩ := q
        exact id

/-! ### C88 -/

theorem seeded_gate {w : World R} {fields : Dict Ref} {name : String} {f e rp g : Ref} {p : K}
    (h : GateOf w fields name f e rp g p) {s : Int} {fuel : Nat}
    (hok : (World.seedFields fuel (some s) fields w).1 = .ok ()) :
    GateOf (World.seedFields fuel (some s) fields w).2 fields name f e rp g p ∧
      ((World.seedFields fuel (some s) fields w).2.obj g).choice.rng = R.ofSeed s := by
  have ha := World.seedFields_shape fuel (some s) fields w
  refine ⟨h.congr ha, ?_⟩
  obtain ⟨n, hn⟩ := h.node
  have hb : Below w f g := .step (c := g) (by unfold Attrs.children; rw [hn]; simp [Node.childRefs]) (.self g)
  have hs := World.seedFields_seeded fuel (some s) fields w hok h.field g hb
  obtain ⟨k, hk⟩ := h.chance.node
  unfold Attrs.Seeded at hs
  rw [(World.node_of_shape (ha g)).trans hk] at hs
  have hf := (hs.2 s rfl).2
  rwa [if_pos (h.congr ha).chance.replace] at hf

theorem _root_.Fauxdoc.NeverNone.congr {str : Val → List Char} {w v : World R} {e : Ref}
    (h : NeverNone str w e) (ha : ∀ x, (v.obj x).shape = (w.obj x).shape) : NeverNone str v e :=
  fun fuel arg u hu => h fuel arg u fun x => (hu x).trans (ha x)

/-- **C88 (gates), violated.** After `seed_fields(s)` two fields with gates `chance(p)` and
`chance(q)`, `p ≤ q`, are not filled independently: whatever the seed and the generator, a document
with the first field also has the second, and for `p = q` always both or neither. -/
theorem C88_gates_violated (str : Val → List Char) {w : World R} {fields : Dict Ref}
    {a b : String} {f e rp g f' e' rp' g' : Ref} {p q : K} (ha : GateOf w fields a f e rp g p)
    (hb : GateOf w fields b f' e' rp' g' q) (hpq : p ≤ q) (hne : NeverNone str w e)
    (hne' : NeverNone str w e') (s : Int) (fuel : Nat)
    (hok : (World.seedFields fuel (some s) fields w).1 = .ok ()) (fuel' n : Nat) (docs : List (Dict Val))
    (hdocs : World.documents str fuel' fields n (World.seedFields fuel (some s) fields w).2 =
      docs.map .ok) :
    ∀ d ∈ docs, (Filled d a → Filled d b) ∧ (p = q → (Filled d a ↔ Filled d b)) := by
  intro d hd
  obtain ⟨i, hi⟩ := List.mem_iff_getElem?.1 hd
  have hs := World.seedFields_shape fuel (some s) fields w
  obtain ⟨ga, ra⟩ := seeded_gate ha hok
  obtain ⟨gb, rb⟩ := seeded_gate hb hok
  have h1 := filled_iff ga (hne.congr hs) hdocs hi
  have h2 := filled_iff gb (hne'.congr hs) hdocs hi
  rw [ra] at h1
  rw [rb] at h2
  rw [h1, h2]
  exact ⟨fun h => lt_of_lt_of_le h hpq, fun h => by rw [h]⟩

/-- The first document of a schema with a field with gate `chance(p)`, one value, and a choice with
weights as emitter. -/
theorem first_value {str : Val → List Char} {fuel : Nat} {fields : Dict Ref} {name : String}
    {f e rp g : Ref} {p : K} {w w' : World R} {d : Dict Val} (hg : GateOf w fields name f e rp g p)
    (hrp : (w.obj rp).node = some .static) (hone : (w.obj rp).static.value = .none) {items : List Val}
    {ws : List K} (he : Picks items ws (w.obj e))
    (ho : ∀ kf ∈ fields, kf.1 ≠ name → ¬ Below w kf.2 e)
    (h : World.document str fuel fields w = (.ok d, w')) :
    ∃ x, d.get? name = some x ∧
      (p ≤ (R.random (w.obj g).choice.rng).1 ∧ x = .none ∨
        (R.random (w.obj g).choice.rng).1 < p ∧
          items[choicesPick (accumulate ws) ws.sum (R.random (w.obj e).choice.rng).1]? = some x) := by
  obtain ⟨_, _, x, hx, hc⟩ := World.document_gate hg h
  refine ⟨x, hx, ?_⟩
  rcases hc with hc | ⟨hu, fuel', k, w1, w2, w3, a1, a2, h1, h2, hsame⟩
  · exact .inl hc
  refine .inr ⟨hu, ?_⟩
  obtain ⟨ke, hke⟩ := he.node
  have heg : e ≠ g := fun h => hg.value (h ▸ .self e)
  have hb : ¬ Below w rp e := by
    intro hb
    have := hb.mem [rp] (by
      intro y hy c hc
      simp only [List.mem_cons, List.not_mem_nil, or_false] at hy
      subst hy
      unfold Attrs.children at hc
      rw [hrp] at hc
      exact absurd hc (by simp [Node.childRefs])) (by simp)
    simp only [List.mem_cons, List.not_mem_nil, or_false] at this
    subst this
    rw [hrp] at hke
    cases hke
  have hw2 : w2.obj e = w.obj e := (World.call_apart a1 h1 hb).trans (hsame e heg ho)
  have hn' : (w1.obj rp).node = some .static := (World.node_of_shape (a1 rp)).trans hrp
  have hs : w1.obj rp = w.obj rp := by
    have := a1 rp
    unfold Attrs.shape at this
    rwa [hrp, hn'] at this
  have hk : k = .none := by
    unfold World.call at h1
    rw [PyM.run_get_bind, hn'] at h1
    have h1' : (((World.staticAttr rp).run Static.emit) w1).1 = .ok k := congrArg Prod.fst h1
    have he : (((World.staticAttr rp).run Static.emit) w1).1 = .ok (w1.obj rp).static.value := rfl
    rw [he, hs, hone] at h1'
    exact (Except.ok.inj h1').symm
  subst hk
  obtain ⟨v, hv, hcall⟩ := World.picks_call (he.congr (a2 e)) str fuel' (some .none) (.inr rfl)
  rw [hcall] at h2
  cases h2
  rwa [hw2] at hv

/-- **C88 (values), violated.** In the first document after `seed_fields(s)` a field with gate
`chance(p)` never has an item of its choice for which `p` times the total weight is not above the sum
of the weights of the items before it — whatever the seed and the generator, although the item has
its weight: the draw that opens the gate is the draw that picks the item. -/
theorem C88_values_violated (str : Val → List Char) {w : World R} {fields : Dict Ref}
    {name : String} {f e rp g : Ref} {p : K} (hg : GateOf w fields name f e rp g p)
    (hrp : (w.obj rp).node = some .static) (hone : (w.obj rp).static.value = .none) {items : List Val}
    {ws : List K} (he : Picks items ws (w.obj e)) (hnd : items.Nodup)
    (ho : ∀ kf ∈ fields, kf.1 ≠ name → ¬ Below w kf.2 e) (s : Int) (fuel : Nat)
    (hok : (World.seedFields fuel (some s) fields w).1 = .ok ()) (fuel' : Nat) (d : Dict Val)
    (hd : (World.document str fuel' fields (World.seedFields fuel (some s) fields w).2).1 = .ok d)
    (i : Nat) (v : Val) (hi : items[i]? = some v) (hv : v ≠ .none)
    (hp : p * ws.sum ≤ (ws.take i).sum) : d.get? name ≠ some v := by
  have hs := World.seedFields_shape fuel (some s) fields w
  obtain ⟨g1, r1⟩ := seeded_gate hg hok
  obtain ⟨n, hn⟩ := hg.node
  have re : ((World.seedFields fuel (some s) fields w).2.obj e).choice.rng = R.ofSeed s := by
    have hb : Below w f e := .step (c := e) (by unfold Attrs.children; rw [hn]; simp [Node.childRefs]) (.self e)
    have hse := World.seedFields_seeded fuel (some s) fields w hok hg.field e hb
    obtain ⟨k, hk⟩ := he.node
    unfold Attrs.Seeded at hse
    rw [(World.node_of_shape (hs e)).trans hk] at hse
    have hf := (hse.2 s rfl).2
    rwa [if_pos (he.congr (hs e)).replace] at hf
  rcases hq : World.document str fuel' fields (World.seedFields fuel (some s) fields w).2 with ⟨y, w'⟩
  rw [hq] at hd
  dsimp only at hd
  subst hd
  have hst : (World.seedFields fuel (some s) fields w).2.obj rp = w.obj rp := by
    have := hs rp
    have hn' := (World.node_of_shape (hs rp)).trans hrp
    unfold Attrs.shape at this
    rwa [hrp, hn'] at this
  obtain ⟨x, hx, hc⟩ := first_value g1 (by rw [hst]; exact hrp) (by rw [hst]; exact hone)
    (he.congr (hs e)) (fun kf hk hne hb => ho kf hk hne
      ((World.Below.congr fun z => World.node_of_shape (hs z)).1 hb)) hq
  rw [hx]
  rw [r1, re] at hc
  intro hxv
  cases hxv
  rcases hc with ⟨_, h0⟩ | ⟨hu, hpick⟩
  · exact hv h0
  have hne : ws ≠ [] := by
    rintro rfl
    exact absurd he.total (by simp)
  have hlo := (choicesPick_spec ws hne he.total _ (R.random_nonneg (R.ofSeed s))
    (R.random_lt_one (R.ofSeed s))).2.1
  obtain ⟨h1, h1'⟩ := List.getElem?_eq_some_iff.1 hi
  obtain ⟨h2, h2'⟩ := List.getElem?_eq_some_iff.1 hpick
  have hij : i = choicesPick (accumulate ws) ws.sum (R.random (R.ofSeed s)).1 :=
    hnd.getElem_inj_iff.1 (h1'.trans h2'.symm)
  rw [← hij] at hlo
  have := mul_lt_mul_of_pos_right hu he.total
  linarith

end Fauxdoc

namespace Fauxdoc
open MeasureTheory
variable {R : Rng ℝ}

theorem GateOf.withGen {w : World R} {fields : Dict Ref} {name : String} {f e rp g : Ref} {p : ℝ}
    (h : GateOf w fields name f e rp g p) {r : Ref} {k : ItemsKind}
    (hk : (w.obj r).node = some (.choice k)) (x : R.G) :
    GateOf (w.withGen r x) fields name f e rp g p :=
  h.congr (World.withGen_alike (fun _ => rfl) hk x)

/-- The probability that the draws of a gate show a given pattern. -/
theorem gate_pattern [MeasurableSpace R.G] (μ : Measure R.G) {n : Nat} (hU : UniformDraws R μ n) {p : ℝ}
    (h0 : 0 ≤ p) (h1 : p ≤ 1) (A : Fin n → Bool) :
    μ {x | ∀ i : Fin n, R.nthDraw i x < p ↔ A i = true} =
      ∏ i, ENNReal.ofReal (if A i then p else 1 - p) := by
  have hset : {x | ∀ i : Fin n, R.nthDraw i x < p ↔ A i = true} =
      (fun x => fun j : Fin n => R.nthDraw j x) ⁻¹' (Set.univ.pi fun i =>
        if A i then Set.Ico 0 p else Set.Ico p 1) := by
    ext x
    simp only [Set.mem_ofPred_eq, Set.mem_preimage, Set.mem_univ_pi]
    refine forall_congr' fun i => ?_
    have h := nthDraw_mem R i x
    cases A i
    · simp [h.2]
    · simp [h.1]
  have hm : ∀ i, MeasurableSet (if A i then Set.Ico 0 p else Set.Ico p 1) := by
    intro i
    split <;> exact measurableSet_Ico
  rw [hset, ← Measure.map_apply hU.1 (MeasurableSet.univ_pi hm), hU.2, Measure.pi_pi]
  refine Finset.prod_congr rfl fun i _ => ?_
  rw [Measure.restrict_apply (hm i)]
  cases A i
  · rw [if_neg (by simp), if_neg (by simp), Set.inter_eq_left.2, Real.volume_Ico]
    exact fun u hu => ⟨le_trans h0 hu.1, hu.2⟩
  · rw [if_pos rfl, if_pos rfl, Set.inter_eq_left.2, Real.volume_Ico, sub_zero]
    exact fun u hu => ⟨hu.1, lt_of_lt_of_le hu.2 h1⟩

/-- **C88 (gates), as far as it holds.** If the generators of the two gates start in independent
states with uniform draws, then in any number of documents the two fields are filled independently of
each other and of the other documents, with probabilities `p` and `q`.  (Missing: gates that were
seeded alike, as `seed_fields` does.) -/
theorem C88_gates_partial [MeasurableSpace R.G] (μ ν : Measure R.G) [SFinite μ] [SFinite ν]
    (str : Val → List Char) {w : World R} {fields : Dict Ref} {a b : String}
    {f e rp g f' e' rp' g' : Ref} {p q : ℝ} (ha : GateOf w fields a f e rp g p)
    (hb : GateOf w fields b f' e' rp' g' q) (hg : g ≠ g') (hp0 : 0 ≤ p) (hp1 : p ≤ 1) (hq0 : 0 ≤ q)
    (hq1 : q ≤ 1) (hne : NeverNone str w e) (hne' : NeverNone str w e') (fuel n : Nat)
    (hU : UniformDraws R μ n) (hV : UniformDraws R ν n)
    (hok : ∀ x y, ∃ docs : List (Dict Val),
      World.documents str fuel fields n ((w.withGen g x).withGen g' y) = docs.map .ok)
    (A B : Fin n → Bool) :
    (μ.prod ν) {xy | ∀ i : Fin n, ∃ d,
        (World.documents str fuel fields n ((w.withGen g xy.1).withGen g' xy.2))[(i : Nat)]? = some (.ok d) ∧
        (Filled d a ↔ A i = true) ∧ (Filled d b ↔ B i = true)} =
      (∏ i, ENNReal.ofReal (if A i then p else 1 - p)) *
        ∏ i, ENNReal.ofReal (if B i then q else 1 - q) := by
  obtain ⟨k, hk⟩ := ha.chance.node
  obtain ⟨k', hk'⟩ := hb.chance.node
  rw [← gate_pattern μ hU hp0 hp1 A, ← gate_pattern ν hV hq0 hq1 B, ← Measure.prod_prod]
  congr 1
  ext ⟨x, y⟩
  simp only [Set.mem_ofPred_eq, Set.mem_prod]
  have al : World.Alike w ((w.withGen g x).withGen g' y) :=
    World.withGen_alike (World.withGen_alike (fun _ => rfl) hk x)
      (by rw [World.withGen_obj, if_neg (Ne.symm hg)]; exact hk') y
  have hx : (((w.withGen g x).withGen g' y).obj g).choice.rng = x := by
    rw [World.withGen_obj, if_neg hg, World.withGen_obj, if_pos rfl]
  have hy : (((w.withGen g x).withGen g' y).obj g').choice.rng = y := by
    rw [World.withGen_obj, if_pos rfl]
  obtain ⟨docs, hdocs⟩ := hok x y
  have hlen : docs.length = n := by
    have := World.documents_length str fuel fields n ((w.withGen g x).withGen g' y)
    rwa [hdocs, List.length_map] at this
  rw [hdocs, ← forall_and]
  refine forall_congr' fun i => ?_
  have hi : docs[(i : Nat)]? = some docs[(i : Nat)] := List.getElem?_eq_getElem (by omega)
  have h1 := filled_iff (ha.congr al) (hne.congr al) hdocs hi
  have h2 := filled_iff (hb.congr al) (hne'.congr al) hdocs hi
  rw [hx] at h1
  rw [hy] at h2
  rw [← h1, ← h2, List.getElem?_map, hi]
  constructor
  · rintro ⟨d, hd, h⟩
    cases hd
    exact h
  · exact fun h => ⟨_, rfl, h⟩

/-- **C88 (values), as far as it holds.** If the generators of the gate and of the emitter start in
independent states with uniform draws, the field has the `i`-th item in the next document with the
probability of the gate times the share of the item's weight.  (Missing: a gate and an emitter that
were seeded alike, as the methods `seed` and `reset` of a field with a seed do.) -/
theorem C88_values_partial [MeasurableSpace R.G] (μ ν : Measure R.G) [SFinite μ] [SFinite ν]
    (str : Val → List Char) {w : World R} {fields : Dict Ref} {name : String} {f e rp g : Ref} {p : ℝ}
    (hg : GateOf w fields name f e rp g p) (hp0 : 0 ≤ p) (hp1 : p ≤ 1)
    (hrp : (w.obj rp).node = some .static) (hone : (w.obj rp).static.value = .none) {items : List Val}
    {ws : List ℝ} (he : Picks items ws (w.obj e)) (hnd : items.Nodup) (hnn : ∀ x ∈ ws, 0 ≤ x)
    (ho : ∀ kf ∈ fields, kf.1 ≠ name → ¬ Below w kf.2 e) (fuel : Nat)
    (hU : UniformDraws R μ 1) (hV : UniformDraws R ν 1)
    (hok : ∀ x y, ∃ d, (World.document str fuel fields ((w.withGen g x).withGen e y)).1 = .ok d)
    (i : Fin items.length) (hi : items[i] ≠ .none) :
    (μ.prod ν) {xy | ∃ d, (World.document str fuel fields ((w.withGen g xy.1).withGen e xy.2)).1 = .ok d ∧
        d.get? name = some items[i]} =
      ENNReal.ofReal p * ENNReal.ofReal (ws.getD i 0 / ws.sum) := by
  obtain ⟨k, hk⟩ := hg.chance.node
  obtain ⟨k', hk'⟩ := he.node
  have heg : e ≠ g := fun h => hg.value (h ▸ .self e)
  have hne : ws ≠ [] := by
    rintro rfl
    exact absurd he.total (by simp)
  have hI : ν {y | choicesPick (accumulate ws) ws.sum (R.random y).1 = i} =
      ENNReal.ofReal (ws.getD i 0 / ws.sum) := by
    have hset : {y | choicesPick (accumulate ws) ws.sum (R.random y).1 = i} =
        (fun y => fun j : Fin 1 => R.nthDraw j y) ⁻¹' (Set.univ.pi fun _ =>
          Set.Ico ((ws.take i).sum / ws.sum) ((ws.take (i + 1)).sum / ws.sum)) := by
      ext y
      simp only [Set.mem_ofPred_eq, Set.mem_preimage, Set.mem_univ_pi, Fin.forall_fin_one]
      rw [choicesPick_iff ws hne hnn he.total _ (R.random_nonneg y) (R.random_lt_one y)]
      rfl
    rw [hset, ← Measure.map_apply hV.1 (MeasurableSet.univ_pi fun _ => measurableSet_Ico), hV.2,
      Measure.pi_pi]
    simp only [Finset.univ_unique, Finset.prod_singleton]
    exact ico_prob ws hnn he.total _ (by rw [he.same]; exact i.2)
  have hA := gate_pattern μ hU hp0 hp1 fun _ => true
  simp only [Finset.univ_unique, Finset.prod_singleton, if_true, Fin.forall_fin_one, iff_true] at hA
  rw [← hI, ← hA, ← Measure.prod_prod]
  congr 1
  ext ⟨x, y⟩
  simp only [Set.mem_ofPred_eq, Set.mem_prod]
  have hg1 : (w.withGen g x).obj e = w.obj e := by rw [World.withGen_obj, if_neg heg]
  have al : World.Alike w ((w.withGen g x).withGen e y) :=
    World.withGen_alike (World.withGen_alike (fun _ => rfl) hk x) (by rw [hg1]; exact hk') y
  have hx : (((w.withGen g x).withGen e y).obj g).choice.rng = x := by
    rw [World.withGen_obj, if_neg (Ne.symm heg), World.withGen_obj, if_pos rfl]
  have hy : (((w.withGen g x).withGen e y).obj e).choice.rng = y := by
    rw [World.withGen_obj, if_pos rfl]
  have hrg : rp ≠ g := fun h => hg.rep (h ▸ .self rp)
  have hre : rp ≠ e := by
    rintro rfl
    rw [hrp] at hk'
    cases hk'
  have hst : ((w.withGen g x).withGen e y).obj rp = w.obj rp := by
    rw [World.withGen_obj, if_neg hre, World.withGen_obj, if_neg hrg]
  obtain ⟨d, hd⟩ := hok x y
  rcases hq : World.document str fuel fields ((w.withGen g x).withGen e y) with ⟨r, w'⟩
  rw [hq] at hd
  dsimp only at hd
  subst hd
  obtain ⟨v, hv, hc⟩ := first_value (hg.congr al) (by rw [hst]; exact hrp) (by rw [hst]; exact hone)
    (he.congr (al e)) (fun kf hkf hne hb => ho kf hkf hne
      ((World.Below.congr fun z => World.node_of_shape (al z)).1 hb)) hq
  rw [hx, hy] at hc
  change (∃ d', Except.ok d = Except.ok d' ∧ _) ↔ (R.random x).1 < p ∧ _
  constructor
  · rintro ⟨d', hd', hget⟩
    cases hd'
    rw [hv] at hget
    cases hget
    rcases hc with ⟨_, h0⟩ | ⟨hu, hpick⟩
    · exact absurd h0 hi
    · obtain ⟨h2, h2'⟩ := List.getElem?_eq_some_iff.1 hpick
      exact ⟨hu, hnd.getElem_inj_iff.1 h2'⟩
  · rintro ⟨hu, hpick⟩
    refine ⟨d, rfl, ?_⟩
    rcases hc with ⟨h0, _⟩ | ⟨_, hc⟩
    · exact absurd hu (not_lt.2 h0)
    · rw [hpick] at hc
      rw [hv]
      exact congrArg some (Option.some.inj ((List.getElem?_eq_getElem i.2).symm.trans hc)).symm

/-! ### An example -/

section
variable {K : Type} [Field K] [LinearOrder K] [FloorRing K]

/-- A `Choice` with weights. -/
def coin (R : Rng K) (items : List Val) (ws : List K) : Attrs R :=
  { World.blank with
    node := some (.choice .list)
    choice := ⟨items, some ws, some (accumulate ws), true, false, [], none, items.length, some 0,
      R.ofSeed 0⟩ }
/-- A `Static`. -/
def fixed (R : Rng K) (v : Val) : Attrs R :=
  { World.blank with node := some .static, static := ⟨v, [v]⟩ }
/-- A field. -/
def gated (R : Rng K) (name : String) (e rp g : Ref) : Attrs R :=
  { World.blank with node := some (.field name e rp g false), seed := some 0, rng := R.ofSeed 0 }

/-- `Field('a', Choice('xy', weights=[1, 1]), gate=chance(p))` (3) and
`Field('b', Static('z'), gate=chance(q))` (7). -/
def coinWorld (R : Rng K) (p q : K) : World R where
  obj
    | 0 => coin R [.str ['x'], .str ['y']] [1, 1] | 1 => fixed R .none
    | 2 => coin R [.bool true, .bool false] [p, 1 - p] | 3 => gated R "a" 0 1 2
    | 4 => fixed R (.str ['z']) | 5 => fixed R .none
    | 6 => coin R [.bool true, .bool false] [q, 1 - q] | 7 => gated R "b" 4 5 6
    | _ => World.blank
  next := 8
  entropy := 0

/-- The schema. -/
def coinFields : Dict Ref := [("a", 3), ("b", 7)]

variable [IsStrictOrderedRing K] {R : Rng K} {p q : K}

theorem coin_picks : Picks [.str ['x'], .str ['y']] [1, 1] ((coinWorld R p q).obj 0) :=
  ⟨⟨_, rfl⟩, rfl, rfl, rfl, rfl, rfl, by decide, by simp⟩

theorem coin_below (r : Ref) (hr : Node.childRefs ((coinWorld R p q).obj r).node = []) {x : Ref}
    (h : Below (coinWorld R p q) r x) : x = r := by
  have := h.mem [r] (fun y hy c hc => by
    simp only [List.mem_cons, List.not_mem_nil, or_false] at hy
    subst hy
    unfold Attrs.children at hc
    rw [hr] at hc
    cases hc) (by simp)
  simpa using this

theorem coin_below3 {x : Ref} (h : Below (coinWorld R p q) 3 x) : x ∈ [0, 1, 2, 3] :=
  h.mem [0, 1, 2, 3] (by
    intro y hy
    simp only [List.mem_cons, List.not_mem_nil, or_false] at hy
    rcases hy with rfl | rfl | rfl | rfl <;>
      simp [coinWorld, coin, fixed, gated, Attrs.children, Node.childRefs]) (by decide)

theorem coin_below7 {x : Ref} (h : Below (coinWorld R p q) 7 x) : x ∈ [4, 5, 6, 7] :=
  h.mem [4, 5, 6, 7] (by
    intro y hy
    simp only [List.mem_cons, List.not_mem_nil, or_false] at hy
    rcases hy with rfl | rfl | rfl | rfl <;>
      simp [coinWorld, coin, fixed, gated, Attrs.children, Node.childRefs]) (by decide)

theorem coin_a : GateOf (coinWorld R p q) coinFields "a" 3 0 1 2 p where
  keys := by decide
  field := by decide
  node := ⟨_, rfl⟩
  chance := ⟨⟨_, rfl⟩, rfl, rfl, rfl, rfl, rfl, by decide, by simp⟩
  value h := absurd (coin_below 0 rfl h) (by decide)
  rep h := absurd (coin_below 1 rfl h) (by decide)
  others kf hk hne h := by
    simp only [coinFields, List.mem_cons, List.not_mem_nil, or_false] at hk
    rcases hk with rfl | rfl
    · exact hne rfl
    · exact absurd (coin_below7 h) (by decide)

theorem coin_b : GateOf (coinWorld R p q) coinFields "b" 7 4 5 6 q where
  keys := by decide
  field := by decide
  node := ⟨_, rfl⟩
  chance := ⟨⟨_, rfl⟩, rfl, rfl, rfl, rfl, rfl, by decide, by simp⟩
  value h := absurd (coin_below 4 rfl h) (by decide)
  rep h := absurd (coin_below 5 rfl h) (by decide)
  others kf hk hne h := by
    simp only [coinFields, List.mem_cons, List.not_mem_nil, or_false] at hk
    rcases hk with rfl | rfl
    · exact absurd (coin_below3 h) (by decide)
    · exact hne rfl

theorem coin_never_a (str : Val → List Char) : NeverNone str (coinWorld R p q) 0 :=
  neverNone_picks str coin_picks (by decide)
theorem coin_never_b (str : Val → List Char) : NeverNone str (coinWorld R p q) 4 :=
  neverNone_static str rfl (fun h => by cases h)

/-- An object of the schema that can be called without and with the argument `None`. -/
theorem coin_leaf (str : Val → List Char) {w : World R} (ha : World.Alike (coinWorld R p q) w) {r : Ref}
    (hr : r ∈ [0, 1, 4, 5]) (arg : Option Val) (harg : arg = none ∨ arg = some .none) (fuel : Nat) :
    ∃ v w', World.call str (fuel + 1) r arg w = (.ok v, w') ∧ (r ∈ [1, 5] → v = .none) := by
  have st : ∀ r v, (coinWorld R p q).obj r = fixed R v →
      ∃ w', World.call str (fuel + 1) r arg w = (.ok v, w') := by
    intro r v hv
    have hn : (w.obj r).node = some .static := by rw [World.node_of_shape (ha r), hv]; rfl
    have hs : w.obj r = fixed R v := by
      have := ha r
      unfold Attrs.shape at this
      rw [hv, hn] at this
      exact this
    have he : (((World.staticAttr r).run Static.emit) w).1 = .ok (w.obj r).static.value := rfl
    unfold World.call
    rw [PyM.run_get_bind, hn]
    refine ⟨(((World.staticAttr r).run Static.emit) w).2, ?_⟩
    have : World.staticChild r arg w = ((World.staticAttr r).run Static.emit) w := by
      rcases harg with rfl | rfl <;> rfl
    refine this.trans (Prod.ext (he.trans ?_) rfl)
    rw [hs]
    rfl
  simp only [List.mem_cons, List.not_mem_nil, or_false] at hr
  rcases hr with rfl | rfl | rfl | rfl
  · obtain ⟨v, _, h⟩ := World.picks_call (coin_picks.congr (ha 0)) str fuel arg harg
    exact ⟨v, _, h, fun h => absurd h (by decide)⟩
  · obtain ⟨w', h⟩ := st 1 .none rfl
    exact ⟨_, w', h, fun _ => rfl⟩
  · obtain ⟨w', h⟩ := st 4 _ rfl
    exact ⟨_, w', h, fun h => absurd h (by decide)⟩
  · obtain ⟨w', h⟩ := st 5 .none rfl
    exact ⟨_, w', h, fun _ => rfl⟩

/-- The fields can always be called. -/
theorem coin_field (str : Val → List Char) {w : World R} (ha : World.Alike (coinWorld R p q) w)
    {name : String} {f e rp g : Ref} {c : K} (h : GateOf (coinWorld R p q) coinFields name f e rp g c)
    (he : e ∈ [0, 1, 4, 5]) (hr : rp ∈ [1, 5]) (fuel : Nat) :
    ∃ v w', World.call str (fuel + 2) f none w = (.ok v, w') := by
  obtain ⟨n, hn⟩ := h.node
  obtain ⟨k, hk⟩ := h.chance.node
  have hc := World.chance_call (h.chance.congr (ha g)) str fuel
  have hn' := (World.node_of_shape (ha f)).trans hn
  by_cases hu : (R.random (w.obj g).choice.rng).1 < c
  · have a1 := World.withGen_alike ha ((World.node_of_shape (ha g)).trans hk)
      (R.random (w.obj g).choice.rng).2
    obtain ⟨v1, w1, h1, hv1⟩ := coin_leaf str a1 (r := rp) (by
      simp only [List.mem_cons, List.not_mem_nil, or_false] at hr ⊢; tauto) none (.inl rfl) fuel
    have hv := hv1 hr
    subst hv
    obtain ⟨v2, w2, h2, _⟩ := coin_leaf str (World.alike_after a1 h1) (r := e) he (some .none) (.inr rfl) fuel
    refine ⟨v2, _, (C46_store str (fuel + 1) hn' v2 _).2 ⟨_, _, hc, .inr ⟨?_, _, _, _, h1, h2, rfl⟩⟩⟩
    simp [Val.truthy, hu]
  · refine ⟨.none, _, (C46_store str (fuel + 1) hn' .none _).2 ⟨_, _, hc, .inl ⟨?_, rfl, rfl⟩⟩⟩
    simpa [Val.truthy] using not_lt.1 hu

/-- The schema always gives a document. -/
theorem coin_document (str : Val → List Char) {w : World R} (ha : World.Alike (coinWorld R p q) w)
    (fuel : Nat) : ∃ d w', World.document str (fuel + 2) coinFields w = (.ok d, w') := by
  obtain ⟨v1, w1, h1⟩ := coin_field str ha coin_a (by decide) (by decide) fuel
  obtain ⟨v2, w2, h2⟩ := coin_field str (World.alike_after ha h1) coin_b (by decide) (by decide) fuel
  have hh : ∀ f ∈ ([3, 7] : List Ref), (w.obj f).hide = false := by
    intro f hf
    unfold Attrs.hide
    rw [World.node_of_shape (ha f)]
    simp only [List.mem_cons, List.not_mem_nil, or_false] at hf
    rcases hf with rfl | rfl <;> rfl
  refine ⟨[("a", v1), ("b", v2)], w2, ?_⟩
  unfold World.document Schema.call
  rw [PyM.run_get_bind]
  unfold coinFields
  have l2 : ∀ doc, Schema.loop (fun r => (w.obj r).hide) (fun r => World.call str (fuel + 2) r none) doc
      [("b", 7)] w1 = (.ok (doc.set "b" v2), w2) := by
    intro doc
    unfold Schema.loop
    rw [PyM.bind_ok h2, if_neg (by rw [hh 7 (by decide)]; decide)]
    rfl
  unfold Schema.loop
  rw [PyM.bind_ok h1, if_neg (by rw [hh 3 (by decide)]; decide), l2]
  rfl

theorem coin_documents (str : Val → List Char) (fuel n : Nat) : ∀ {w : World R}
    (_ : World.Alike (coinWorld R p q) w),
    ∃ docs : List (Dict Val), World.documents str (fuel + 2) coinFields n w = docs.map .ok := by
  induction n with
  | zero => exact fun _ => ⟨[], rfl⟩
  | succ n ih =>
    intro w ha
    obtain ⟨d, w', h⟩ := coin_document str ha fuel
    have ha' : World.Alike (coinWorld R p q) w' := by
      have := World.loop_alike str (coinWorld R p q) (fuel + 2) (fun r => (w.obj r).hide) coinFields [] w ha
      unfold World.document Schema.call at h
      rw [PyM.run_get_bind] at h
      rw [h] at this
      exact this
    obtain ⟨docs, hd⟩ := ih ha'
    refine ⟨d :: docs, ?_⟩
    unfold World.documents
    rw [h, List.map_cons, hd]
end

/-- With `p = q = 1/2` and the seed 0: both or neither. -/
example : (World.seedFields 5 (some 0) coinFields (coinWorld demoRng (1 / 2) (1 / 2))).1 = .ok () ∧
    World.documents demoStr 5 coinFields 4
      (World.seedFields 5 (some 0) coinFields (coinWorld demoRng (1 / 2) (1 / 2))).2 =
    [.ok [("a", .str ['x']), ("b", .str ['z'])], .ok [("a", .none), ("b", .none)],
     .ok [("a", .none), ("b", .none)], .ok [("a", .str ['y']), ("b", .str ['z'])]] := by decide +kernel

example (s : Int) (docs : List (Dict Val)) (n : Nat)
    (hok : (World.seedFields 5 (some s) coinFields (coinWorld demoRng (1 / 3) (1 / 2))).1 = .ok ())
    (h : World.documents demoStr 5 coinFields n
      (World.seedFields 5 (some s) coinFields (coinWorld demoRng (1 / 3) (1 / 2))).2 = docs.map .ok) :
    ∀ d ∈ docs, Filled d "a" → Filled d "b" := fun d hd =>
  (C88_gates_violated demoStr coin_a coin_b (by norm_num) (coin_never_a demoStr) (coin_never_b demoStr) s 5
    hok 5 n docs h d hd).1

/-- The letter `y` is never the first value, whatever the seed. -/
example (s : Int) (d : Dict Val)
    (hok : (World.seedFields 5 (some s) coinFields (coinWorld demoRng (1 / 2) (1 / 2))).1 = .ok ())
    (h : (World.document demoStr 5 coinFields
      (World.seedFields 5 (some s) coinFields (coinWorld demoRng (1 / 2) (1 / 2))).2).1 = .ok d) :
    d.get? "a" ≠ some (.str ['y']) :=
  C88_values_violated demoStr coin_a rfl rfl coin_picks (by decide) (fun kf hk hne hb => by
    simp only [coinFields, List.mem_cons, List.not_mem_nil, or_false] at hk
    rcases hk with rfl | rfl
    · exact hne rfl
    · exact absurd (coin_below7 hb) (by decide)) s 5 hok 5 d h 1 _ rfl (by decide) (by norm_num)

instance : IsProbabilityMeasure replayMeasure := by
  unfold replayMeasure
  have : ∀ _ : ℕ, IsProbabilityMeasure (volume.restrict (Set.Ico (0 : ℝ) 1)) := fun _ => uniform01
  exact Measure.instIsProbabilityMeasureForallInfinitePi _

/-- With independent generators the hypotheses hold: `a` without `b` has probability 1/6. -/
example : (replayMeasure.prod replayMeasure) {xy | ∀ i : Fin 1, ∃ d,
      (World.documents demoStr 5 coinFields 1
        (((coinWorld replayRng (1 / 3) (1 / 2)).withGen 2 xy.1).withGen 6 xy.2))[(i : Nat)]? = some (.ok d) ∧
      (Filled d "a" ↔ true = true) ∧ (Filled d "b" ↔ false = true)} =
    ENNReal.ofReal (1 / 3) * ENNReal.ofReal (1 - 1 / 2) := by
  have := C88_gates_partial replayMeasure replayMeasure demoStr
    (coin_a (R := replayRng) (p := 1 / 3) (q := 1 / 2)) coin_b (by decide) (by norm_num) (by norm_num)
    (by norm_num) (by norm_num) (coin_never_a demoStr) (coin_never_b demoStr) 5 1 (replayRng_uniform 1)
    (replayRng_uniform 1) (fun x y => coin_documents demoStr 3 1
      (World.withGen_alike (World.withGen_alike (fun _ => rfl) (k := .list) rfl x) (k := .list) rfl y))
    (fun _ => true) (fun _ => false)
  simpa using this

/-- ... and the letter `y` the probability 1/4. -/
example : (replayMeasure.prod replayMeasure) {xy | ∃ d, (World.document demoStr 5 coinFields
        (((coinWorld replayRng (1 / 2) (1 / 2)).withGen 2 xy.1).withGen 0 xy.2)).1 = .ok d ∧
      d.get? "a" = some (.str ['y'])} = ENNReal.ofReal (1 / 2) * ENNReal.ofReal (1 / 2) := by
  have := C88_values_partial replayMeasure replayMeasure demoStr
    (coin_a (R := replayRng) (p := 1 / 2) (q := 1 / 2)) (by norm_num) (by norm_num) rfl rfl coin_picks
    (by decide) (by norm_num) (fun kf hk hne hb => by
      simp only [coinFields, List.mem_cons, List.not_mem_nil, or_false] at hk
      rcases hk with rfl | rfl
      · exact hne rfl
      · exact absurd (coin_below7 hb) (by decide)) 5 (replayRng_uniform 1) (replayRng_uniform 1)
    (fun x y => by
      obtain ⟨d, w', h⟩ := coin_document demoStr (World.withGen_alike (World.withGen_alike
        (w := coinWorld replayRng (1 / 2) (1 / 2)) (fun _ => rfl) (k := .list) (r := 2) rfl x)
        (k := .list) (r := 0) rfl y) 3
      exact ⟨d, by rw [h]⟩) ⟨1, by decide⟩ (by decide)
  have h2 : (1 : ℝ) / (1 + 1) = 1 / 2 := by norm_num
  simpa [h2] using this

end Fauxdoc
