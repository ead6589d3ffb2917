import Verif.Model.FromFields
import Verif.Props.Wrappers
/-
C42-C45: the emitters that use field data.
-/
namespace Fauxdoc
variable {σ G : Type}

/-! ### Specification -/

/-- What a field value contributes: nothing for `None`, its members for a list or tuple, itself
otherwise. -/
def contribution : Val → List Val
  | .none => []
  | .list l => l
  | .tuple l => l
  | v => [v]

/-- `r` is `parts` with `sep` between consecutive members. -/
inductive Joined (sep : List Char) : List (List Char) → List Char → Prop
  | nil : Joined sep [] []
  | one (a : List Char) : Joined sep [a] a
  | cons {a b : List Char} {l : List (List Char)} {r : List Char} :
      Joined sep (b :: l) r → Joined sep (a :: b :: l) (a ++ sep ++ r)

theorem joinWith_joined (sep : List Char) (l : List (List Char)) : Joined sep l (joinWith sep l) := by
  induction l with
  | nil => exact .nil
  | cons a l ih =>
    cases l with
    | nil => exact .one a
    | cons b l => exact .cons ih

theorem Joined.unique {sep : List Char} {l : List (List Char)} {r r' : List Char}
    (h : Joined sep l r) (h' : Joined sep l r') : r' = r := by
  induction h generalizing r' with
  | nil => cases h'; rfl
  | one a => cases h'; rfl
  | cons _ ih => cases h' with
    | cons h'' => rw [ih h'']

/-- The group is one field, given as such, that reports not to be multi-valued. -/
def IsSingle (g : SourceGroup σ) (s : σ) (f : SourceField σ) : Prop :=
  g.fields = [f] ∧ g.initSingle = true ∧ f.multiValued s = false

/-- All values of the group, in field order, lists flattened one level. -/
def groupValues (g : SourceGroup σ) (s : σ) : List Val :=
  (g.fields.map fun f => contribution (f.previous s)).flatten

theorem singleValued_iff (g : SourceGroup σ) (s : σ) :
    g.singleValued s = true ↔ ∃ f, IsSingle g s f := by
  unfold SourceGroup.singleValued IsSingle
  rcases g with ⟨_ | ⟨f, _ | ⟨f', fs⟩⟩, i⟩
  · simp
  · simp
  · simp

theorem collect_eq (s : σ) (fs : List (SourceField σ)) (vals : List Val) :
    CopyFields.collect s vals fs =
      vals ++ (fs.map fun f => contribution (f.previous s)).flatten := by
  induction fs generalizing vals with
  | nil => simp [CopyFields.collect]
  | cons f fs ih =>
    unfold CopyFields.collect
    cases h : f.previous s <;> simp [ih, contribution, h]

/-! ### C42 -/

/-- One single-valued source: `CopyFields()()` is its last value, whatever the separator. -/
theorem C42_single (str : Val → List Char) (g : SourceGroup σ) (sep : Option (List Char)) (s : σ)
    (f : SourceField σ) (h : IsSingle g s f) :
    CopyFields.call str g sep none s = (.ok (f.previous s), s) := by
  change CopyFields.emit str g sep s = _
  unfold CopyFields.emit
  rw [PyM.run_get_bind, if_pos ((singleValued_iff g s).2 ⟨f, h⟩), h.1]
  rfl

/-- Otherwise, without separator: the list of all non-`None` values in field order, or `None` if there
are none. -/
theorem C42_many (str : Val → List Char) (g : SourceGroup σ) (s : σ) (h : ∀ f, ¬ IsSingle g s f) :
    CopyFields.call str g none none s =
      (.ok (if groupValues g s = [] then .none else .list (groupValues g s)), s) := by
  change CopyFields.emit str g none s = _
  have hs : ¬ g.singleValued s = true := fun hs => by
    obtain ⟨f, hf⟩ := (singleValued_iff g s).1 hs
    exact h f hf
  unfold CopyFields.emit
  rw [PyM.run_get_bind, if_neg hs]
  have e := collect_eq s g.fields []
  rw [List.nil_append] at e
  change (if (CopyFields.collect s [] g.fields).isEmpty = true then _ else _ : PyM σ Val) s = _
  rw [e]
  change (if (groupValues g s).isEmpty = true then _ else _ : PyM σ Val) s = _
  by_cases hg : groupValues g s = []
  · rw [if_pos (by rw [hg]; rfl), if_pos hg]; rfl
  · rw [if_neg (by simpa using hg), if_neg hg]; rfl

/-- Otherwise, with a separator: the string forms of all those values with the separator between
them. -/
theorem C42_joined (str : Val → List Char) (g : SourceGroup σ) (sep : List Char) (s : σ)
    (h : ∀ f, ¬ IsSingle g s f) :
    ∃ r, Joined sep ((groupValues g s).map str) r ∧
      CopyFields.call str g (some sep) none s = (.ok (.str r), s) := by
  refine ⟨_, joinWith_joined sep _, ?_⟩
  change CopyFields.emit str g (some sep) s = _
  have hs : ¬ g.singleValued s = true := fun hs => by
    obtain ⟨f, hf⟩ := (singleValued_iff g s).1 hs
    exact h f hf
  unfold CopyFields.emit
  rw [PyM.run_get_bind, if_neg hs]
  have e := collect_eq s g.fields []
  rw [List.nil_append] at e
  change ((pure (Val.str (joinWith sep ((CopyFields.collect s [] g.fields).map str))) : PyM σ Val)) s = _
  rw [e]
  rfl

/-- A batch of `n` repeats the one value `n` times; a call of a `CopyFields` emitter never changes
anything and never fails. -/
theorem C42_batch (str : Val → List Char) (g : SourceGroup σ) (sep : Option (List Char)) (s : σ) :
    ∃ v, CopyFields.call str g sep none s = (.ok v, s) ∧
      ∀ n : Int, CopyFields.call str g sep (some (.int n)) s =
        (.ok (.list (List.replicate n.toNat v)), s) := by
  have : ∃ v, CopyFields.call str g sep none s = (.ok v, s) := by
    by_cases h : ∃ f, IsSingle g s f
    · obtain ⟨f, h⟩ := h
      exact ⟨_, C42_single str g sep s f h⟩
    · have h : ∀ f, ¬ IsSingle g s f := fun f hf => h ⟨f, hf⟩
      cases sep with
      | none => exact ⟨_, C42_many str g s h⟩
      | some sp =>
        obtain ⟨r, _, h⟩ := C42_joined str g sp s h
        exact ⟨_, h⟩
  obtain ⟨v, hv⟩ := this
  refine ⟨v, hv, ?_⟩
  intro n
  have hv : CopyFields.emit str g sep s = (.ok v, s) := hv
  change (if n = 1 then (do return Val.list [← CopyFields.emit str g sep])
      else (do return Val.list (← CopyFields.emitMany str g sep n)) : PyM σ Val) s = _
  by_cases hn : n = 1
  · subst hn
    rw [if_pos rfl, PyM.bind_ok hv]; rfl
  · have h2 : CopyFields.emitMany str g sep n s = (.ok (List.replicate n.toNat v), s) := by
      unfold CopyFields.emitMany
      rw [PyM.bind_ok hv]; rfl
    rw [if_neg hn, PyM.bind_ok h2]; rfl

/-- A list of source fields is never unwrapped, not even a list of one single-valued field: its values
come in a list. -/
theorem C42_list (str : Val → List Char) (fs : List (SourceField σ)) (s : σ) :
    CopyFields.call str (SourceGroup.ofList fs) none none s =
      (.ok (if fs.flatMap (fun f => contribution (f.previous s)) = [] then .none
        else .list (fs.flatMap fun f => contribution (f.previous s))), s) :=
  C42_many str _ s fun _ hf => by cases hf.2.1

/-! ### C43 -/

/-- The source's last value has the shape its `multi_valued` attribute promises, and is not an empty
list. -/
def ProperValue (f : SourceField σ) (s : σ) : Prop :=
  f.multiValued s = true → f.previous s = .none ∨ ∃ v l, f.previous s = .list (v :: l)

/-- `CopyFields(f)` emits exactly the last value of `f`, provided it is not an empty list. -/
theorem C43_duplicate_partial (str : Val → List Char) (f : SourceField σ) (s : σ)
    (h : ProperValue f s) :
    CopyFields.call str (SourceGroup.ofField f) none none s = (.ok (f.previous s), s) := by
  by_cases hm : f.multiValued s = true
  · rw [C42_many str _ s (fun f' hf => by
      have := hf.1
      cases this
      rw [hf.2.2] at hm; cases hm)]
    have e : groupValues (SourceGroup.ofField f) s = contribution (f.previous s) := by
      simp [groupValues, SourceGroup.ofField]
    rw [e]
    rcases h hm with h | ⟨v, l, h⟩
    · rw [h]; rfl
    · rw [h]; rfl
  · exact C42_single str _ _ s f ⟨rfl, rfl, by simpa using hm⟩

/-- A multi-valued field whose last value is the given one. -/
def fixedField (v : Val) (multi : Bool) : SourceField σ where
  name := "f"
  previous _ := v
  multiValued _ := multi
  call := pure v
  reset := pure ()
  seed _ := pure ()

/-- A multi-valued field may well have the empty list as its value (its `repeat` emitted 0); the copy
is then `None`, not an exact duplicate. -/
theorem C43_violated (str : Val → List Char) (s : σ) :
    (fixedField (σ := σ) (.list []) true).previous s = .list [] ∧
    CopyFields.call str (SourceGroup.ofField (fixedField (.list []) true)) none none s
      = (.ok .none, s) := ⟨rfl, rfl⟩

/-! ### C44 -/

theorem Callback.call_eq_iff_applies (L : Attr σ G) (cb : Callback G) (a : List Val × Dict Val)
    (hs : "self" ∉ a.2.keys) (s t : σ) (w : Val) :
    cb.call L a.1 a.2 s = (.ok w, t) ↔ Applies L cb [a] s [w] t := by
  rw [← runs_call_iff (by simpa using hs)]
  constructor
  · intro h; exact .cons h (.nil _)
  · intro h
    cases h with
    | cons h1 h2 => cases h2; exact h1

/-- One source: the action gets the field's last value as its argument, and nothing but (if it asks
for it) the emitter's own generator changes. -/
theorem C44_one (L : Attr σ G) (f : SourceField σ) (single : Bool) (act : Callback G) (s t : σ)
    (w : Val) :
    BasedOnFields.call L ⟨[f], single⟩ act none s = (.ok w, t) ↔
      Applies L act [([f.previous s], [])] s [w] t := by
  change BasedOnFields.emit L ⟨[f], single⟩ act s = _ ↔ _
  rw [← Callback.call_eq_iff_applies L act _ (by simp [Dict.keys])]
  rfl

/-- Several (or no) sources with distinct names: the action gets one keyword argument per field, its
last value, in field order. -/
theorem C44_many (L : Attr σ G) (g : SourceGroup σ) (hlen : g.fields.length ≠ 1)
    (hnames : (g.fields.map (·.name)).Nodup) (hself : "self" ∉ g.fields.map (·.name))
    (act : Callback G) (s t : σ) (w : Val) :
    BasedOnFields.call L g act none s = (.ok w, t) ↔
      Applies L act [([], g.fields.map fun f => (f.name, f.previous s))] s [w] t := by
  have hk : Dict.keys (g.fields.map fun f => (f.name, f.previous s)) = g.fields.map (·.name) := by
    unfold Dict.keys; rw [List.map_map]; rfl
  rw [← Callback.call_eq_iff_applies L act _ (by rw [hk]; exact hself)]
  have e : BasedOnFields.call L g act none s = act.call L []
      (Dict.ofItems (g.fields.map fun f => (f.name, f.previous s))) s := by
    change BasedOnFields.emit L g act s = _
    unfold BasedOnFields.emit
    rw [PyM.run_get_bind]
    rcases g with ⟨_ | ⟨f, _ | ⟨f', fs⟩⟩, i⟩
    · rfl
    · exact absurd rfl hlen
    · rfl
  rw [e, Dict.ofItems_of_nodup _ (by rw [hk]; exact hnames)]

/-- A batch evaluates the action once and repeats its value. -/
theorem C44_batch (L : Attr σ G) (g : SourceGroup σ) (act : Callback G) (n : Int) (s t : σ)
    (w : Val) :
    BasedOnFields.call L g act (some (.int n)) s = (.ok w, t) ↔
      ∃ v, BasedOnFields.call L g act none s = (.ok v, t) ∧
        w = .list (List.replicate n.toNat v) := by
  change (if n = 1 then (do return Val.list [← BasedOnFields.emit L g act])
      else (do return Val.list (← BasedOnFields.emitMany L g act n)) : PyM σ Val) s = _ ↔
    ∃ v, BasedOnFields.emit L g act s = _ ∧ _
  constructor
  · intro h
    by_cases hn : n = 1
    · subst hn
      rw [if_pos rfl] at h
      obtain ⟨v, t', h1, h2⟩ := PyM.bind_eq_ok h
      cases h2
      exact ⟨v, h1, rfl⟩
    · rw [if_neg hn] at h
      obtain ⟨l, t', h1, h2⟩ := PyM.bind_eq_ok h
      obtain ⟨v, t'', h3, h4⟩ := PyM.bind_eq_ok h1
      cases h4
      cases h2
      exact ⟨v, h3, rfl⟩
  · rintro ⟨v, h1, rfl⟩
    by_cases hn : n = 1
    · subst hn
      rw [if_pos rfl, PyM.bind_ok h1]; rfl
    · have h2 : BasedOnFields.emitMany L g act n s = (.ok (List.replicate n.toNat v), t) := by
        unfold BasedOnFields.emitMany
        rw [PyM.bind_ok h1]; rfl
      rw [if_neg hn, PyM.bind_ok h2]; rfl

/-- Whatever the outcome (also an exception), emitting changes nothing but the emitter's own
generator: the source fields are only read. -/
theorem C44_frame (L : Attr σ G) (g : SourceGroup σ) (act : Callback G) (arg : Option Val) (s : σ) :
    ∃ gen, (BasedOnFields.call L g act arg s).2 = L.set gen s := by
  have hcall : ∀ a kw s, ∃ gen, (act.call L a kw s).2 = L.set gen s := by
    intro a kw s
    unfold Callback.call
    by_cases h1 : "self" ∈ kw.keys
    · rw [if_pos h1]; exact ⟨L.get s, (L.set_get s).symm⟩
    rw [if_neg h1]
    by_cases h2 : act.wantsRng = true
    · rw [if_pos h2]; exact ⟨_, rfl⟩
    · rw [if_neg h2]; exact ⟨L.get s, (L.set_get s).symm⟩
  have hemit : ∀ s, ∃ gen, (BasedOnFields.emit L g act s).2 = L.set gen s := by
    intro s
    unfold BasedOnFields.emit
    rw [PyM.run_get_bind]
    rcases g with ⟨_ | ⟨f, _ | ⟨f', fs⟩⟩, i⟩ <;> exact hcall _ _ _
  have hbind : ∀ {α : Type} (m : PyM σ Val) (k : Val → α) s, (∃ gen, (m s).2 = L.set gen s) →
      ∃ gen, ((do return k (← m) : PyM σ α) s).2 = L.set gen s := by
    intro α m k s h
    rw [PyM.bind_apply]
    rcases hm : m s with ⟨_ | _, _⟩ <;> rw [hm] at h <;> exact h
  cases arg with
  | none => exact hemit s
  | some v =>
    by_cases hv : v = .none
    · subst hv; exact hemit s
    · have e : BasedOnFields.call L g act (some v) = match v.asInt with
          | none => CopyFields.emitBad (BasedOnFields.emit L g act) v
          | some n => if n = 1 then (do return Val.list [← BasedOnFields.emit L g act])
            else (do return Val.list (← BasedOnFields.emitMany L g act n)) := by
        cases v <;> first | rfl | exact absurd rfl hv
      rw [e]
      cases v.asInt with
      | none =>
        have h := hemit s
        unfold CopyFields.emitBad
        dsimp only
        rw [PyM.bind_apply]
        rcases hm : BasedOnFields.emit L g act s with ⟨_ | _, _⟩ <;> rw [hm] at h <;> exact h
      | some n =>
        by_cases hn : n = 1
        · simp only [hn, if_true]
          exact hbind _ (fun v => Val.list [v]) s (hemit s)
        · simp only [hn, if_false]
          have := hbind _ (fun v => Val.list (List.replicate n.toNat v)) s (hemit s)
          have e2 : (do return Val.list (← BasedOnFields.emitMany L g act n) : PyM σ Val)
              = (do return Val.list (List.replicate n.toNat (← BasedOnFields.emit L g act))) := by
            unfold BasedOnFields.emitMany
            simp
          rw [e2]; exact this

/-! ### C45 -/

/-- Every source field is called exactly once, in order. -/
inductive FieldsCalled : List (SourceField σ) → σ → List Val → σ → Prop
  | nil (s : σ) : FieldsCalled [] s [] s
  | cons {f : SourceField σ} {fs : List (SourceField σ)} {s s1 s2 : σ} {v : Val} {vs : List Val} :
      f.call s = (.ok v, s1) → FieldsCalled fs s1 vs s2 → FieldsCalled (f :: fs) s (v :: vs) s2

/-- What construction does to the source fields: if it does not raise, each one has been called
exactly once (before the emitter's own reset, which does not undo it). -/
theorem C45_consumes_one_call_partial (g : SourceGroup σ) (act : Callback G)
    (store reset : PyM σ Unit) (s t : σ)
    (h : BasedOnFields.setAction g act store reset s = (.ok ⟨⟩, t)) :
    ∃ s1 s2 vs, store s = (.ok ⟨⟩, s1) ∧ FieldsCalled g.fields s1 vs s2 ∧
      reset s2 = (.ok ⟨⟩, t) := by
  obtain ⟨_, s1, h1, h2⟩ := PyM.bind_eq_ok h
  obtain ⟨a, s2, h3, h4⟩ := PyM.bind_eq_ok h2
  have h5 : reset s2 = (.ok ⟨⟩, t) := by
    unfold PyM.finally_ at h4
    rw [PyM.lift_apply] at h4
    rcases hr : reset s2 with ⟨r, s3⟩
    simp only [hr] at h4
    cases r with
    | error e => cases h4
    | ok u => rw [Prod.mk.injEq] at h4; rw [h4.2]
  refine ⟨s1, s2, ?_⟩
  have key : ∀ (fs : List (SourceField σ)) s r t,
      mapPyM (fun (f : SourceField σ) => do return (f.name, ← f.call)) fs s = (.ok r, t) →
      ∃ vs, FieldsCalled fs s vs t := by
    intro fs
    induction fs with
    | nil => intro s r t h; cases h; exact ⟨[], .nil _⟩
    | cons f fs ih =>
      intro s r t h
      obtain ⟨b, bs, s1, h1, h2, rfl⟩ := mapPyM_cons_ok.1 h
      obtain ⟨v, s', h3, h4⟩ := PyM.bind_eq_ok h1
      cases h4
      obtain ⟨vs, hvs⟩ := ih _ _ _ h2
      exact ⟨v :: vs, .cons h3 hvs⟩
  rcases g with ⟨_ | ⟨f, _ | ⟨f', fs⟩⟩, i⟩
  · obtain ⟨r, s', e1, e2⟩ := PyM.bind_eq_ok h3
    cases e2
    obtain ⟨vs, hvs⟩ := key _ _ _ _ e1
    exact ⟨vs, h1, hvs, h5⟩
  · obtain ⟨v, s', e1, e2⟩ := PyM.bind_eq_ok h3
    cases e2
    exact ⟨[v], h1, .cons e1 (.nil _), h5⟩
  · obtain ⟨r, s', e1, e2⟩ := PyM.bind_eq_ok h3
    cases e2
    obtain ⟨vs, hvs⟩ := key _ _ _ _ e1
    exact ⟨vs, h1, hvs, h5⟩

/-- A field counting up. -/
def countingField : SourceField Nat where
  name := "n"
  previous s := .int ((s : Int) - 1)
  multiValued _ := false
  call s := (.ok (.int s), s + 1)
  reset := PyM.set 0
  seed _ := pure ()

/-- Building a `BasedOnFields` on a field consumes its first value: before, the next value is 0;
after, it is 1 (the emitter's own state plays no role here). -/
theorem C45_violated :
    (countingField.call 0).1 = .ok (.int 0) ∧
    (BasedOnFields.setAction (SourceGroup.ofField countingField) pairUp (pure ()) (pure ()) 0).1
      = .ok ⟨⟩ ∧
    (countingField.call
      (BasedOnFields.setAction (SourceGroup.ofField countingField) pairUp (pure ()) (pure ()) 0).2).1
      = .ok (.int 1) := ⟨rfl, rfl, rfl⟩

/-! ### Concrete cases -/

example (str : Val → List Char) : CopyFields.call (σ := Unit) str
    (SourceGroup.ofList [fixedField (.list [.int 1, .int 2]) true, fixedField .none false,
      fixedField (.str ['a']) false]) none none () =
    (.ok (.list [.int 1, .int 2, .str ['a']]), ()) := rfl
example : CopyFields.call (σ := Unit) (fun _ => ['x'])
    (SourceGroup.ofList [fixedField (.list [.int 1, .int 2]) true, fixedField (.int 3) false])
    (some ['-', '-']) none () = (.ok (.str ['x', '-', '-', 'x', '-', '-', 'x']), ()) := rfl
example : IsSingle (SourceGroup.ofField (fixedField (σ := Unit) (.int 1) false)) ()
    (fixedField (.int 1) false) := ⟨rfl, rfl, rfl⟩
example : BasedOnFields.call (Attr.id Nat) (SourceGroup.ofField (fixedField (.int 3) false))
    tagWithRng (some (.int 2)) 7 =
    (.ok (.list [.tuple [.int 3, .int 7], .tuple [.int 3, .int 7]]), 8) := rfl
example : ProperValue (fixedField (σ := Unit) (.list [.int 1]) true) () := fun _ => .inr ⟨_, _, rfl⟩

end Fauxdoc
