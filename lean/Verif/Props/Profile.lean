import Verif.Model.Profile
import Verif.Spec.Profile
import Verif.Props.FromFields
/-
C46-C51: fields and schemas, over arbitrary child emitters.
-/
namespace Fauxdoc
variable {σ ι : Type}

/-! ### C46 -/

/-- Exactly when and how a field returns: the gate is drawn first; if it is falsy the value is `None`
and neither the repeat emitter nor the data emitter is called (the state is the one the gate left,
with `previous` set); otherwise the repeat emitter is called once, then the data emitter once with
the number it gave. -/
theorem C46_field_call (cache : Attr σ Val) (emitter rep gate : Child σ) (s t : σ) (v : Val) :
    Field.call cache emitter rep gate s = (.ok v, t) ↔
      ∃ g s1, gate none s = (.ok g, s1) ∧
        (g.truthy = false ∧ v = .none ∧ t = cache.set .none s1 ∨
         g.truthy = true ∧ ∃ r s2 s3, rep none s1 = (.ok r, s2) ∧
          emitter (some r) s2 = (.ok v, s3) ∧ t = cache.set v s3) := by
  unfold Field.call
  constructor
  · intro h
    obtain ⟨g, s1, h1, h2⟩ := PyM.bind_eq_ok h
    refine ⟨g, s1, h1, ?_⟩
    by_cases hg : g.truthy = true
    · rw [if_pos hg] at h2
      obtain ⟨r, s2, h3, h4⟩ := PyM.bind_eq_ok h2
      obtain ⟨w, s3, h5, h6⟩ := PyM.bind_eq_ok h4
      rw [PyM.run_modify_bind] at h6
      cases h6
      exact .inr ⟨hg, r, s2, s3, h3, h5, rfl⟩
    · rw [if_neg hg, PyM.run_modify_bind] at h2
      cases h2
      exact .inl ⟨by simpa using hg, rfl, rfl⟩
  · rintro ⟨g, s1, h1, ⟨hg, rfl, rfl⟩ | ⟨hg, r, s2, s3, h3, h5, rfl⟩⟩
    · rw [PyM.bind_ok h1, if_neg (by simp [hg])]; rfl
    · rw [PyM.bind_ok h1, if_pos hg, PyM.bind_ok h3, PyM.bind_ok h5]; rfl

/-- A repeat of `None` is a call of the data emitter without number. -/
theorem C46_repeat_none (bad : Val → PyM σ Val) (emit : PyM σ Val)
    (emitMany : Int → PyM σ (List Val)) :
    emitterCallOr bad emit emitMany (some .none) = emitterCallOr bad emit emitMany none := rfl

/-- A repeat of `k >= 0` gives a list of `k` values of the data emitter. -/
theorem C46_repeat_int (I : σ → Prop) (P : Val → Prop) (cache : Attr σ Val)
    (emitter rep gate : Child σ) (he : EmitterOf I emitter P)
    (hgate : ∀ s v t, I s → gate none s = (.ok v, t) → I t)
    (hrep : ∀ s v t, I s → rep none s = (.ok v, t) → I t ∧ ∃ k : Nat, v = .int k)
    (s t : σ) (v : Val) (hI : I s) (h : Field.call cache emitter rep gate s = (.ok v, t)) :
    v = .none ∨ ∃ (k : Nat) (l : List Val), v = .list l ∧ l.length = k ∧ ∀ x ∈ l, P x := by
  obtain ⟨g, s1, h1, ⟨_, rfl, _⟩ | ⟨_, r, s2, s3, h2, h3, _⟩⟩ :=
    (C46_field_call cache emitter rep gate s t v).1 h
  · exact .inl rfl
  · obtain ⟨i2, k, rfl⟩ := hrep _ _ _ (hgate _ _ _ hI h1) h2
    obtain ⟨⟨l, rfl, h4, h5⟩, _⟩ := he.many k _ _ _ i2 h3
    exact .inr ⟨k, l, rfl, h4, h5⟩

/-! ### C47 -/

/-- A computation that leaves `previous` alone. -/
def KeepsAttr {α β : Type} (a : Attr σ α) (m : PyM σ β) : Prop := ∀ s, a.get (m s).2 = a.get s

/-- Operations around a field: calling it, resetting it, and anything else. -/
inductive FieldOp (σ : Type) where
  | call
  | reset
  | other (m : PyM σ Unit)

/-- Perform one operation and report what an observer sees. -/
def FieldOp.exec (cache : Attr σ Val) (emitter rep gate : Child σ) (super : PyM σ Unit) :
    FieldOp σ → σ → FieldEvent × σ
  | .call, s =>
    match Field.call cache emitter rep gate s with
    | (.ok v, t) => (.returned v, t)
    | (.error _, t) => (.raised, t)
  | .reset, s =>
    match Field.reset cache super s with
    | (.ok _, t) => (.wasReset, t)
    | (.error _, t) => (.raised, t)
  | .other m, s => (.other, (m s).2)

/-- Perform a sequence of operations. -/
def FieldOp.execAll (cache : Attr σ Val) (emitter rep gate : Child σ) (super : PyM σ Unit) :
    List (FieldOp σ) → σ → List FieldEvent × σ
  | [], s => ([], s)
  | o :: os, s =>
    let (e, s1) := o.exec cache emitter rep gate super s
    let (es, t) := execAll cache emitter rep gate super os s1
    (e :: es, t)

theorem field_call_error (cache : Attr σ Val) (emitter rep gate : Child σ)
    (he : ∀ a, KeepsAttr cache (emitter a)) (hr : ∀ a, KeepsAttr cache (rep a))
    (hg : ∀ a, KeepsAttr cache (gate a)) (s t : σ) (e : Err)
    (h : Field.call cache emitter rep gate s = (.error e, t)) : cache.get t = cache.get s := by
  unfold Field.call at h
  have h1 := hg none s
  rcases hgs : gate none s with ⟨_ | g, s1⟩
  · rw [PyM.bind_err hgs] at h
    rw [hgs] at h1
    cases h; exact h1
  · rw [PyM.bind_ok hgs] at h
    rw [hgs] at h1
    by_cases ht : g.truthy = true
    · rw [if_pos ht] at h
      have h2 := hr none s1
      rcases hrs : rep none s1 with ⟨_ | r, s2⟩
      · rw [PyM.bind_err hrs] at h
        rw [hrs] at h2
        cases h; exact h2.trans h1
      · rw [PyM.bind_ok hrs] at h
        rw [hrs] at h2
        have h3 := he (some r) s2
        rcases hes : emitter (some r) s2 with ⟨_ | v, s3⟩
        · rw [PyM.bind_err hes] at h
          rw [hes] at h3
          cases h; exact h3.trans (h2.trans h1)
        · rw [PyM.bind_ok hes, PyM.run_modify_bind] at h
          cases h
    · rw [if_neg ht, PyM.run_modify_bind] at h
      cases h

/-- After any sequence of operations — calls, resets, anything that leaves the attribute alone, with
or without exceptions — `previous` is the value returned by the last successful call, or `None` if
the field was reset since (or the value it had at the start, which is `None` for a new field). -/
theorem C47_previous (cache : Attr σ Val) (emitter rep gate : Child σ) (super : PyM σ Unit)
    (he : ∀ a, KeepsAttr cache (emitter a)) (hr : ∀ a, KeepsAttr cache (rep a))
    (hg : ∀ a, KeepsAttr cache (gate a)) (hs : KeepsAttr cache super)
    (ops : List (FieldOp σ)) (ho : ∀ m, .other m ∈ ops → KeepsAttr cache m) (s : σ) :
    cache.get (FieldOp.execAll cache emitter rep gate super ops s).2 =
      previousAfter (cache.get s) (FieldOp.execAll cache emitter rep gate super ops s).1 := by
  induction ops generalizing s with
  | nil => rfl
  | cons o os ih =>
    have ih := ih (fun m hm => ho m (by simp [hm]))
    cases o with
    | call =>
      rcases hc : Field.call cache emitter rep gate s with ⟨e | v, t⟩
      · have e1 : FieldOp.execAll cache emitter rep gate super (.call :: os) s =
            (.raised :: (FieldOp.execAll cache emitter rep gate super os t).1,
              (FieldOp.execAll cache emitter rep gate super os t).2) := by
          rw [FieldOp.execAll, FieldOp.exec, hc]
        rw [e1]
        change _ = previousAfter (cache.get s) _
        rw [ih t, field_call_error cache emitter rep gate he hr hg s t e hc]
        rfl
      · have e1 : FieldOp.execAll cache emitter rep gate super (.call :: os) s =
            (.returned v :: (FieldOp.execAll cache emitter rep gate super os t).1,
              (FieldOp.execAll cache emitter rep gate super os t).2) := by
          rw [FieldOp.execAll, FieldOp.exec, hc]
        rw [e1]
        change _ = previousAfter v _
        rw [ih t]
        congr 1
        obtain ⟨g, s1, _, ⟨_, rfl, rfl⟩ | ⟨_, r, s2, s3, _, _, rfl⟩⟩ :=
          (C46_field_call cache emitter rep gate s t v).1 hc
        · exact cache.get_set _ _
        · exact cache.get_set _ _
    | reset =>
      have h1 := hs s
      rcases hc : super s with ⟨e | u, t⟩
      · rw [hc] at h1
        have e1 : FieldOp.execAll cache emitter rep gate super (.reset :: os) s =
            (.raised :: (FieldOp.execAll cache emitter rep gate super os t).1,
              (FieldOp.execAll cache emitter rep gate super os t).2) := by
          rw [FieldOp.execAll, FieldOp.exec, Field.reset, PyM.bind_err hc]
        rw [e1]
        change _ = previousAfter (cache.get s) _
        rw [ih t, h1]
        rfl
      · have e1 : FieldOp.execAll cache emitter rep gate super (.reset :: os) s =
            (.wasReset ::
              (FieldOp.execAll cache emitter rep gate super os (cache.set .none t)).1,
              (FieldOp.execAll cache emitter rep gate super os (cache.set .none t)).2) := by
          rw [FieldOp.execAll, FieldOp.exec, Field.reset, PyM.bind_ok hc]; rfl
        rw [e1]
        change _ = previousAfter .none _
        rw [ih _, cache.get_set]
    | other m =>
      have h1 := ho m (by simp) s
      change cache.get (FieldOp.execAll cache emitter rep gate super os (m s).2).2 =
        previousAfter (cache.get s) (FieldOp.execAll cache emitter rep gate super os (m s).2).1
      rw [ih, h1]

/-! ### C48 -/

/-- If `multi_valued` is false, a repeat emitter that emits members of its `items` only ever emits
`None`, so the field gives `None` or one value of the data emitter, called as `emitter(None)`. -/
theorem C48_single (cache : Attr σ Val) (emitter rep gate : Child σ)
    (items : Option (ItemsKind × List Val)) (hm : Field.multiValued items = false)
    (hrep : ∀ s r t, rep none s = (.ok r, t) → ∀ k l, items = some (k, l) → r ∈ l)
    (s t : σ) (v : Val) (h : Field.call cache emitter rep gate s = (.ok v, t)) :
    v = .none ∨ ∃ s2 s3, emitter (some .none) s2 = (.ok v, s3) := by
  obtain ⟨g, s1, h1, ⟨_, rfl, _⟩ | ⟨_, r, s2, s3, h2, h3, _⟩⟩ :=
    (C46_field_call cache emitter rep gate s t v).1 h
  · exact .inl rfl
  · rcases items with _ | ⟨_ | _, l⟩
    · cases hm
    · have hl : l = [.none] := by simpa [Field.multiValued] using hm
      have := hrep _ _ _ h2 _ _ rfl
      rw [hl, List.mem_singleton] at this
      subst this
      exact .inr ⟨s2, s3, h3⟩
    · cases hm

/-- If the repeat emitter emits non-negative integers, the field is reported as multi-valued (unless
its `items` are a list holding just `None`, which it then cannot emit from) and gives `None` or a
list. -/
theorem C48_multi (I : σ → Prop) (P : Val → Prop) (cache : Attr σ Val)
    (emitter rep gate : Child σ) (items : Option (ItemsKind × List Val))
    (he : EmitterOf I emitter P)
    (hgate : ∀ s v t, I s → gate none s = (.ok v, t) → I t)
    (hrep : ∀ s r t, I s → rep none s = (.ok r, t) →
      I t ∧ (∃ k : Nat, r = .int k) ∧ ∀ k l, items = some (k, l) → r ∈ l)
    (s t : σ) (v : Val) (hI : I s) (h : Field.call cache emitter rep gate s = (.ok v, t)) :
    v = .none ∨ (Field.multiValued items = true ∧ ∃ l, v = .list l) := by
  obtain ⟨g, s1, h1, ⟨_, rfl, _⟩ | ⟨_, r, s2, s3, h2, h3, _⟩⟩ :=
    (C46_field_call cache emitter rep gate s t v).1 h
  · exact .inl rfl
  · obtain ⟨i2, ⟨k, rfl⟩, hitems⟩ := hrep _ _ _ (hgate _ _ _ hI h1) h2
    obtain ⟨⟨l, rfl, _, _⟩, _⟩ := he.many k _ _ _ i2 h3
    refine .inr ⟨?_, l, rfl⟩
    rcases items with _ | ⟨_ | _, l'⟩
    · rfl
    · have := hitems _ _ rfl
      by_contra hm
      have hl : l' = [.none] := by simpa [Field.multiValued] using hm
      rw [hl, List.mem_singleton] at this
      cases this
    · rfl

/-- A repeat emitter over the tuple `(None,)` only emits `None`, so the field gives single values,
but `multi_valued` is true. -/
theorem C48_violated :
    Field.multiValued (some (.other, [.none])) = true ∧
    (Field.call (Attr.id Val) (sameSource (.int 7)) (sameSource .none) (sameSource (.bool true))
      .none).1 = .ok (.int 7) := ⟨rfl, rfl⟩

/-! ### C49 -/

/-- Every field is called exactly once, in order. -/
inductive FieldsRun (call : ι → PyM σ Val) : Dict ι → σ → List Val → σ → Prop
  | nil (s : σ) : FieldsRun call [] s [] s
  | cons {k : String} {f : ι} {fs : Dict ι} {s s1 s2 : σ} {v : Val} {vs : List Val} :
      call f s = (.ok v, s1) → FieldsRun call fs s1 vs s2 →
      FieldsRun call ((k, f) :: fs) s (v :: vs) s2

theorem FieldsRun.length_eq {call : ι → PyM σ Val} {fs : Dict ι} {s t : σ} {vs : List Val}
    (h : FieldsRun call fs s vs t) : vs.length = fs.length := by
  induction h with
  | nil => rfl
  | cons _ _ ih => simp [ih]

theorem schema_loop (hide : ι → Bool) (call : ι → PyM σ Val) (fields : Dict ι) (doc : Dict Val)
    (hn : (doc.keys ++ fields.keys).Nodup) (s t : σ) (r : Dict Val) :
    Schema.loop hide call doc fields s = (.ok r, t) ↔
      ∃ vals, FieldsRun call fields s vals t ∧ r = doc ++ visible hide fields vals := by
  induction fields generalizing doc s with
  | nil =>
    constructor
    · intro h; cases h; exact ⟨[], .nil _, by simp [visible]⟩
    · rintro ⟨vals, h, rfl⟩; cases h; simp [visible, Schema.loop]
  | cons kf fs ih =>
    obtain ⟨k, f⟩ := kf
    have hkn : k ∉ doc.keys := by
      intro hm
      exact (List.nodup_append.1 hn).2.2 _ hm _ (by simp [Dict.keys]) rfl
    have hn1 : (doc.keys ++ (Dict.keys fs)).Nodup := by
      have : (doc.keys ++ ([k] ++ (Dict.keys fs))).Nodup := hn
      refine List.nodup_append.2 ⟨(List.nodup_append.1 hn).1,
        (List.nodup_cons.1 (List.nodup_append.1 hn).2.1).2, ?_⟩
      intro a ha b hb
      exact (List.nodup_append.1 hn).2.2 a ha b (by simp [Dict.keys] at hb ⊢; exact .inr hb)
    have hn2 : ∀ v : Val, (Dict.keys (doc.set k v) ++ (Dict.keys fs)).Nodup := by
      intro v
      rw [Dict.set_of_not_mem hkn]
      simpa [Dict.keys] using hn
    constructor
    · intro h
      obtain ⟨v, s1, h1, h2⟩ := PyM.bind_eq_ok h
      by_cases hh : hide f = true
      · rw [if_pos hh] at h2
        obtain ⟨vals, h3, rfl⟩ := (ih doc hn1 s1).1 h2
        exact ⟨v :: vals, .cons h1 h3, by simp [visible, hh]⟩
      · rw [if_neg hh] at h2
        obtain ⟨vals, h3, rfl⟩ := (ih _ (hn2 v) s1).1 h2
        refine ⟨v :: vals, .cons h1 h3, ?_⟩
        rw [Dict.set_of_not_mem hkn]
        simp [visible, hh]
    · rintro ⟨vals, h, rfl⟩
      cases h with
      | cons h1 h2 =>
        unfold Schema.loop
        rw [PyM.bind_ok h1]
        by_cases hh : hide f = true
        · rw [if_pos hh]
          refine (ih doc hn1 _).2 ⟨_, h2, ?_⟩
          simp [visible, hh]
        · rw [if_neg hh]
          refine (ih _ (hn2 _) _).2 ⟨_, h2, ?_⟩
          rw [Dict.set_of_not_mem hkn]
          simp [visible, hh]

/-- A schema call returns a document exactly when every field (hidden or not), called once in order,
returns; the document holds exactly the non-hidden fields, in order, with the values just produced. -/
theorem C49_document (hide : ι → Bool) (call : ι → PyM σ Val) (fields : Dict ι)
    (hn : fields.keys.Nodup) (s t : σ) (doc : Dict Val) :
    Schema.call hide call fields s = (.ok doc, t) ↔
      ∃ vals, FieldsRun call fields s vals t ∧ doc = visible hide fields vals := by
  have := schema_loop hide call fields [] (by simpa [Dict.keys] using hn) s t doc
  simp only [List.nil_append] at this
  exact this

theorem visible_keys (hide : ι → Bool) (fields : Dict ι) (vals : List Val)
    (h : vals.length = fields.length) :
    (visible hide fields vals).keys = ((fields.filter fun kf => !hide kf.2).map (·.1)) := by
  induction fields generalizing vals with
  | nil => simp [visible, Dict.keys]
  | cons kf fs ih =>
    cases vals with
    | nil => simp at h
    | cons v vs =>
      have ih := ih vs (by simpa using h)
      unfold visible Dict.keys at ih ⊢
      by_cases hh : hide kf.2 = true
      · simpa [hh] using ih
      · simpa [hh] using ih

/-- The keys of the document are exactly the names of the public fields, in order. -/
theorem C49_keys (hide : ι → Bool) (call : ι → PyM σ Val) (fields : Dict ι)
    (hn : fields.keys.Nodup) (s t : σ) (doc : Dict Val)
    (h : Schema.call hide call fields s = (.ok doc, t)) :
    doc.keys = (fields.filter fun kf => !hide kf.2).map (·.1) := by
  obtain ⟨vals, h1, rfl⟩ := (C49_document hide call fields hn s t doc).1 h
  exact visible_keys hide fields vals h1.length_eq

/-! ### C50 -/

/-- The operations that change the fields of a schema. -/
inductive SchemaOp (ι : Type) where
  | setFields (fs : List ι)
  | addFields (fs : List ι)

/-- Perform the operations. -/
def SchemaOp.run (name : ι → String) : Dict ι → List (SchemaOp ι) → Dict ι
  | d, [] => d
  | _, .setFields fs :: os => run name (Schema.setFields name fs) os
  | d, .addFields fs :: os => run name (Schema.addFields name d fs) os

/-- All fields added since (and by) the last `set_fields`. -/
def SchemaOp.added : List ι → List (SchemaOp ι) → List ι
  | acc, [] => acc
  | _, .setFields fs :: os => added fs os
  | acc, .addFields fs :: os => added (acc ++ fs) os

theorem firstOcc_cons (a : String) (l : List String) :
    firstOcc (a :: l) = a :: (firstOcc l).filter (fun b => b ≠ a) := rfl

theorem firstOcc_nodup (l : List String) : (firstOcc l).Nodup := by
  induction l with
  | nil => exact List.nodup_nil
  | cons a l ih =>
    exact List.nodup_cons.2 ⟨by simp, ih.filter _⟩

theorem mem_firstOcc {a : String} {l : List String} : a ∈ firstOcc l ↔ a ∈ l := by
  induction l with
  | nil => simp [firstOcc]
  | cons b l ih =>
    unfold firstOcc
    simp only [List.mem_cons, List.mem_filter, ih]
    by_cases h : a = b <;> simp [h]

theorem firstOcc_append_single (l : List String) (a : String) :
    firstOcc (l ++ [a]) = if a ∈ l then firstOcc l else firstOcc l ++ [a] := by
  induction l with
  | nil => simp [firstOcc]
  | cons b l ih =>
    rw [List.cons_append]
    unfold firstOcc
    rw [ih]
    by_cases h : a ∈ l
    · simp [h]
    · rw [if_neg h]
      by_cases hb : a = b
      · subst hb; simp
      · rw [if_neg (by simp [h, hb])]
        simp [List.filter_append, hb]

theorem firstOcc_append (a b : List String) :
    firstOcc (a ++ b) = firstOcc a ++ (firstOcc b).filter (fun x => x ∉ a) := by
  induction a with
  | nil => simp [firstOcc]
  | cons x a ih =>
    rw [List.cons_append, firstOcc_cons, firstOcc_cons, ih, List.filter_append, List.filter_filter]
    have : (List.filter (fun a_1 => decide (a_1 ≠ x) && decide (a_1 ∉ a)) (firstOcc b))
        = List.filter (fun x_1 => decide (x_1 ∉ x :: a)) (firstOcc b) := by
      apply List.filter_congr
      intro y _
      simp
    rw [this]; rfl

theorem keys_update (l : List (String × ι)) (d : Dict ι) :
    (d.update l).keys = d.keys ++ (firstOcc (l.map (·.1))).filter (fun x => x ∉ d.keys) := by
  induction l generalizing d with
  | nil => simp [Dict.update, firstOcc]
  | cons kv l ih =>
    change (Dict.update (d.set kv.1 kv.2) l).keys = _
    rw [ih, Dict.keys_set]
    rw [List.map_cons, firstOcc_cons]
    by_cases h : kv.1 ∈ d.keys
    · rw [if_pos h, List.filter_cons_of_neg (by simpa using h), List.filter_filter]
      congr 1
      apply List.filter_congr
      intro y _
      by_cases hy : y = kv.1
      · subst hy; simp [h]
      · simp [hy]
    · rw [if_neg h, List.filter_cons_of_pos (by simpa using h), List.filter_filter]
      rw [List.append_assoc, List.singleton_append]
      congr 2
      apply List.filter_congr
      intro y _
      simp

theorem get?_update (l : List (String × ι)) (d : Dict ι) (k : String) :
    (d.update l).get? k = (match l.reverse.find? (fun kv => kv.1 = k) with
      | some kv => some kv.2
      | none => d.get? k) := by
  induction l generalizing d with
  | nil => rfl
  | cons kv l ih =>
    change (Dict.update (d.set kv.1 kv.2) l).get? k = _
    rw [ih, List.reverse_cons, List.find?_append]
    cases h : l.reverse.find? (fun kv => kv.1 = k) with
    | some x => simp
    | none =>
      rw [Dict.get?_set]
      by_cases hk : kv.1 = k <;> simp [hk]

/-- Two dicts with the same keys in the same order and the same values are equal. -/
theorem dict_ext {d d' : Dict ι} (hk : d.keys = d'.keys) (hn : d.keys.Nodup)
    (h : ∀ k, d.get? k = d'.get? k) : d = d' := by
  induction d generalizing d' with
  | nil =>
    cases d' with
    | nil => rfl
    | cons a d' => cases hk
  | cons kv d ih =>
    cases d' with
    | nil => cases hk
    | cons kv' d' =>
      obtain ⟨a, b⟩ := kv
      obtain ⟨a', b'⟩ := kv'
      have hk' : a = a' ∧ Dict.keys d = Dict.keys d' := by simpa [Dict.keys] using hk
      obtain ⟨rfl, hk2⟩ := hk'
      have hn' : a ∉ Dict.keys d ∧ (Dict.keys d).Nodup := by simpa [Dict.keys] using hn
      have hb := h a
      simp only [Dict.get?, if_true, Option.some.injEq] at hb
      subst hb
      congr 1
      refine ih hk2 hn'.2 ?_
      intro k
      have := h k
      by_cases hka : a = k
      · subst hka
        have n1 : Dict.get? d a = none := by
          by_contra hc
          obtain ⟨v, hv⟩ := Option.ne_none_iff_exists'.1 hc
          exact hn'.1 ((Dict.mem_keys_iff d a).2 ⟨v, hv⟩)
        have n2 : Dict.get? d' a = none := by
          by_contra hc
          obtain ⟨v, hv⟩ := Option.ne_none_iff_exists'.1 hc
          exact hn'.1 (hk2 ▸ (Dict.mem_keys_iff d' a).2 ⟨v, hv⟩)
        rw [n1, n2]
      · simpa [Dict.get?, hka] using this

theorem setFields_spec (name : ι → String) (fs : List ι) :
    (Dict.keys (Dict.ofItems (fs.map fun f => (name f, f)))) = firstOcc (fs.map name) ∧
    ∀ k, Dict.get? (Dict.ofItems (fs.map fun f => (name f, f))) k = lastNamed name k fs := by
  constructor
  · unfold Dict.ofItems
    rw [keys_update]
    simp [Dict.keys, List.map_map, Function.comp_def]
  · intro k
    unfold Dict.ofItems
    rw [get?_update]
    unfold lastNamed
    rw [← List.map_reverse, List.find?_map]
    have : ((fun (kv : String × ι) => decide (kv.1 = k)) ∘ fun f => (name f, f))
        = fun f => decide (name f = k) := rfl
    rw [this]
    cases List.find? (fun f => decide (name f = k)) fs.reverse <;> rfl

theorem run_spec (name : ι → String) (ops : List (SchemaOp ι)) (d : Dict ι) (acc : List ι)
    (hk : d.keys = firstOcc (acc.map name)) (hg : ∀ k, d.get? k = lastNamed name k acc) :
    (SchemaOp.run name d ops).keys = firstOcc ((SchemaOp.added acc ops).map name) ∧
    ∀ k, (SchemaOp.run name d ops).get? k = lastNamed name k (SchemaOp.added acc ops) := by
  induction ops generalizing d acc with
  | nil => exact ⟨hk, hg⟩
  | cons o os ih =>
    have hadd : ∀ (d : Dict ι) (acc fs : List ι), d.keys = firstOcc (acc.map name) →
        (∀ k, d.get? k = lastNamed name k acc) →
        (Schema.addFields name d fs).keys = firstOcc ((acc ++ fs).map name) ∧
        ∀ k, (Schema.addFields name d fs).get? k = lastNamed name k (acc ++ fs) := by
      intro d acc fs hk hg
      obtain ⟨s1, s2⟩ := setFields_spec name fs
      unfold Schema.addFields
      constructor
      · rw [keys_update]
        change d.keys ++ List.filter _ (firstOcc (Dict.keys (Dict.ofItems _))) = _
        rw [s1, List.map_append, firstOcc_append, hk]
        congr 1
        have : ∀ l : List String, l.Nodup → firstOcc l = l := by
          intro l hl
          induction l with
          | nil => rfl
          | cons a l ih =>
            obtain ⟨h1, h2⟩ := List.nodup_cons.1 hl
            unfold firstOcc
            rw [ih h2]
            congr 1
            exact List.filter_eq_self.2 fun b hb => by
              simp only [ne_eq, decide_eq_true_eq]
              rintro rfl
              exact h1 hb
        rw [this _ (firstOcc_nodup _)]
        apply List.filter_congr
        intro y _
        simp only [mem_firstOcc]
      · intro k
        have hn : (Dict.keys (Dict.ofItems (fs.map fun f => (name f, f)))).Nodup :=
          Dict.nodup_ofItems _
        rw [get?_update]
        have e : (match List.find? (fun kv => decide (kv.1 = k))
              (Dict.ofItems (fs.map fun f => (name f, f))).reverse with
            | some kv => some kv.2
            | none => d.get? k) =
            match Dict.get? (Dict.ofItems (fs.map fun f => (name f, f))) k with
            | some v => some v
            | none => d.get? k := by
          generalize Dict.ofItems (fs.map fun f => (name f, f)) = e at hn
          cases h : List.find? (fun (kv : String × ι) => decide (kv.1 = k)) e.reverse with
          | some kv =>
            have h1 : kv.1 = k := by simpa using List.find?_some h
            have h2 : kv ∈ e := List.mem_reverse.1 (List.mem_of_find?_eq_some h)
            have h3 : Dict.get? e k = some kv.2 :=
              (Dict.get?_eq_some_iff hn k kv.2).2 (by rw [← h1]; exact h2)
            rw [h3]
          | none =>
            have h3 : Dict.get? e k = none := by
              by_contra hc
              obtain ⟨v, hv⟩ := Option.ne_none_iff_exists'.1 hc
              have := (Dict.get?_eq_some_iff hn k v).1 hv
              have h4 := List.find?_eq_none.1 h (k, v) (List.mem_reverse.2 this)
              simp at h4
            rw [h3]
        rw [e, s2, hg]
        unfold lastNamed
        rw [List.reverse_append, List.find?_append]
        cases List.find? (fun f => decide (name f = k)) fs.reverse <;> rfl
    cases o with
    | setFields fs =>
      change (SchemaOp.run name (Schema.setFields name fs) os).keys =
        firstOcc ((SchemaOp.added fs os).map name) ∧ _
      obtain ⟨h1, h2⟩ := hadd [] [] fs rfl (fun _ => rfl)
      exact ih _ _ h1 h2
    | addFields fs =>
      obtain ⟨h1, h2⟩ := hadd d acc fs hk hg
      exact ih _ _ h1 h2

/-- After any sequence of `set_fields`/`add_fields` on a new schema with fields `init`, the names are
those of the fields added since the last `set_fields`, in order of first addition, and each name maps
to the field added last under it. -/
theorem C50_ordered (name : ι → String) (init : List ι) (ops : List (SchemaOp ι)) :
    (SchemaOp.run name (Schema.setFields name init) ops).keys
      = firstOcc ((SchemaOp.added init ops).map name) ∧
    ∀ k, (SchemaOp.run name (Schema.setFields name init) ops).get? k
      = lastNamed name k (SchemaOp.added init ops) := by
  obtain ⟨h1, h2⟩ := run_spec name [.setFields init] [] [] rfl (fun _ => rfl)
  exact run_spec name ops (Schema.setFields name init) init h1 h2

/-- Names are distinct, and every field is stored under its own name. -/
theorem C50_names (name : ι → String) (init : List ι) (ops : List (SchemaOp ι)) :
    (SchemaOp.run name (Schema.setFields name init) ops).keys.Nodup ∧
    ∀ kf ∈ SchemaOp.run name (Schema.setFields name init) ops, name kf.2 = kf.1 := by
  obtain ⟨h1, h2⟩ := C50_ordered name init ops
  have hn : (SchemaOp.run name (Schema.setFields name init) ops).keys.Nodup := by
    rw [h1]; exact firstOcc_nodup _
  refine ⟨hn, ?_⟩
  intro kf hkf
  have h3 := h2 kf.1
  rw [(Dict.get?_eq_some_iff hn kf.1 kf.2).2 hkf] at h3
  simpa using List.find?_some h3.symm

/-- `public_fields` and `hidden_fields` are the fields that are not hidden and those that are, in the
order of `fields`; every field is in exactly one of them. -/
theorem C50_partition (hide : ι → Bool) (d : Dict ι) (hn : d.keys.Nodup) :
    Schema.publicFields hide d = d.filter (fun kf => !hide kf.2) ∧
    Schema.hiddenFields hide d = d.filter (fun kf => hide kf.2) ∧
    (∀ kf ∈ d, (kf ∈ Schema.publicFields hide d ↔ kf ∉ Schema.hiddenFields hide d)) := by
  have hsub : ∀ p : String × ι → Bool, (Dict.keys (d.filter p)).Nodup := fun p =>
    List.Nodup.sublist (List.filter_sublist.map _) hn
  have h1 : Schema.publicFields hide d = d.filter (fun kf => !hide kf.2) :=
    Dict.ofItems_of_nodup _ (hsub _)
  have h2 : Schema.hiddenFields hide d = d.filter (fun kf => hide kf.2) :=
    Dict.ofItems_of_nodup _ (hsub _)
  refine ⟨h1, h2, ?_⟩
  intro kf hkf
  rw [h1, h2]
  simp [hkf]

/-! ### C51 -/

/-- Fields whose `previous` attributes are separate: from every state in `I`, a successful call of
`f` sets its own `previous` to the value returned and leaves that of every other field alone, and
leads to a state in `I`. -/
structure SeparateCaches (I : σ → Prop) (fields : Dict ι) (call : ι → PyM σ Val)
    (prev : ι → σ → Val) : Prop where
  keeps : ∀ kf ∈ fields, ∀ s v t, I s → call kf.2 s = (.ok v, t) → I t
  own : ∀ kf ∈ fields, ∀ s v t, I s → call kf.2 s = (.ok v, t) → prev kf.2 t = v
  others : ∀ kf ∈ fields, ∀ kg ∈ fields, kf.1 ≠ kg.1 → ∀ s v t, I s →
    call kf.2 s = (.ok v, t) → prev kg.2 t = prev kg.2 s

theorem FieldsRun.split {call : ι → PyM σ Val} {fields : Dict ι} {s t : σ} {vals : List Val}
    (h : FieldsRun call fields s vals t) (j : Nat) (hj : j < fields.length) :
    ∃ sj tj, FieldsRun call (fields.take j) s (vals.take j) sj ∧
      call (fields[j]).2 sj = (.ok (vals.getD j .none), tj) ∧
      FieldsRun call (fields.drop (j + 1)) tj (vals.drop (j + 1)) t := by
  induction h generalizing j with
  | nil => simp at hj
  | @cons k f fs s s1 s2 v vs h1 h2 ih =>
    cases j with
    | zero => exact ⟨s, s1, .nil _, by simpa using h1, by simpa using h2⟩
    | succ j =>
      obtain ⟨sj, tj, a1, a2, a3⟩ := ih j (by simpa using hj)
      exact ⟨sj, tj, .cons h1 a1, by simpa using a2, by simpa using a3⟩

/-- A run of some fields leads from states in `I` to states in `I`. -/
theorem FieldsRun.keeps {I : σ → Prop} {fields : Dict ι} {call : ι → PyM σ Val}
    {prev : ι → σ → Val} (hsep : SeparateCaches I fields call prev) {fs : Dict ι} {s t : σ}
    {vals : List Val} (h : FieldsRun call fs s vals t) (hsub : ∀ kf ∈ fs, kf ∈ fields) (hI : I s) :
    I t := by
  induction h with
  | nil => exact hI
  | @cons k f fs s s1 s2 v vs h1 _ ih =>
    exact ih (fun kf hkf => hsub kf (by simp [hkf])) (hsep.keeps (k, f) (hsub _ (by simp)) _ _ _ hI h1)

/-- A run of some fields leaves `previous` of the other fields alone. -/
theorem FieldsRun.prev_other {I : σ → Prop} {fields : Dict ι} {call : ι → PyM σ Val}
    {prev : ι → σ → Val} (hsep : SeparateCaches I fields call prev) {fs : Dict ι} {s t : σ}
    {vals : List Val} (h : FieldsRun call fs s vals t) (hsub : ∀ kf ∈ fs, kf ∈ fields) (hI : I s)
    (kg : String × ι) (hg : kg ∈ fields) (hne : kg.1 ∉ Dict.keys fs) :
    prev kg.2 t = prev kg.2 s := by
  induction h with
  | nil => rfl
  | @cons k f fs s s1 s2 v vs h1 _ ih =>
    have hne' : kg.1 ≠ k ∧ kg.1 ∉ Dict.keys fs := by simpa [Dict.keys] using hne
    rw [ih (fun kf hkf => hsub kf (by simp [hkf]))
      (hsep.keeps (k, f) (hsub _ (by simp)) _ _ _ hI h1) hne'.2]
    exact hsep.others (k, f) (hsub _ (by simp)) kg hg (fun e => hne'.1 e.symm) _ _ _ hI h1

/-- After a run of some fields, `previous` of each of them is the value it returned. -/
theorem FieldsRun.prev_own {I : σ → Prop} {fields : Dict ι} {call : ι → PyM σ Val}
    {prev : ι → σ → Val} (hsep : SeparateCaches I fields call prev) {fs : Dict ι} {s t : σ}
    {vals : List Val} (h : FieldsRun call fs s vals t) (hn : (Dict.keys fs).Nodup)
    (hsub : ∀ kf ∈ fs, kf ∈ fields) (hI : I s) (i : Nat) (hi : i < fs.length) : prev (fs[i]).2 t = vals.getD i .none := by
  induction h generalizing i with
  | nil => simp at hi
  | @cons k f fs s s1 s2 v vs h1 h2 ih =>
    have hn' : k ∉ Dict.keys fs ∧ (Dict.keys fs).Nodup := List.nodup_cons.1 hn
    cases i with
    | zero =>
      have := h2.prev_other hsep (fun kf hkf => hsub kf (by simp [hkf]))
        (hsep.keeps (k, f) (hsub _ (by simp)) _ _ _ hI h1) (k, f) (hsub _ (by simp)) hn'.1
      simp only [List.getElem_cons_zero, List.getD_cons_zero]
      rw [this]
      exact hsep.own (k, f) (hsub _ (by simp)) _ _ _ hI h1
    | succ i =>
      have := ih hn'.2 (fun kf hkf => hsub kf (by simp [hkf]))
        (hsep.keeps (k, f) (hsub _ (by simp)) _ _ _ hI h1) i (by simpa using hi)
      simpa using this

/-- While a document is made, when the field at position `j` is called, every field before it already
has the value it has in this document, and every field from `j` on still has the one it had before
(its value in the preceding document, or `None`). -/
theorem C51_same_document (fields : Dict ι) (hn : fields.keys.Nodup) (call : ι → PyM σ Val)
    (prev : ι → σ → Val) {I : σ → Prop} (hsep : SeparateCaches I fields call prev) (s t : σ)
    (hI : I s) (vals : List Val) (h : FieldsRun call fields s vals t) (j : Nat) (hj : j < fields.length) :
    ∃ sj tj, I sj ∧ call (fields[j]).2 sj = (.ok (vals.getD j .none), tj) ∧
      (∀ i (_ : i < j), prev (fields[i]).2 sj = vals.getD i .none) ∧
      (∀ i (_ : j ≤ i) (_ : i < fields.length), prev (fields[i]).2 sj = prev (fields[i]).2 s) := by
  obtain ⟨sj, tj, a1, a2, _⟩ := h.split j hj
  have hsub : ∀ kf ∈ fields.take j, kf ∈ fields := fun kf hkf => List.mem_of_mem_take hkf
  have hkt : Dict.keys (fields.take j) = fields.keys.take j := by
    unfold Dict.keys; rw [List.map_take]
  refine ⟨sj, tj, a1.keeps hsep hsub hI, a2, ?_, ?_⟩
  · intro i hi
    have hi' : i < (fields.take j).length := by simp; omega
    have := a1.prev_own hsep (by rw [hkt]; exact hn.sublist (List.take_sublist _ _)) hsub hI i hi'
    rw [List.getElem_take] at this
    rw [this]
    have hl := h.length_eq
    simp only [List.getD_eq_getElem?_getD, List.getElem?_take, if_pos hi]
  · intro i hij hi
    refine a1.prev_other hsep hsub hI _ (List.getElem_mem hi) ?_
    rw [hkt]
    intro hm
    obtain ⟨m, hm1, hm2⟩ := List.getElem_of_mem hm
    rw [List.getElem_take] at hm2
    have hml : m < j ∧ m < fields.keys.length := by simpa using hm1
    have e : fields.keys[i]'(by simpa [Dict.keys] using hi) = (fields[i]).1 := by
      simp [Dict.keys]
    rw [← e] at hm2
    have := (List.Nodup.getElem_inj_iff hn).1 hm2
    omega

/-- After a document has been made, `previous` of every field is the value it has in that document:
so in the next document a field placed before its source reads the source's value of this one. -/
theorem C51_after_document (fields : Dict ι) (hn : fields.keys.Nodup) (call : ι → PyM σ Val)
    (prev : ι → σ → Val) {I : σ → Prop} (hsep : SeparateCaches I fields call prev) (s t : σ)
    (hI : I s) (vals : List Val) (h : FieldsRun call fields s vals t) (i : Nat) (hi : i < fields.length) :
    prev (fields[i]).2 t = vals.getD i .none :=
  h.prev_own hsep hn (fun _ h => h) hI i hi

/-! ### Concrete cases -/

/-- A small world: two caches and a counter. -/
abbrev TwoFields := Val × Val × Nat

/-- The caches of the two fields. -/
def twoCache : Bool → Attr TwoFields Val
  | false => ⟨fun s => s.1, fun v s => (v, s.2), fun _ _ => rfl, fun _ => rfl, fun _ _ _ => rfl⟩
  | true => ⟨fun s => s.2.1, fun v s => (s.1, v, s.2.2), fun _ _ => rfl, fun _ => rfl,
      fun _ _ _ => rfl⟩

/-- Field `false` counts; field `true` copies it. -/
def twoCall : Bool → PyM TwoFields Val
  | false => Field.call (twoCache false)
      (emitterCall (fun s => (.ok (.int s.2.2), (s.1, s.2.1, s.2.2 + 1)))
        (fun _ s => (.ok [], s))) (sameSource .none) (sameSource (.bool true))
  | true => Field.call (twoCache true)
      (CopyFields.call (fun _ => []) (SourceGroup.ofField
        ⟨"a", (twoCache false).get, fun _ => false, pure .none, pure (), fun _ => pure ()⟩) none)
      (sameSource .none) (sameSource (.bool true))

example : Schema.call (fun _ => false) twoCall [("a", false), ("b", true)] (.none, .none, 3) =
    (.ok [("a", .int 3), ("b", .int 3)], (.int 3, .int 3, 4)) := rfl
/-- Placed first, the copy lags one document behind. -/
example : Schema.call (fun _ => false) twoCall [("b", true), ("a", false)] (.int 2, .none, 3) =
    (.ok [("b", .int 2), ("a", .int 3)], (.int 3, .int 2, 4)) := rfl
example : Schema.call (fun f => !f) twoCall [("a", false), ("b", true)] (.none, .none, 3) =
    (.ok [("b", .int 3)], (.int 3, .int 3, 4)) := rfl
example : SeparateCaches (fun _ => True) [("a", false), ("b", true)] twoCall (fun f s => (twoCache f).get s) where
  keeps _ _ _ _ _ _ _ := trivial
  own kf h := by
    intro s v t _ e
    simp only [List.mem_cons, List.not_mem_nil, or_false] at h
    rcases h with rfl | rfl <;> (cases e; rfl)
  others kf h kg h' hne := by
    intro s v t _ e
    simp only [List.mem_cons, List.not_mem_nil, or_false] at h h'
    rcases h with rfl | rfl <;> rcases h' with rfl | rfl <;>
      first | exact absurd rfl hne | (cases e; rfl)
example : ∃ vals t, FieldsRun twoCall [("a", false), ("b", true)] (.none, .none, 3) vals t :=
  ⟨_, _, .cons rfl (.cons rfl (.nil _))⟩
example : KeepsAttr (twoCache true) (twoCall false) := fun _ => rfl
example : SchemaOp.run (fun p : String × Nat => p.1)
    (Schema.setFields (fun p => p.1) [("a", 1), ("b", 2), ("a", 3)])
    [.addFields [("c", 4), ("b", 5)]] = [("a", ("a", 3)), ("b", ("b", 5)), ("c", ("c", 4))] := rfl
example : firstOcc ["a", "b", "a", "c", "b"] = ["a", "b", "c"] := rfl

end Fauxdoc
