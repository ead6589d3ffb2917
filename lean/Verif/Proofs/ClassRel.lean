import Verif.Model.Profile
/-
For the class code over arbitrary children: computations on related states have the same outcome and
end in related states, provided this holds of the children.  With the relation "equal, and satisfying
I" this says that the class code preserves an invariant its children preserve.
-/
namespace Fauxdoc
namespace PyM
variable {σ τ : Type} {α β : Type}

/-- Like `Rel.bind`, knowing what the first computation can return. -/
theorem Rel.bind_of {S : σ → τ → Prop} {m : PyM σ α} {m' : PyM τ α} {k : α → PyM σ β}
    {k' : α → PyM τ β} (hm : Rel S m m')
    (hk : ∀ a, (∃ s s', m s = (.ok a, s')) → Rel S (k a) (k' a)) :
    Rel S (m >>= k) (m' >>= k') := by
  intro s t h
  rw [bind_apply, bind_apply]
  obtain ⟨h1, h2⟩ := hm s t h
  rcases hms : m s with ⟨e | a, s'⟩ <;> rcases hmt : m' t with ⟨e' | a', t'⟩ <;>
    rw [hms, hmt] at h1 h2
  · cases h1; exact ⟨rfl, h2⟩
  · cases h1
  · cases h1
  · cases h1; exact hk a ⟨s, s', hms⟩ s' t' h2

/-- Reading the states: the continuation may use that they are related. -/
theorem Rel.get_bind {S : σ → τ → Prop} {k : σ → PyM σ β} {k' : τ → PyM τ β}
    (hk : ∀ s t, S s t → (k s s).1 = (k' t t).1 ∧ S (k s s).2 (k' t t).2) :
    Rel S (PyM.get >>= k) (PyM.get >>= k') := fun s t h => hk s t h

theorem Rel.ite {S : σ → τ → Prop} {p : Prop} [Decidable p] {a b : PyM σ α} {a' b' : PyM τ α}
    (ha : p → Rel S a a') (hb : ¬ p → Rel S b b') :
    Rel S (if p then a else b) (if p then a' else b') := by
  by_cases h : p
  · rw [if_pos h, if_pos h]; exact ha h
  · rw [if_neg h, if_neg h]; exact hb h

theorem Rel.ignoring {S : σ → τ → Prop} {e : Err} {m : PyM σ PUnit} {m' : PyM τ PUnit}
    (hm : Rel S m m') : Rel S (PyM.ignoring e m) (PyM.ignoring e m') := by
  intro s t h
  obtain ⟨h1, h2⟩ := hm s t h
  unfold PyM.ignoring
  rcases hms : m s with ⟨x | a, s'⟩ <;> rcases hmt : m' t with ⟨x' | a', t'⟩ <;>
    rw [hms, hmt] at h1 h2
  · cases h1
    dsimp only
    split <;> exact ⟨rfl, h2⟩
  · cases h1
  · cases h1
  · exact ⟨rfl, h2⟩

theorem Rel.finally_ {S : σ → τ → Prop} {m : PyM σ α} {m' : PyM τ α} {f : PyM σ PUnit}
    {f' : PyM τ PUnit} (hm : Rel S m m') (hf : Rel S f f') :
    Rel S (PyM.finally_ m f) (PyM.finally_ m' f') := by
  intro s t h
  obtain ⟨h1, h2⟩ := hm s t h
  unfold PyM.finally_
  rcases hms : m s with ⟨x, s'⟩
  rcases hmt : m' t with ⟨x', t'⟩
  rw [hms, hmt] at h1 h2
  obtain ⟨h3, h4⟩ := hf s' t' h2
  dsimp only at h1 ⊢
  rcases hfs : f s' with ⟨y | a, s''⟩ <;> rcases hft : f' t' with ⟨y' | a', t''⟩ <;>
    rw [hfs, hft] at h3 h4
  · cases h3; exact ⟨rfl, h4⟩
  · cases h3
  · cases h3
  · exact ⟨h1, h4⟩

/-- Preserving an invariant as a special case. -/
theorem Rel.keeps {I : σ → Prop} {m : PyM σ α} (h : Rel (fun s t => s = t ∧ I s) m m) :
    Keeps I m := fun s hs => (h s s ⟨rfl, hs⟩).2.2

theorem Keeps.rel {I : σ → Prop} {m : PyM σ α} (h : Keeps I m) :
    Rel (fun s t => s = t ∧ I s) m m := by
  rintro s t ⟨rfl, hs⟩
  exact ⟨rfl, rfl, h s hs⟩

end PyM

open PyM
variable {σ τ G : Type} {S : σ → τ → Prop}

/-- Two children that behave the same in related states. -/
def ChildRel (S : σ → τ → Prop) (c : Child σ) (c' : Child τ) : Prop := ∀ arg, Rel S (c arg) (c' arg)

theorem emitterCallOr_rel {b : Val → PyM σ Val} {b' : Val → PyM τ Val} {e : PyM σ Val}
    {e' : PyM τ Val} {m : Int → PyM σ (List Val)} {m' : Int → PyM τ (List Val)}
    (hb : ∀ v, Rel S (b v) (b' v)) (he : Rel S e e') (hm : ∀ n, Rel S (m n) (m' n)) :
    ChildRel S (emitterCallOr b e m) (emitterCallOr b' e' m') := by
  have key : ∀ v : Val, Rel S
      (match v.asInt with
        | none => b v
        | some n => if n = 1 then (do return Val.list [← e]) else (do return Val.list (← m n)) :
          PyM σ Val)
      (match v.asInt with
        | none => b' v
        | some n => if n = 1 then (do return Val.list [← e']) else (do return Val.list (← m' n))) := by
    intro v
    cases v.asInt with
    | none => exact hb v
    | some n =>
      exact Rel.ite (fun _ => he.bind fun _ => Rel.pure S _)
        (fun _ => (hm n).bind fun _ => Rel.pure S _)
  intro arg
  cases arg with
  | none => exact he
  | some v =>
    cases v with
    | none => exact he
    | bool b => exact key (.bool b)
    | int i => exact key (.int i)
    | str x => exact key (.str x)
    | list l => exact key (.list l)
    | tuple l => exact key (.tuple l)
    | other n => exact key (.other n)

theorem emitterCall_rel {e : PyM σ Val} {e' : PyM τ Val} {m : Int → PyM σ (List Val)}
    {m' : Int → PyM τ (List Val)} (he : Rel S e e') (hm : ∀ n, Rel S (m n) (m' n)) :
    ChildRel S (emitterCall e m) (emitterCall e' m') :=
  emitterCallOr_rel (fun _ => Rel.raise S _) he hm

theorem Word.emitBad_rel {c : Child σ} {c' : Child τ} (h : ChildRel S c c') (v : Val) :
    Rel S (Word.emitBad c v) (Word.emitBad c' v) := (h _).bind fun _ => Rel.raise S _

/-! ### Word -/

theorem Word.call_rel {l a : Child σ} {l' a' : Child τ} (hl : ChildRel S l l')
    (ha : ChildRel S a a') : ChildRel S (Word.call l a) (Word.call l' a') := by
  refine emitterCallOr_rel (Word.emitBad_rel hl) ?_ fun n => ?_
  · exact (hl _).bind fun n => (ha _).bind fun cs => (Rel.lift S _).bind fun l =>
      (Rel.lift S _).bind fun _ => Rel.pure S _
  · exact (hl _).bind fun ls => (Rel.lift S _).bind fun ls => (Rel.lift S _).bind fun nt =>
      (ha _).bind fun cs => (Rel.lift S _).bind fun chars => Rel.lift S _

/-! ### Text -/

/-- Word emitters that behave the same in related states; resetting is only needed if the emitter
ever has `replace_only_after_call` set. -/
structure WordRel (S : σ → τ → Prop) (w : Text.WordChild σ) (w' : Text.WordChild τ) : Prop where
  call : ChildRel S w.call w'.call
  roac : Rel S w.roac w'.roac
  reset : Rel S w.reset w'.reset ∨ ∀ s r t, w.roac s = (.ok r, t) → ∀ s0, S s s0 → r = none

namespace Text
variable {w : WordChild σ} {w' : WordChild τ}

theorem nextBlock_rel (hw : WordRel S w w') (hr : Rel S w.reset w'.reset) (nu : Int) :
    ∀ (fuel : Nat) (rem : Int), Rel S (nextBlock w nu fuel rem) (nextBlock w' nu fuel rem) := by
  intro fuel
  induction fuel with
  | zero => intro rem; exact Rel.raise S _
  | succ fuel ih =>
    intro rem
    refine Rel.ite (fun _ => ?_) (fun _ => Rel.raise S _)
    refine (hw.call _).bind fun ws => (Rel.lift S _).bind fun l => ?_
    cases l with
    | nil => exact hr.bind fun _ => ih _
    | cons v rest => exact Rel.pure S _

/-- The word iterator is an iterator over a list. -/
def WordsIter.isDrawn : WordsIter → Prop
  | .drawn _ => True
  | .blocks .. => False

theorem nextWord_rel (hw : WordRel S w w') (wi : WordsIter)
    (hb : Rel S w.reset w'.reset ∨ wi.isDrawn) : Rel S (nextWord w wi) (nextWord w' wi) := by
  cases wi with
  | drawn l =>
    cases l with
    | nil => exact Rel.raise S _
    | cons v l => exact Rel.pure S _
  | blocks nu rem needed buf =>
    have hr : Rel S w.reset w'.reset := hb.elim id fun h => h.elim
    cases buf with
    | cons v buf => exact Rel.pure S _
    | nil =>
      exact Rel.ite (fun _ => nextBlock_rel hw hr nu _ _)
        (fun _ => hr.bind fun _ => nextBlock_rel hw hr nu _ _)

theorem nextWord_isDrawn {wi wi' : WordsIter} {v : Val} {s s' : σ} (h : wi.isDrawn)
    (e : nextWord w wi s = (.ok (v, wi'), s')) : wi'.isDrawn := by
  cases wi with
  | blocks => exact h.elim
  | drawn l =>
    cases l with
    | nil => cases e
    | cons x l => cases e; trivial

theorem renderRest_rel (hw : WordRel S w w') : ∀ (k : Nat) (wi : WordsIter) (seps : List Val),
    (Rel S w.reset w'.reset ∨ wi.isDrawn) →
    Rel S (renderRest w k wi seps) (renderRest w' k wi seps) := by
  intro k
  induction k with
  | zero => intro wi seps _; exact Rel.pure S _
  | succ k ih =>
    intro wi seps hb
    refine (nextWord_rel hw wi hb).bind_of fun p hp => ?_
    obtain ⟨s, s', hp⟩ := hp
    have hb' : Rel S w.reset w'.reset ∨ p.2.isDrawn := hb.imp id fun h => nextWord_isDrawn h hp
    exact (ih p.2 _ hb').bind fun _ => Rel.pure S _

theorem renderRest_isDrawn : ∀ (k : Nat) {wi : WordsIter} {seps : List Val} {s s' : σ}
    {r : List Val × WordsIter × List Val}, wi.isDrawn →
    renderRest w k wi seps s = (.ok r, s') → r.2.1.isDrawn := by
  intro k
  induction k with
  | zero => intro wi seps s s' r h e; cases e; exact h
  | succ k ih =>
    intro wi seps s s' r h e
    obtain ⟨p, s1, e1, e2⟩ := PyM.bind_eq_ok e
    obtain ⟨q, s2, e3, e4⟩ := PyM.bind_eq_ok e2
    cases e4
    exact ih (r := q) (nextWord_isDrawn (v := p.1) (wi' := p.2) h e1) e3

theorem renderAll_rel (hw : WordRel S w w') : ∀ (ns : List Int) (wi : WordsIter) (seps : List Val),
    (Rel S w.reset w'.reset ∨ wi.isDrawn) →
    Rel S (renderAll w ns wi seps) (renderAll w' ns wi seps) := by
  intro ns
  induction ns with
  | nil => intro wi seps _; exact Rel.pure S _
  | cons n ns ih =>
    intro wi seps hb
    refine Rel.ite (fun _ => ih wi seps hb) (fun _ => ?_)
    refine (nextWord_rel hw wi hb).bind_of fun p hp => ?_
    obtain ⟨s, s', hp⟩ := hp
    have hb' : Rel S w.reset w'.reset ∨ p.2.isDrawn := hb.imp id fun h => nextWord_isDrawn h hp
    refine (renderRest_rel hw _ p.2 _ hb').bind_of fun q hq => ?_
    obtain ⟨s, s', hq⟩ := hq
    have hb'' : Rel S w.reset w'.reset ∨ q.2.1.isDrawn :=
      hb'.imp id fun h => renderRest_isDrawn _ h hq
    exact (Rel.lift S _).bind fun t => (ih q.2.1 _ hb'').bind fun _ => Rel.pure S _

theorem getWordsIterator_rel (hw : WordRel S w w') (total : Int) :
    Rel S (getWordsIterator w total) (getWordsIterator w' total) := by
  have hd : Rel S (do
      let ws ← w.call (some (.int total))
      return WordsIter.drawn (← PyM.lift ws.elems) : PyM σ WordsIter) (do
      let ws ← w'.call (some (.int total))
      return WordsIter.drawn (← PyM.lift ws.elems) : PyM τ WordsIter) :=
    (hw.call _).bind fun _ => (Rel.lift S _).bind fun _ => Rel.pure S _
  refine hw.roac.bind fun r => ?_
  cases r with
  | none => exact hd
  | some nu => exact Rel.ite (fun _ => Rel.pure S _) (fun _ => hd)

theorem getWordsIterator_isDrawn {total : Int} {wi : WordsIter} {s s' : σ}
    (h : ∀ r t, w.roac s = (.ok r, t) → r = none)
    (e : getWordsIterator w total s = (.ok wi, s')) : wi.isDrawn := by
  obtain ⟨r, s1, e1, e2⟩ := PyM.bind_eq_ok e
  cases h r s1 e1
  obtain ⟨ws, s2, e3, e4⟩ := PyM.bind_eq_ok e2
  obtain ⟨l, s3, e5, e6⟩ := PyM.bind_eq_ok e4
  cases e6
  trivial

theorem emitMany_rel (hw : WordRel S w w') {nw sp : Child σ} {nw' sp' : Child τ}
    (hn : ChildRel S nw nw') (hs : ChildRel S sp sp') (number : Int) :
    Rel S (emitMany nw w sp number) (emitMany nw' w' sp' number) := by
  refine (hn _).bind fun ls => (Rel.lift S _).bind fun ls => (Rel.lift S _).bind fun nt => ?_
  obtain ⟨ns, total⟩ := nt
  dsimp only
  rcases hw.reset with hr | hr
  · exact (getWordsIterator_rel hw _).bind fun wi => (hs _).bind fun ss =>
      (Rel.lift S _).bind fun seps => renderAll_rel hw _ wi seps (Or.inl hr)
  · intro s t hst
    have key := getWordsIterator_rel hw total s t hst
    rw [PyM.bind_apply, PyM.bind_apply]
    rcases h1 : getWordsIterator w total s with ⟨x | wi, s1⟩ <;>
      rcases h2 : getWordsIterator w' total t with ⟨x' | wi', t1⟩ <;> rw [h1, h2] at key
    · obtain ⟨k1, k2⟩ := key; cases k1; exact ⟨rfl, k2⟩
    · cases key.1
    · cases key.1
    · obtain ⟨k1, k2⟩ := key
      cases k1
      have hd : wi.isDrawn := getWordsIterator_isDrawn (fun r t' e => hr s r t' e t hst) h1
      exact ((hs (some (.int (total - number)))).bind fun ss =>
        (Rel.lift S ss.elems).bind fun seps => renderAll_rel hw ns wi seps (Or.inr hd)) s1 t1 k2

theorem call_rel (hw : WordRel S w w') {nw sp : Child σ} {nw' sp' : Child τ}
    (hn : ChildRel S nw nw') (hs : ChildRel S sp sp') :
    ChildRel S (call nw w sp) (call nw' w' sp') := by
  refine emitterCallOr_rel (Word.emitBad_rel hn) ?_ (emitMany_rel hw hn hs)
  exact (emitMany_rel hw hn hs 1).bind fun _ => Rel.lift S _

end Text

/-! ### Wrappers -/

/-- Running a computation on the attribute behaves the same in related states. -/
def AttrRel (S : σ → τ → Prop) (L : Attr σ G) (L' : Attr τ G) : Prop :=
  ∀ m : PyM G Val, Rel S (L.run m) (L'.run m)

theorem mapPyM_rel {α α' β : Type} {f : α → PyM σ β} {f' : α' → PyM τ β} {l : List α} {l' : List α'}
    (h : List.Forall₂ (fun a a' => Rel S (f a) (f' a')) l l') :
    Rel S (mapPyM f l) (mapPyM f' l') := by
  induction h with
  | nil => exact Rel.pure S _
  | cons h1 _ ih => exact h1.bind fun _ => ih.bind fun _ => Rel.pure S _

theorem mapPyM_rel_same {α β : Type} {f : α → PyM σ β} {f' : α → PyM τ β} (l : List α)
    (h : ∀ a ∈ l, Rel S (f a) (f' a)) : Rel S (mapPyM f l) (mapPyM f' l) := by
  refine mapPyM_rel ?_
  induction l with
  | nil => exact .nil
  | cons a as ih => exact .cons (h a (by simp)) (ih fun x hx => h x (by simp [hx]))

theorem Callback.call_rel {L : Attr σ G} {L' : Attr τ G} (hL : AttrRel S L L') (cb : Callback G)
    (args : List Val) (kw : Dict Val) : Rel S (cb.call L args kw) (cb.call L' args kw) :=
  Rel.ite (fun _ => Rel.raise S _) (fun _ => Rel.ite (fun _ => hL _) (fun _ => Rel.lift S _))

theorem WrapOne.call_rel {L : Attr σ G} {L' : Attr τ G} (hL : AttrRel S L L') (cb : Callback G)
    {s : Child σ} {s' : Child τ} (hs : ChildRel S s s') :
    ChildRel S (WrapOne.call L s cb) (WrapOne.call L' s' cb) := by
  refine emitterCallOr_rel (Word.emitBad_rel hs) ?_ fun n => ?_
  · exact (hs _).bind fun v => Callback.call_rel hL cb _ _
  · exact (hs _).bind fun v => (Rel.lift S _).bind fun l =>
      mapPyM_rel_same l fun _ _ => Callback.call_rel hL cb _ _

theorem WrapMany.draw_rel {ss : Dict (Child σ)} {ss' : Dict (Child τ)}
    (hs : List.Forall₂ (fun a b => a.1 = b.1 ∧ ChildRel S a.2 b.2) ss ss') (arg : Option Val) :
    Rel S (draw ss arg) (draw ss' arg) := by
  refine mapPyM_rel (hs.imp fun a b h => ?_)
  rw [h.1]
  exact (h.2 arg).bind fun _ => Rel.pure S _

theorem WrapMany.call_rel {L : Attr σ G} {L' : Attr τ G} (hL : AttrRel S L L') (cb : Callback G)
    {ss : Dict (Child σ)} {ss' : Dict (Child τ)}
    (hs : List.Forall₂ (fun a b => a.1 = b.1 ∧ ChildRel S a.2 b.2) ss ss') :
    ChildRel S (WrapMany.call L ss cb) (WrapMany.call L' ss' cb) := by
  refine emitterCallOr_rel (fun _ => (draw_rel hs _).bind fun _ => Rel.raise S _) ?_ fun n => ?_
  · exact (draw_rel hs _).bind fun kw => Callback.call_rel hL cb _ _
  · exact (draw_rel hs _).bind fun em => mapPyM_rel_same _ fun _ _ =>
      (Rel.lift S _).bind fun _ => Callback.call_rel hL cb _ _

/-! ### Fields as sources -/

/-- Source groups that look the same in the states `s` and `t`. -/
structure GroupAt (s : σ) (t : τ) (g : SourceGroup σ) (g' : SourceGroup τ) : Prop where
  single : g.initSingle = g'.initSingle
  fields : List.Forall₂ (fun (x : SourceField σ) (y : SourceField τ) => x.name = y.name ∧
    x.previous s = y.previous t ∧ x.multiValued s = y.multiValued t) g.fields g'.fields

theorem GroupAt.singleValued {s : σ} {t : τ} {g : SourceGroup σ} {g' : SourceGroup τ}
    (h : GroupAt s t g g') : g.singleValued s = g'.singleValued t := by
  unfold SourceGroup.singleValued
  have hf := h.fields
  generalize g.fields = l at hf
  generalize g'.fields = l' at hf
  rw [h.single]
  cases hf with
  | nil => rfl
  | cons h1 h2 =>
    cases h2 with
    | nil => simp [h1.2.2]
    | cons _ _ => rfl

theorem GroupAt.collect {s : σ} {t : τ} {l : List (SourceField σ)} {l' : List (SourceField τ)}
    (h : List.Forall₂ (fun (x : SourceField σ) (y : SourceField τ) => x.name = y.name ∧
      x.previous s = y.previous t ∧ x.multiValued s = y.multiValued t) l l') :
    ∀ vals, CopyFields.collect s vals l = CopyFields.collect t vals l' := by
  induction h with
  | nil => intro vals; rfl
  | cons h1 _ ih =>
    intro vals
    unfold CopyFields.collect
    rw [h1.2.1]
    split <;> exact ih _

theorem CopyFields.emit_at {str : Val → List Char} {g : SourceGroup σ} {g' : SourceGroup τ}
    {sep : Option (List Char)} {s : σ} {t : τ} (h : GroupAt s t g g') :
    (emit str g sep s).1 = (emit str g' sep t).1 ∧ (emit str g sep s).2 = s ∧
      (emit str g' sep t).2 = t := by
  unfold emit
  rw [PyM.run_get_bind, PyM.run_get_bind, h.singleValued]
  by_cases hs : g'.singleValued t = true
  · rw [if_pos hs, if_pos hs]
    have hf := h.fields
    generalize g.fields = l at hf
    generalize g'.fields = l' at hf
    cases hf with
    | nil => exact ⟨rfl, rfl, rfl⟩
    | cons h1 _ =>
      refine ⟨?_, rfl, rfl⟩
      simp [h1.2.1]
  · rw [if_neg hs, if_neg hs, GroupAt.collect h.fields]
    cases sep with
    | none =>
      by_cases hv : (CopyFields.collect t [] g'.fields).isEmpty = true
      · simp only [hv, if_true]; exact ⟨rfl, rfl, rfl⟩
      · simp only [hv]; exact ⟨rfl, rfl, rfl⟩
    | some sp => exact ⟨rfl, rfl, rfl⟩

theorem CopyFields.call_rel (str : Val → List Char) {g : SourceGroup σ} {g' : SourceGroup τ}
    (sep : Option (List Char)) (h : ∀ s t, S s t → GroupAt s t g g') :
    ChildRel S (call str g sep) (call str g' sep) := by
  have he : Rel S (emit str g sep) (emit str g' sep) := by
    intro s t hst
    obtain ⟨h1, h2, h3⟩ := emit_at (str := str) (sep := sep) (h s t hst)
    exact ⟨h1, by rw [h2, h3]; exact hst⟩
  exact emitterCallOr_rel (fun _ => he.bind fun _ => Rel.raise S _) he fun n => he.bind fun _ => Rel.pure S _

theorem GroupAt.kwargs {s : σ} {t : τ} {l : List (SourceField σ)} {l' : List (SourceField τ)}
    (h : List.Forall₂ (fun (x : SourceField σ) (y : SourceField τ) => x.name = y.name ∧
      x.previous s = y.previous t ∧ x.multiValued s = y.multiValued t) l l') :
    l.map (fun f => (f.name, f.previous s)) = l'.map (fun f => (f.name, f.previous t)) := by
  induction h with
  | nil => rfl
  | cons h1 _ ih => simp [h1.1, h1.2.1, ih]

theorem BasedOnFields.call_rel {L : Attr σ G} {L' : Attr τ G} (hL : AttrRel S L L')
    (cb : Callback G) {g : SourceGroup σ} {g' : SourceGroup τ}
    (h : ∀ s t, S s t → GroupAt s t g g') :
    ChildRel S (call L g cb) (call L' g' cb) := by
  have he : Rel S (emit L g cb) (emit L' g' cb) := by
    refine Rel.get_bind fun s t hst => ?_
    have hf := (h s t hst).fields
    generalize g.fields = l at hf
    generalize g'.fields = l' at hf
    cases hf with
    | nil => exact Callback.call_rel hL cb _ _ s t hst
    | cons h1 h2 =>
      cases h2 with
      | nil =>
        dsimp only
        rw [h1.2.1]
        exact Callback.call_rel hL cb _ _ s t hst
      | cons h3 h4 =>
        dsimp only
        rw [GroupAt.kwargs (.cons h1 (.cons h3 h4))]
        exact Callback.call_rel hL cb _ _ s t hst
  exact emitterCallOr_rel (fun _ => he.bind fun _ => Rel.raise S _) he fun n => he.bind fun _ => Rel.pure S _

/-! ### Field, groups -/

theorem Field.call_rel {c : Attr σ Val} {c' : Attr τ Val}
    (hc : ∀ v, Rel S (PyM.modify (c.set v)) (PyM.modify (c'.set v)))
    {e r g : Child σ} {e' r' g' : Child τ} (he : ChildRel S e e') (hr : ChildRel S r r')
    (hg : ChildRel S g g') : Rel S (call c e r g) (call c' e' r' g') :=
  (hg _).bind fun _ => Rel.ite
    (fun _ => (hr _).bind fun _ => (he _).bind fun v => (hc v).bind fun _ => Rel.pure S _)
    (fun _ => (hc _).bind fun _ => Rel.pure S _)

theorem Group.doMethod_rel {ι : Type} {l : List ι} {f : ι → PyM σ Unit} {f' : ι → PyM τ Unit}
    (h : ∀ i ∈ l, Rel S (f i) (f' i)) :
    Rel S (Group.doMethod (l.map some) f) (Group.doMethod (l.map some) f') := by
  refine Rel.forEach fun m hm => ?_
  obtain ⟨i, hi, rfl⟩ := List.mem_map.1 hm
  exact Rel.ignoring (h i hi)

theorem Group.setattr_rel {ι : Type} {l : List ι} {has : ι → σ → Bool} {has' : ι → τ → Bool}
    {f : ι → PyM σ Unit} {f' : ι → PyM τ Unit}
    (hh : ∀ i ∈ l, ∀ s t, S s t → has i s = has' i t) (h : ∀ i ∈ l, Rel S (f i) (f' i)) :
    Rel S (Group.setattr (l.map some) has f) (Group.setattr (l.map some) has' f') := by
  refine Rel.forEach fun m hm => ?_
  obtain ⟨i, hi, rfl⟩ := List.mem_map.1 hm
  refine Rel.get_bind fun s t hst => ?_
  rw [hh i hi s t hst]
  by_cases hb : has' i t = true
  · rw [if_pos hb, if_pos hb]; exact h i hi s t hst
  · rw [if_neg hb, if_neg hb]; exact ⟨rfl, hst⟩

theorem Schema.loop_rel {ι : Type} {hide hide' : ι → Bool} {c : ι → PyM σ Val} {c' : ι → PyM τ Val} :
    ∀ (fields : Dict ι) (doc : Dict Val),
    (∀ kf ∈ fields, hide kf.2 = hide' kf.2 ∧ Rel S (c kf.2) (c' kf.2)) →
    Rel S (loop hide c doc fields) (loop hide' c' doc fields) := by
  intro fields
  induction fields with
  | nil => intro doc _; exact Rel.pure S _
  | cons kf fs ih =>
    intro doc h
    obtain ⟨h1, h2⟩ := h kf (by simp)
    have ih' := fun doc => ih doc fun x hx => h x (by simp [hx])
    refine h2.bind fun v => ?_
    rw [h1]
    exact Rel.ite (fun _ => ih' _) (fun _ => ih' _)

end Fauxdoc
