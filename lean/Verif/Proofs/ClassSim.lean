import Verif.Proofs.ClassRel
/-
For the class code over arbitrary children: computations that follow other computations unless they
are cut short by a certain exception, provided this holds of the children.
-/
namespace Fauxdoc
namespace PyM
variable {σ τ : Type} {α β : Type}

/-- From `s` and `t`: `m` gives the same outcome as `m'` and ends in a related state, or it raises
`ε` in a state with `J`. -/
def SimAt (ε : Err) (J : σ → Prop) (S : σ → τ → Prop) (m : PyM σ α) (m' : PyM τ α) (s : σ) (t : τ) :
    Prop :=
  ((m s).1 = (m' t).1 ∧ S (m s).2 (m' t).2) ∨ ((m s).1 = .error ε ∧ J (m s).2)

/-- `m` follows `m'` unless cut short by `ε`. -/
def Sim (ε : Err) (J : σ → Prop) (S : σ → τ → Prop) (m : PyM σ α) (m' : PyM τ α) : Prop :=
  ∀ s t, S s t → SimAt ε J S m m' s t

variable {ε : Err} {J : σ → Prop}

theorem Sim.pure (ε : Err) (J : σ → Prop) (S : σ → τ → Prop) (a : α) :
    Sim ε J S (Pure.pure a : PyM σ α) (Pure.pure a) := fun _ _ h => .inl ⟨rfl, h⟩
theorem Sim.raise (ε : Err) (J : σ → Prop) (S : σ → τ → Prop) (e : Err) :
    Sim ε J S (PyM.raise e : PyM σ α) (PyM.raise e) := fun _ _ h => .inl ⟨rfl, h⟩
theorem Sim.lift (ε : Err) (J : σ → Prop) (S : σ → τ → Prop) (a : Except Err α) :
    Sim ε J S (PyM.lift a) (PyM.lift a) := fun _ _ h => .inl ⟨rfl, h⟩

/-- Sequential composition from given states, knowing how the first computation ended. -/
theorem SimAt.bind {S S' : σ → τ → Prop} {m : PyM σ α} {m' : PyM τ α} {k : α → PyM σ β}
    {k' : α → PyM τ β} {s : σ} {t : τ} (hm : SimAt ε J S' m m' s t)
    (hk : ∀ a s' t', m s = (.ok a, s') → m' t = (.ok a, t') → S' s' t' →
      SimAt ε J S (k a) (k' a) s' t') (he : ∀ s' t', S' s' t' → S s' t') :
    SimAt ε J S (m >>= k) (m' >>= k') s t := by
  unfold SimAt
  rw [bind_apply, bind_apply]
  rcases hm with ⟨h1, h2⟩ | ⟨h1, h2⟩
  · rcases hms : m s with ⟨e | a, s'⟩ <;> rcases hmt : m' t with ⟨e' | a', t'⟩ <;>
      rw [hms, hmt] at h1 h2
    · cases h1; exact .inl ⟨rfl, he _ _ h2⟩
    · cases h1
    · cases h1
    · cases h1; exact hk a s' t' hms hmt h2
  · rcases hms : m s with ⟨e | a, s'⟩ <;> rw [hms] at h1 h2
    · cases h1; exact .inr ⟨rfl, h2⟩
    · cases h1

theorem Sim.bind_at {S : σ → τ → Prop} {m : PyM σ α} {m' : PyM τ α} {k : α → PyM σ β}
    {k' : α → PyM τ β} (hm : Sim ε J S m m')
    (hk : ∀ a s t s' t', S s t → m s = (.ok a, s') → S s' t' → SimAt ε J S (k a) (k' a) s' t') :
    Sim ε J S (m >>= k) (m' >>= k') := fun s t h =>
  (hm s t h).bind (fun a s' t' h1 _ h2 => hk a s t s' t' h h1 h2) fun _ _ h => h

theorem Sim.bind_of {S : σ → τ → Prop} {m : PyM σ α} {m' : PyM τ α} {k : α → PyM σ β}
    {k' : α → PyM τ β} (hm : Sim ε J S m m')
    (hk : ∀ a, (∃ s s', m s = (.ok a, s')) → Sim ε J S (k a) (k' a)) :
    Sim ε J S (m >>= k) (m' >>= k') :=
  hm.bind_at fun a s _ s' t' _ h1 h2 => hk a ⟨s, s', h1⟩ s' t' h2

theorem Sim.bind {S : σ → τ → Prop} {m : PyM σ α} {m' : PyM τ α} {k : α → PyM σ β}
    {k' : α → PyM τ β} (hm : Sim ε J S m m') (hk : ∀ a, Sim ε J S (k a) (k' a)) :
    Sim ε J S (m >>= k) (m' >>= k') := hm.bind_of fun a _ => hk a

/-- Reading the states: the continuation may use that they are related. -/
theorem Sim.get_bind {S : σ → τ → Prop} {k : σ → PyM σ β} {k' : τ → PyM τ β}
    (hk : ∀ s t, S s t → SimAt ε J S (k s) (k' t) s t) :
    Sim ε J S (PyM.get >>= k) (PyM.get >>= k') := fun s t h => hk s t h

theorem Sim.ite {S : σ → τ → Prop} {p : Prop} [Decidable p] {a b : PyM σ α} {a' b' : PyM τ α}
    (ha : p → Sim ε J S a a') (hb : ¬ p → Sim ε J S b b') :
    Sim ε J S (if p then a else b) (if p then a' else b') := by
  by_cases h : p
  · rw [if_pos h, if_pos h]; exact ha h
  · rw [if_neg h, if_neg h]; exact hb h

theorem Sim.ignoring {S : σ → τ → Prop} {e : Err} (hε : ε ≠ e) {m : PyM σ PUnit} {m' : PyM τ PUnit}
    (hm : Sim ε J S m m') : Sim ε J S (PyM.ignoring e m) (PyM.ignoring e m') := by
  intro s t h
  unfold SimAt PyM.ignoring
  rcases hm s t h with ⟨h1, h2⟩ | ⟨h1, h2⟩
  · rcases hms : m s with ⟨x | a, s'⟩ <;> rcases hmt : m' t with ⟨x' | a', t'⟩ <;>
      rw [hms, hmt] at h1 h2
    · cases h1
      dsimp only
      split <;> exact .inl ⟨rfl, h2⟩
    · cases h1
    · cases h1
    · exact .inl ⟨rfl, h2⟩
  · rcases hms : m s with ⟨x | a, s'⟩ <;> rw [hms] at h1 h2
    · cases h1
      dsimp only
      rw [if_neg hε]
      exact .inr ⟨rfl, h2⟩
    · cases h1

theorem Sim.forEach {S : σ → τ → Prop} {l : List β} {f : β → PyM σ PUnit} {f' : β → PyM τ PUnit}
    (h : ∀ b ∈ l, Sim ε J S (f b) (f' b)) : Sim ε J S (PyM.forEach l f) (PyM.forEach l f') := by
  induction l with
  | nil => exact Sim.pure ε J S _
  | cons b bs ih =>
    exact Sim.bind (h b (by simp)) fun _ => ih fun x hx => h x (by simp [hx])

end PyM

open PyM
variable {σ τ G : Type} {S : σ → τ → Prop} {ε : Err} {J : σ → Prop}

/-- Two children that behave the same in related states. -/
def ChildSim (ε : Err) (J : σ → Prop) (S : σ → τ → Prop) (c : Child σ) (c' : Child τ) : Prop := ∀ arg, Sim ε J S (c arg) (c' arg)

theorem emitterCallOr_sim {b : Val → PyM σ Val} {b' : Val → PyM τ Val} {e : PyM σ Val}
    {e' : PyM τ Val} {m : Int → PyM σ (List Val)} {m' : Int → PyM τ (List Val)}
    (hb : ∀ v, Sim ε J S (b v) (b' v)) (he : Sim ε J S e e') (hm : ∀ n, Sim ε J S (m n) (m' n)) :
    ChildSim ε J S (emitterCallOr b e m) (emitterCallOr b' e' m') := by
  have key : ∀ v : Val, Sim ε J S
      (match v.asInt with
        | none => b v
        | some n => if n = 1 then (do return Val.list [← e]) else (do return Val.list (← m n)) :
          PyM σ Val)
      (match v.asInt with
        | none => b' v
        | some n => if n = 1 then (do return Val.list [← e']) else (do return Val.list (← m' n))) := by
    intro v
    cases v.asInt with
    | none => exact hb v
    | some n =>
      exact Sim.ite (fun _ => he.bind fun _ => Sim.pure ε J S _)
        (fun _ => (hm n).bind fun _ => Sim.pure ε J S _)
  intro arg
  cases arg with
  | none => exact he
  | some v =>
    cases v with
    | none => exact he
    | bool b => exact key (.bool b)
    | int i => exact key (.int i)
    | str x => exact key (.str x)
    | list l => exact key (.list l)
    | tuple l => exact key (.tuple l)
    | other n => exact key (.other n)

theorem emitterCall_sim {e : PyM σ Val} {e' : PyM τ Val} {m : Int → PyM σ (List Val)}
    {m' : Int → PyM τ (List Val)} (he : Sim ε J S e e') (hm : ∀ n, Sim ε J S (m n) (m' n)) :
    ChildSim ε J S (emitterCall e m) (emitterCall e' m') :=
  emitterCallOr_sim (fun _ => Sim.raise ε J S _) he hm

theorem Word.emitBad_sim {c : Child σ} {c' : Child τ} (h : ChildSim ε J S c c') (v : Val) :
    Sim ε J S (Word.emitBad c v) (Word.emitBad c' v) := (h _).bind fun _ => Sim.raise ε J S _

/-! ### Word -/

theorem Word.call_sim {l a : Child σ} {l' a' : Child τ} (hl : ChildSim ε J S l l')
    (ha : ChildSim ε J S a a') : ChildSim ε J S (Word.call l a) (Word.call l' a') := by
  refine emitterCallOr_sim (Word.emitBad_sim hl) ?_ fun n => ?_
  · exact (hl _).bind fun n => (ha _).bind fun cs => (Sim.lift ε J S _).bind fun l =>
      (Sim.lift ε J S _).bind fun _ => Sim.pure ε J S _
  · exact (hl _).bind fun ls => (Sim.lift ε J S _).bind fun ls => (Sim.lift ε J S _).bind fun nt =>
      (ha _).bind fun cs => (Sim.lift ε J S _).bind fun chars => Sim.lift ε J S _

/-! ### Text -/

/-- Word emitters that behave the same in related states; resetting is only needed if the emitter
ever has `replace_only_after_call` set. -/
structure WordSim (ε : Err) (J : σ → Prop) (S : σ → τ → Prop) (w : Text.WordChild σ) (w' : Text.WordChild τ) : Prop where
  call : ChildSim ε J S w.call w'.call
  roac : Sim ε J S w.roac w'.roac
  reset : Sim ε J S w.reset w'.reset ∨ ∀ s r t, w.roac s = (.ok r, t) → ∀ s0, S s s0 → r = none

namespace Text
variable {w : WordChild σ} {w' : WordChild τ}

theorem nextBlock_sim (hw : WordSim ε J S w w') (hr : Sim ε J S w.reset w'.reset) (nu : Int) :
    ∀ (fuel : Nat) (rem : Int), Sim ε J S (nextBlock w nu fuel rem) (nextBlock w' nu fuel rem) := by
  intro fuel
  induction fuel with
  | zero => intro rem; exact Sim.raise ε J S _
  | succ fuel ih =>
    intro rem
    refine Sim.ite (fun _ => ?_) (fun _ => Sim.raise ε J S _)
    refine (hw.call _).bind fun ws => (Sim.lift ε J S _).bind fun l => ?_
    cases l with
    | nil => exact hr.bind fun _ => ih _
    | cons v rest => exact Sim.pure ε J S _

theorem nextWord_sim (hw : WordSim ε J S w w') (wi : WordsIter)
    (hb : Sim ε J S w.reset w'.reset ∨ wi.isDrawn) : Sim ε J S (nextWord w wi) (nextWord w' wi) := by
  cases wi with
  | drawn l =>
    cases l with
    | nil => exact Sim.raise ε J S _
    | cons v l => exact Sim.pure ε J S _
  | blocks nu rem needed buf =>
    have hr : Sim ε J S w.reset w'.reset := hb.elim id fun h => h.elim
    cases buf with
    | cons v buf => exact Sim.pure ε J S _
    | nil =>
      exact Sim.ite (fun _ => nextBlock_sim hw hr nu _ _)
        (fun _ => hr.bind fun _ => nextBlock_sim hw hr nu _ _)

theorem renderRest_sim (hw : WordSim ε J S w w') : ∀ (k : Nat) (wi : WordsIter) (seps : List Val),
    (Sim ε J S w.reset w'.reset ∨ wi.isDrawn) →
    Sim ε J S (renderRest w k wi seps) (renderRest w' k wi seps) := by
  intro k
  induction k with
  | zero => intro wi seps _; exact Sim.pure ε J S _
  | succ k ih =>
    intro wi seps hb
    refine (nextWord_sim hw wi hb).bind_of fun p hp => ?_
    obtain ⟨s, s', hp⟩ := hp
    have hb' : Sim ε J S w.reset w'.reset ∨ p.2.isDrawn := hb.imp id fun h => nextWord_isDrawn h hp
    exact (ih p.2 _ hb').bind fun _ => Sim.pure ε J S _

theorem renderAll_sim (hw : WordSim ε J S w w') : ∀ (ns : List Int) (wi : WordsIter) (seps : List Val),
    (Sim ε J S w.reset w'.reset ∨ wi.isDrawn) →
    Sim ε J S (renderAll w ns wi seps) (renderAll w' ns wi seps) := by
  intro ns
  induction ns with
  | nil => intro wi seps _; exact Sim.pure ε J S _
  | cons n ns ih =>
    intro wi seps hb
    refine Sim.ite (fun _ => ih wi seps hb) (fun _ => ?_)
    refine (nextWord_sim hw wi hb).bind_of fun p hp => ?_
    obtain ⟨s, s', hp⟩ := hp
    have hb' : Sim ε J S w.reset w'.reset ∨ p.2.isDrawn := hb.imp id fun h => nextWord_isDrawn h hp
    refine (renderRest_sim hw _ p.2 _ hb').bind_of fun q hq => ?_
    obtain ⟨s, s', hq⟩ := hq
    have hb'' : Sim ε J S w.reset w'.reset ∨ q.2.1.isDrawn :=
      hb'.imp id fun h => renderRest_isDrawn _ h hq
    exact (Sim.lift ε J S _).bind fun t => (ih q.2.1 _ hb'').bind fun _ => Sim.pure ε J S _

theorem getWordsIterator_sim (hw : WordSim ε J S w w') (total : Int) :
    Sim ε J S (getWordsIterator w total) (getWordsIterator w' total) := by
  have hd : Sim ε J S (do
      let ws ← w.call (some (.int total))
      return WordsIter.drawn (← PyM.lift ws.elems) : PyM σ WordsIter) (do
      let ws ← w'.call (some (.int total))
      return WordsIter.drawn (← PyM.lift ws.elems) : PyM τ WordsIter) :=
    (hw.call _).bind fun _ => (Sim.lift ε J S _).bind fun _ => Sim.pure ε J S _
  refine hw.roac.bind fun r => ?_
  cases r with
  | none => exact hd
  | some nu => exact Sim.ite (fun _ => Sim.pure ε J S _) (fun _ => hd)

theorem emitMany_sim (hw : WordSim ε J S w w') {nw sp : Child σ} {nw' sp' : Child τ}
    (hn : ChildSim ε J S nw nw') (hs : ChildSim ε J S sp sp') (number : Int) :
    Sim ε J S (emitMany nw w sp number) (emitMany nw' w' sp' number) := by
  refine (hn _).bind fun ls => (Sim.lift ε J S _).bind fun ls => (Sim.lift ε J S _).bind fun nt => ?_
  obtain ⟨ns, total⟩ := nt
  dsimp only
  rcases hw.reset with hr | hr
  · exact (getWordsIterator_sim hw _).bind fun wi => (hs _).bind fun ss =>
      (Sim.lift ε J S _).bind fun seps => renderAll_sim hw _ wi seps (Or.inl hr)
  · refine (getWordsIterator_sim hw total).bind_at fun wi s t s1 t1 hst h1 => ?_
    have hd : wi.isDrawn := getWordsIterator_isDrawn (fun r t' e => hr s r t' e t hst) h1
    exact ((hs (some (.int (total - number)))).bind fun ss =>
        (Sim.lift ε J S ss.elems).bind fun seps => renderAll_sim hw ns wi seps (Or.inr hd)) s1 t1

theorem call_sim (hw : WordSim ε J S w w') {nw sp : Child σ} {nw' sp' : Child τ}
    (hn : ChildSim ε J S nw nw') (hs : ChildSim ε J S sp sp') :
    ChildSim ε J S (call nw w sp) (call nw' w' sp') := by
  refine emitterCallOr_sim (Word.emitBad_sim hn) ?_ (emitMany_sim hw hn hs)
  exact (emitMany_sim hw hn hs 1).bind fun _ => Sim.lift ε J S _

end Text

/-! ### Wrappers -/

/-- Running a computation on the attribute behaves the same in related states. -/
def AttrSim (ε : Err) (J : σ → Prop) (S : σ → τ → Prop) (L : Attr σ G) (L' : Attr τ G) : Prop :=
  ∀ m : PyM G Val, Sim ε J S (L.run m) (L'.run m)

theorem mapPyM_sim {α α' β : Type} {f : α → PyM σ β} {f' : α' → PyM τ β} {l : List α} {l' : List α'}
    (h : List.Forall₂ (fun a a' => Sim ε J S (f a) (f' a')) l l') :
    Sim ε J S (mapPyM f l) (mapPyM f' l') := by
  induction h with
  | nil => exact Sim.pure ε J S _
  | cons h1 _ ih => exact h1.bind fun _ => ih.bind fun _ => Sim.pure ε J S _

theorem mapPyM_sim_same {α β : Type} {f : α → PyM σ β} {f' : α → PyM τ β} (l : List α)
    (h : ∀ a ∈ l, Sim ε J S (f a) (f' a)) : Sim ε J S (mapPyM f l) (mapPyM f' l) := by
  refine mapPyM_sim ?_
  induction l with
  | nil => exact .nil
  | cons a as ih => exact .cons (h a (by simp)) (ih fun x hx => h x (by simp [hx]))

theorem Callback.call_sim {L : Attr σ G} {L' : Attr τ G} (hL : AttrSim ε J S L L') (cb : Callback G)
    (args : List Val) (kw : Dict Val) : Sim ε J S (cb.call L args kw) (cb.call L' args kw) :=
  Sim.ite (fun _ => Sim.raise ε J S _) (fun _ => Sim.ite (fun _ => hL _) (fun _ => Sim.lift ε J S _))

theorem WrapOne.call_sim {L : Attr σ G} {L' : Attr τ G} (hL : AttrSim ε J S L L') (cb : Callback G)
    {s : Child σ} {s' : Child τ} (hs : ChildSim ε J S s s') :
    ChildSim ε J S (WrapOne.call L s cb) (WrapOne.call L' s' cb) := by
  refine emitterCallOr_sim (Word.emitBad_sim hs) ?_ fun n => ?_
  · exact (hs _).bind fun v => Callback.call_sim hL cb _ _
  · exact (hs _).bind fun v => (Sim.lift ε J S _).bind fun l =>
      mapPyM_sim_same l fun _ _ => Callback.call_sim hL cb _ _

theorem WrapMany.draw_sim {ss : Dict (Child σ)} {ss' : Dict (Child τ)}
    (hs : List.Forall₂ (fun a b => a.1 = b.1 ∧ ChildSim ε J S a.2 b.2) ss ss') (arg : Option Val) :
    Sim ε J S (draw ss arg) (draw ss' arg) := by
  refine mapPyM_sim (hs.imp fun a b h => ?_)
  rw [h.1]
  exact (h.2 arg).bind fun _ => Sim.pure ε J S _

theorem WrapMany.call_sim {L : Attr σ G} {L' : Attr τ G} (hL : AttrSim ε J S L L') (cb : Callback G)
    {ss : Dict (Child σ)} {ss' : Dict (Child τ)}
    (hs : List.Forall₂ (fun a b => a.1 = b.1 ∧ ChildSim ε J S a.2 b.2) ss ss') :
    ChildSim ε J S (WrapMany.call L ss cb) (WrapMany.call L' ss' cb) := by
  refine emitterCallOr_sim (fun _ => (draw_sim hs _).bind fun _ => Sim.raise ε J S _) ?_ fun n => ?_
  · exact (draw_sim hs _).bind fun kw => Callback.call_sim hL cb _ _
  · exact (draw_sim hs _).bind fun em => mapPyM_sim_same _ fun _ _ =>
      (Sim.lift ε J S _).bind fun _ => Callback.call_sim hL cb _ _

/-! ### Fields as sources -/

theorem CopyFields.call_sim (str : Val → List Char) {g : SourceGroup σ} {g' : SourceGroup τ}
    (sep : Option (List Char)) (h : ∀ s t, S s t → GroupAt s t g g') :
    ChildSim ε J S (call str g sep) (call str g' sep) := by
  have he : Sim ε J S (emit str g sep) (emit str g' sep) := by
    intro s t hst
    obtain ⟨h1, h2, h3⟩ := emit_at (str := str) (sep := sep) (h s t hst)
    exact .inl ⟨h1, by rw [h2, h3]; exact hst⟩
  exact emitterCallOr_sim (fun _ => he.bind fun _ => Sim.raise ε J S _) he fun n => he.bind fun _ => Sim.pure ε J S _

theorem BasedOnFields.call_sim {L : Attr σ G} {L' : Attr τ G} (hL : AttrSim ε J S L L')
    (cb : Callback G) {g : SourceGroup σ} {g' : SourceGroup τ}
    (h : ∀ s t, S s t → GroupAt s t g g') :
    ChildSim ε J S (call L g cb) (call L' g' cb) := by
  have he : Sim ε J S (emit L g cb) (emit L' g' cb) := by
    refine Sim.get_bind fun s t hst => ?_
    have hf := (h s t hst).fields
    generalize g.fields = l at hf
    generalize g'.fields = l' at hf
    cases hf with
    | nil => exact Callback.call_sim hL cb _ _ s t hst
    | cons h1 h2 =>
      cases h2 with
      | nil =>
        dsimp only
        rw [h1.2.1]
        exact Callback.call_sim hL cb _ _ s t hst
      | cons h3 h4 =>
        dsimp only
        rw [GroupAt.kwargs (.cons h1 (.cons h3 h4))]
        exact Callback.call_sim hL cb _ _ s t hst
  exact emitterCallOr_sim (fun _ => he.bind fun _ => Sim.raise ε J S _) he fun n => he.bind fun _ => Sim.pure ε J S _

/-! ### Field, groups -/

theorem Field.call_sim {c : Attr σ Val} {c' : Attr τ Val}
    (hc : ∀ v, Sim ε J S (PyM.modify (c.set v)) (PyM.modify (c'.set v)))
    {e r g : Child σ} {e' r' g' : Child τ} (he : ChildSim ε J S e e') (hr : ChildSim ε J S r r')
    (hg : ChildSim ε J S g g') : Sim ε J S (call c e r g) (call c' e' r' g') :=
  (hg _).bind fun _ => Sim.ite
    (fun _ => (hr _).bind fun _ => (he _).bind fun v => (hc v).bind fun _ => Sim.pure ε J S _)
    (fun _ => (hc _).bind fun _ => Sim.pure ε J S _)

theorem Group.doMethod_sim (hε : ε ≠ .attributeError) {ι : Type} {l : List ι} {f : ι → PyM σ Unit} {f' : ι → PyM τ Unit}
    (h : ∀ i ∈ l, Sim ε J S (f i) (f' i)) :
    Sim ε J S (Group.doMethod (l.map some) f) (Group.doMethod (l.map some) f') := by
  refine Sim.forEach fun m hm => ?_
  obtain ⟨i, hi, rfl⟩ := List.mem_map.1 hm
  exact Sim.ignoring hε (h i hi)

theorem Group.setattr_sim {ι : Type} {l : List ι} {has : ι → σ → Bool} {has' : ι → τ → Bool}
    {f : ι → PyM σ Unit} {f' : ι → PyM τ Unit}
    (hh : ∀ i ∈ l, ∀ s t, S s t → has i s = has' i t) (h : ∀ i ∈ l, Sim ε J S (f i) (f' i)) :
    Sim ε J S (Group.setattr (l.map some) has f) (Group.setattr (l.map some) has' f') := by
  refine Sim.forEach fun m hm => ?_
  obtain ⟨i, hi, rfl⟩ := List.mem_map.1 hm
  refine Sim.get_bind fun s t hst => ?_
  rw [hh i hi s t hst]
  by_cases hb : has' i t = true
  · rw [if_pos hb, if_pos hb]; exact h i hi s t hst
  · rw [if_neg hb, if_neg hb]; exact .inl ⟨rfl, hst⟩

theorem Schema.loop_sim {ι : Type} {hide hide' : ι → Bool} {c : ι → PyM σ Val} {c' : ι → PyM τ Val} :
    ∀ (fields : Dict ι) (doc : Dict Val),
    (∀ kf ∈ fields, hide kf.2 = hide' kf.2 ∧ Sim ε J S (c kf.2) (c' kf.2)) →
    Sim ε J S (loop hide c doc fields) (loop hide' c' doc fields) := by
  intro fields
  induction fields with
  | nil => intro doc _; exact Sim.pure ε J S _
  | cons kf fs ih =>
    intro doc h
    obtain ⟨h1, h2⟩ := h kf (by simp)
    have ih' := fun doc => ih doc fun x hx => h x (by simp [hx])
    refine h2.bind fun v => ?_
    rw [h1]
    exact Sim.ite (fun _ => ih' _) (fun _ => ih' _)

end Fauxdoc
