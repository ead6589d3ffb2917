import Verif.Proofs.Classes
/-
C103: the mixins do their part in every class that is built from them.
-/
namespace Fauxdoc
namespace Cls
variable {α seed ρ ι κ υ : Type}

/-! ### Method resolution order -/

/-- **C103 (order).** The order in which the classes of a class are asked: each once, the class itself
first, `object` last; and every class in it comes with its own order, in that order. -/
theorem C103_order {classes : List (Name × List Name)} (hb : Based classes) {env : Classes}
    (h : defineAll builtins (library ++ classes) = .ok env) {c : Name} {l : List Name}
    (hc : env.mro c = some l) :
    l.head? = some c ∧ l.getLast? = some "object" ∧ l.Nodup ∧
      ∀ d ∈ l, ∃ l', env.mro d = some l' ∧ l'.Sublist l := by
  have hw : WF env := wf_defineAll wf_builtins (by
    intro k hk
    rcases List.mem_append.1 hk with hk | hk
    · exact (by decide : ∀ k ∈ library, k.2 ≠ []) k hk
    · exact hb k hk) h
  obtain ⟨t, ht⟩ := hw.head c l hc
  exact ⟨by rw [ht]; rfl, hw.last c l hc, hw.nodup c l hc, hw.known c l hc⟩

theorem defineAll_bases {env env' : Classes} {classes : List (Name × List Name)} {d : Name}
    {bases : List Name} (hd : (d, bases) ∈ classes) (h : defineAll env classes = .ok env') :
    ∃ l, env'.mro d = some (d :: l) ∧ bases.Sublist l := by
  induction classes generalizing env with
  | nil => cases hd
  | cons k classes ih =>
    unfold defineAll at h
    obtain ⟨e1, h1, h2⟩ := Py.bind_eq_ok h
    rcases List.mem_cons.1 hd with e | hd
    · subst e
      obtain ⟨mros, l, _, _, _, hl, rfl⟩ := define_spec h1
      exact ⟨l, mro_defineAll h2 (by rw [mro_cons, if_pos rfl]), sublist_merge hl _ (by simp)⟩
    · exact ih hd h2

/-- **C103 (order of bases).** If a class statement lists one base before another, so does the order of
every class derived from it. -/
theorem C103_bases {classes : List (Name × List Name)} (hb : Based classes) {env : Classes}
    (h : defineAll builtins (library ++ classes) = .ok env) {c d : Name} {l bases : List Name}
    (hc : env.mro c = some l) (hdl : d ∈ l) (hd : (d, bases) ∈ library ++ classes) :
    (d :: bases).Sublist l := by
  obtain ⟨l', h1, h2⟩ := (C103_order hb h hc).2.2.2 d hdl
  obtain ⟨l'', h3, h4⟩ := defineAll_bases hd h
  rw [h1] at h3
  cases h3
  exact (h4.cons_cons d).trans h2

/-! ### Chains of `super()` -/

/-- **C103 (refused).** A class statement with known bases and a new name is refused, by a TypeError,
exactly if there is no order of the ancestors that keeps the order of each base's ancestors and that
of the bases. -/
theorem C103_refused {env : Classes} {name : Name} {bases : List Name} (hname : env.mro name = none)
    {mros : List (List Name)} (hb : bases.mapM env.mro = some mros) :
    (define env name bases = .error .typeError ↔
      ¬ ∃ l : List Name, l.Nodup ∧ bases.Sublist l ∧ ∀ m ∈ mros, m.Sublist l) ∧
    (define env name bases = .error .typeError ∨
      ∃ l, define env name bases = .ok ((name, name :: l) :: env)) := by
  unfold define
  rw [hb]
  dsimp only
  rw [hname, if_neg (by simp)]
  by_cases hn : bases.Nodup
  · rw [if_neg (not_not.2 hn)]
    cases hm : merge ((mros ++ [bases]).map List.length).sum (mros ++ [bases]) with
    | none =>
      refine ⟨⟨fun _ => ?_, fun _ => rfl⟩, .inl rfl⟩
      rintro ⟨l, h1, h2, h3⟩
      have := merge_complete (ls := mros ++ [bases]) (le_refl _) h1 (by
        intro k hk
        rcases List.mem_append.1 hk with hk | hk
        · exact h3 k hk
        · rw [List.mem_singleton] at hk; subst hk; exact h2)
      rw [hm] at this
      cases this
    | some l =>
      refine ⟨⟨fun h => (by cases h), fun h => absurd ⟨l, nodup_merge hm, ?_, fun m hm' => ?_⟩ h⟩, .inr ⟨l, rfl⟩⟩
      · exact sublist_merge hm _ (by simp)
      · exact sublist_merge hm _ (by simp [hm'])
  · rw [if_pos hn]
    exact ⟨⟨fun _ ⟨l, h1, h2, _⟩ => hn (h1.sublist h2), fun _ => rfl⟩, .inl rfl⟩

/-- `class X(object, Emitter)` and `class X(Emitter, Emitter)` are refused. -/
example : ((defineAll builtins library).bind fun env => define env "X" ["object", "Emitter"]) =
    .error .typeError := by decide +kernel
example : ((defineAll builtins library).bind fun env => define env "X" ["Emitter", "Emitter"]) =
    .error .typeError := by decide +kernel

/-- **C103 (no method).** A method that no class of the order has is an AttributeError, and nothing
happens. -/
theorem C103_no_method {σ α : Type} (impl : Name → Option (Body σ α)) {l : List Name}
    (h : ∀ c ∈ l, impl c = none) (a : α) (s : σ) : call impl l a s = (.error .attributeError, s) := by
  induction l with
  | nil => rfl
  | cons c l ih =>
    rw [call, h c List.mem_cons_self]
    exact ih fun d hd => h d (List.mem_cons_of_mem _ hd)

theorem reached_subset (stops : Name → Bool) (l : List Name) : ∀ c ∈ reached stops l, c ∈ l := by
  induction l with
  | nil => simp [reached]
  | cons a l ih =>
    intro c hc
    unfold reached at hc
    by_cases h : stops a = true
    · rw [if_pos h, List.mem_singleton] at hc
      subst hc
      exact List.mem_cons_self
    · rw [if_neg h] at hc
      rcases List.mem_cons.1 hc with e | e
      · subst e; exact List.mem_cons_self
      · exact List.mem_cons_of_mem _ (ih c e)

theorem through_cons (user : Name → User α υ) (a : α) (c : Name) (r : List Name) (u : υ) :
    through user a (c :: r) u = (theirs user c).late a (through user a r ((theirs user c).early a u)) := rfl

theorem theirs_given (user : Name → User α υ) {c : Name} (h : c ∈ given) : theirs user c = .inherited := by
  unfold theirs; rw [if_pos h]

theorem theirs_user (user : Name → User α υ) {c : Name} (h : c ∉ given) : theirs user c = user c := by
  unfold theirs; rw [if_neg h]

/-- Each class whose method calls `super()` without asking is followed by one that has the method. -/
def Follows (user : Name → User α υ) (defines : Name → Bool) (l : List Name) : Prop :=
  ∀ a d b before after, l = a ++ d :: b → theirs user d = .passesOn before after → b.any defines = true

theorem Follows.tail {user : Name → User α υ} {defines : Name → Bool} {c : Name} {l : List Name}
    (h : Follows user defines (c :: l)) : Follows user defines l :=
  fun a d b before after e hd => h (c :: a) d b before after (by rw [e]; rfl) hd

/-- After `RandomWithChildrenMixin` come the two mixins it consists of. -/
def Mixed (l : List Name) : Prop :=
  ∀ a b, l = a ++ "RandomWithChildrenMixin" :: b → "RandomMixin" ∈ b ∧ "ChildrenMixin" ∈ b

theorem Mixed.tail {c : Name} {l : List Name} (h : Mixed (c :: l)) : Mixed l :=
  fun a b e => h (c :: a) b (by rw [e]; rfl)

theorem Mixed.mem {l : List Name} (h : Mixed l) (hm : "RandomWithChildrenMixin" ∈ l) :
    "RandomMixin" ∈ l ∧ "ChildrenMixin" ∈ l := by
  obtain ⟨a, b, rfl⟩ := List.append_of_mem hm
  obtain ⟨h1, h2⟩ := h a b rfl
  simp [h1, h2]

section reset
variable (p : Parts seed ρ κ) (user : Name → User Unit υ)

/-- The method if there is one. -/
def callIfAny {σ : Type} (impl : Name → Option (Body σ α)) (l : List Name) (a : α) : PyM σ Unit :=
  if has impl l then call impl l a else pure ()

theorem callIfAny_none {σ : Type} {impl : Name → Option (Body σ α)} {c : Name} (h : impl c = none)
    (l : List Name) (a : α) : callIfAny impl (c :: l) a = callIfAny impl l a := by
  unfold callIfAny has
  rw [call, h]
  simp [h]

theorem callIfAny_some {σ : Type} {impl : Name → Option (Body σ α)} {c : Name} {b : Body σ α}
    (h : impl c = some b) (l : List Name) (a : α) :
    callIfAny impl (c :: l) a = b (has impl l) (call impl l) a := by
  unfold callIfAny
  have : has impl (c :: l) = true := by unfold has; simp [h]
  rw [this, if_pos rfl, call, h]

theorem callIfAny_has {σ : Type} {impl : Name → Option (Body σ α)} {l : List Name} (h : has impl l = true)
    (a : α) : callIfAny impl l a = call impl l a := by
  unfold callIfAny; rw [h, if_pos rfl]

theorem attr_ok {β : Type} {f : Inst seed ρ ι κ υ → Option β} {i : Inst seed ρ ι κ υ} {b : β}
    (h : f i = some b) : attr f i = (.ok b, i) := by
  unfold attr; rw [h]

theorem resetBody_user {c : Name} (h : c ∉ given) :
    (resetBody p user c : Option (Body (Inst seed ρ ι κ υ) Unit)) = (user c).body := by
  simp only [given, List.mem_cons, List.not_mem_nil, or_false, not_or] at h
  unfold resetBody
  simp [h]

theorem body_isSome (x : User α υ) :
    (x.body : Option (Body (Inst seed ρ ι κ υ) α)).isSome = x.defines := by
  cases x <;> rfl

theorem resetBody_isSome (c : Name) :
    (resetBody p user c : Option (Body (Inst seed ρ ι κ υ) Unit)).isSome = definesReset user c := by
  by_cases h : c ∈ given
  · unfold definesReset
    rw [theirs_given user h]
    revert h
    simp only [given, List.mem_cons, List.not_mem_nil, or_false]
    rintro (rfl | rfl | rfl | rfl | rfl | rfl | rfl | rfl) <;> simp [resetBody, User.defines]
  · rw [resetBody_user p user h, body_isSome]
    unfold definesReset
    rw [theirs_user user h]
    simp only [given, List.mem_cons, List.not_mem_nil, or_false, not_or] at h
    simp [h]

theorem has_reset (l : List Name) :
    has (resetBody p user : Name → Option (Body (Inst seed ρ ι κ υ) Unit)) l = l.any (definesReset user) := by
  unfold has
  simp only [resetBody_isSome]

theorem afterReset_other {c : Name} (h1 : c ≠ "RandomMixin") (h2 : c ≠ "ChildrenMixin")
    (h3 : c ≠ "RandomWithChildrenMixin") (r : List Name) (u : υ) (i : Inst seed ρ ι κ υ) :
    afterReset p (c :: r) u i = afterReset p r u i := by
  unfold afterReset
  simp [h1.symm, h2.symm, h3.symm]

theorem afterReset_user (r : List Name) (u u' : υ) (i : Inst seed ρ ι κ υ) :
    afterReset p r u { i with user := u' } = afterReset p r u i := rfl

theorem afterReset_nil (i : Inst seed ρ ι κ υ) : afterReset p [] i.user i = i := by
  simp [afterReset]

theorem afterReset_set (r : List Name) (u u' : υ) (i : Inst seed ρ ι κ υ) :
    { afterReset p r u i with user := u' } = afterReset p r u' i := rfl

/-- `reset` along the order. -/
theorem reset_chain (l : List Name) (hn : l.Nodup) (hm : Mixed l) (hf : Follows user (definesReset user) l)
    (i : Inst seed ρ ι κ υ) (hs : "RandomMixin" ∈ l → i.rngSeed.isSome)
    (hk : "ChildrenMixin" ∈ l → i.children.isSome) :
    callIfAny (resetBody p user) l () i =
      (.ok (), afterReset p (reached (stopsReset user) l)
        (through user () (reached (stopsReset user) l) i.user) i) := by
  induction l generalizing i with
  | nil => exact Prod.ext rfl (afterReset_nil p i).symm
  | cons c l ih =>
    have hnl := (List.nodup_cons.1 hn).1
    have ih' := ih (List.nodup_cons.1 hn).2 hm.tail hf.tail
    have hsub := reached_subset (stopsReset user) l
    by_cases hg : c ∈ given
    · have ht := theirs_given user hg
      by_cases he : c = "Emitter"
      · subst he
        rw [callIfAny_some (b := fun _ _ _ => pure ()) rfl]
        refine Prod.ext rfl ?_
        have : reached (stopsReset user) ("Emitter" :: l) = ["Emitter"] := by
          simp [reached, stopsReset]
        rw [this, through_cons, ht, afterReset_other p (by decide) (by decide) (by decide)]
        exact (afterReset_nil p i).symm
      · have hst : stopsReset user c = false := by
          unfold stopsReset
          rw [ht]
          simp [he, User.stopsHere]
        have hr : reached (stopsReset user) (c :: l) = c :: reached (stopsReset user) l := by
          rw [reached, hst]; rfl
        rw [hr, through_cons, ht]
        change _ = (Except.ok (), afterReset p (c :: reached (stopsReset user) l)
          (through user () (reached (stopsReset user) l) i.user) i)
        by_cases h1 : c = "RandomMixin"
        · subst h1
          obtain ⟨s, hs'⟩ := Option.isSome_iff_exists.1 (hs List.mem_cons_self)
          rw [callIfAny_some (by rfl), PyM.bind_ok (attr_ok hs'), PyM.run_modify_bind]
          change callIfAny (resetBody p user) l () { i with rng := some (p.random s) } = _
          refine (ih' { i with rng := some (p.random s) } (fun h => absurd h hnl) fun h => hk (List.mem_cons_of_mem _ h)).trans (Prod.ext rfl ?_)
          have : "RandomMixin" ∉ reached (stopsReset user) l := fun h => hnl (hsub _ h)
          unfold afterReset
          simp [this, hs']
        · by_cases h2 : c = "ChildrenMixin"
          · subst h2
            obtain ⟨ks, hk'⟩ := Option.isSome_iff_exists.1 (hk List.mem_cons_self)
            rw [callIfAny_some (by rfl), PyM.bind_ok (attr_ok hk'), PyM.run_modify_bind]
            change callIfAny (resetBody p user) l () { i with children := some (ks.map p.reset) } = _
            refine (ih' { i with children := some (ks.map p.reset) }
              (fun h => hs (List.mem_cons_of_mem _ h)) fun h => absurd h hnl).trans (Prod.ext rfl ?_)
            have h3 : "ChildrenMixin" ∉ reached (stopsReset user) l := fun h => hnl (hsub _ h)
            have h4 : "RandomWithChildrenMixin" ∉ reached (stopsReset user) l :=
              fun h => hnl (hm.tail.mem (hsub _ h)).2
            unfold afterReset
            simp [h3, h4, hk']
          · by_cases h3 : c = "RandomWithChildrenMixin"
            · subst h3
              obtain ⟨m1, m2⟩ := hm [] l rfl
              obtain ⟨s, hs'⟩ := Option.isSome_iff_exists.1 (hs (List.mem_cons_of_mem _ m1))
              obtain ⟨ks, hk'⟩ := Option.isSome_iff_exists.1 (hk (List.mem_cons_of_mem _ m2))
              rw [callIfAny_some (by rfl), PyM.bind_ok (attr_ok hk'), PyM.bind_ok (attr_ok hs'),
                PyM.run_modify_bind, ← callIfAny_has]
              · refine (ih' { i with children := some (ks.map (p.setSeed s)) }
                  (fun h => hs (List.mem_cons_of_mem _ h)) fun _ => rfl).trans (Prod.ext rfl ?_)
                have h4 : "RandomWithChildrenMixin" ∉ reached (stopsReset user) l := fun h => hnl (hsub _ h)
                unfold afterReset
                simp [h4, hk', hs']
              · rw [has_reset]
                exact List.any_eq_true.2 ⟨_, m1, by simp [definesReset]⟩
            · have hb : (resetBody p user c : Option (Body (Inst seed ρ ι κ υ) Unit)) = none := by
                revert hg
                simp only [given, List.mem_cons, List.not_mem_nil, or_false]
                rintro (rfl | rfl | rfl | rfl | rfl | rfl | rfl | rfl)
                · rfl
                · rfl
                · rfl
                · exact absurd rfl he
                · exact absurd rfl h1
                · rfl
                · exact absurd rfl h2
                · exact absurd rfl h3
              rw [callIfAny_none hb, ih' _ (fun h => hs (List.mem_cons_of_mem _ h))
                fun h => hk (List.mem_cons_of_mem _ h), afterReset_other p h1 h2 h3]
    · have hb := resetBody_user (ι := ι) p user hg
      have ht := theirs_user user hg
      have hg' := hg
      simp only [given, List.mem_cons, List.not_mem_nil, or_false, not_or] at hg'
      obtain ⟨-, -, -, g4, g5, -, g7, g8⟩ := hg'
      cases hu : user c with
      | inherited =>
        rw [hu] at hb ht
        have hst : stopsReset user c = false := by
          unfold stopsReset; rw [ht]; simp [g4, User.stopsHere]
        have hr : reached (stopsReset user) (c :: l) = c :: reached (stopsReset user) l := by
          rw [reached, hst]; rfl
        rw [hr, through_cons, ht, callIfAny_none hb, ih' _ (fun h => hs (List.mem_cons_of_mem _ h))
          fun h => hk (List.mem_cons_of_mem _ h), afterReset_other p g5 g7 g8]
        rfl
      | stops act =>
        rw [hu] at hb ht
        have hst : stopsReset user c = true := by
          unfold stopsReset; rw [ht]; simp [User.stopsHere]
        have hr : reached (stopsReset user) (c :: l) = [c] := by
          rw [reached, hst]; rfl
        rw [hr, through_cons, ht, callIfAny_some hb, afterReset_other p g5 g7 g8]
        refine Prod.ext rfl ?_
        simp [afterReset, through, User.late, User.early]
      | passesOn before after =>
        rw [hu] at hb ht
        have hst : stopsReset user c = false := by
          unfold stopsReset; rw [ht]; simp [g4, User.stopsHere]
        have hr : reached (stopsReset user) (c :: l) = c :: reached (stopsReset user) l := by
          rw [reached, hst]; rfl
        have hh : has (resetBody p user : Name → Option (Body (Inst seed ρ ι κ υ) Unit)) l = true := by
          rw [has_reset]; exact hf [] c l before after rfl ht
        rw [hr, through_cons, ht, callIfAny_some hb, afterReset_other p g5 g7 g8, PyM.run_modify_bind,
          ← callIfAny_has hh, PyM.bind_ok (ih' { i with user := before () i.user } (fun h => hs (List.mem_cons_of_mem _ h))
          fun h => hk (List.mem_cons_of_mem _ h))]
        rfl
      | passesOnIfAny before after =>
        rw [hu] at hb ht
        have hst : stopsReset user c = false := by
          unfold stopsReset; rw [ht]; simp [g4, User.stopsHere]
        have hr : reached (stopsReset user) (c :: l) = c :: reached (stopsReset user) l := by
          rw [reached, hst]; rfl
        rw [hr, through_cons, ht, callIfAny_some hb, afterReset_other p g5 g7 g8, PyM.run_modify_bind]
        change (callIfAny (resetBody p user) l () >>= _) _ = _
        rw [PyM.bind_ok (ih' { i with user := before () i.user } (fun h => hs (List.mem_cons_of_mem _ h))
          fun h => hk (List.mem_cons_of_mem _ h))]
        rfl

end reset

section seed
variable (p : Parts seed ρ κ) (user : Name → User seed υ)

theorem seedBody_user {c : Name} (h : c ∉ given) :
    (seedBody p user c : Option (Body (Inst seed ρ ι κ υ) seed)) = (user c).body := by
  simp only [given, List.mem_cons, List.not_mem_nil, or_false, not_or] at h
  unfold seedBody
  simp [h]

theorem seedBody_isSome (c : Name) :
    (seedBody p user c : Option (Body (Inst seed ρ ι κ υ) seed)).isSome = definesSeed user c := by
  by_cases h : c ∈ given
  · unfold definesSeed
    rw [theirs_given user h]
    revert h
    simp only [given, List.mem_cons, List.not_mem_nil, or_false]
    rintro (rfl | rfl | rfl | rfl | rfl | rfl | rfl | rfl) <;> simp [seedBody, User.defines]
  · rw [seedBody_user p user h, body_isSome]
    unfold definesSeed
    rw [theirs_user user h]
    simp only [given, List.mem_cons, List.not_mem_nil, or_false, not_or] at h
    simp [h]

theorem has_seed (l : List Name) :
    has (seedBody p user : Name → Option (Body (Inst seed ρ ι κ υ) seed)) l = l.any (definesSeed user) := by
  unfold has
  simp only [seedBody_isSome]

theorem afterSeed_other {c : Name} (h1 : c ≠ "RandomMixin") (h3 : c ≠ "RandomWithChildrenMixin")
    (r : List Name) (s : seed) (u : υ) (i : Inst seed ρ ι κ υ) :
    afterSeed p (c :: r) s u i = afterSeed p r s u i := by
  unfold afterSeed
  simp [h1.symm, h3.symm]

theorem afterSeed_nil (s : seed) (i : Inst seed ρ ι κ υ) : afterSeed p [] s i.user i = i := by
  simp [afterSeed]

/-- `seed` along the order. -/
theorem seed_chain (s : seed) (l : List Name) (hn : l.Nodup) (hm : Mixed l)
    (hf : Follows user (definesSeed user) l) (i : Inst seed ρ ι κ υ)
    (hs : "RandomMixin" ∈ l → i.rng.isSome) (hk : "RandomWithChildrenMixin" ∈ l → i.children.isSome) :
    callIfAny (seedBody p user) l s i =
      (.ok (), afterSeed p (reached (stopsSeed user) l) s
        (through user s (reached (stopsSeed user) l) i.user) i) := by
  induction l generalizing i with
  | nil => exact Prod.ext rfl (afterSeed_nil p s i).symm
  | cons c l ih =>
    have hnl := (List.nodup_cons.1 hn).1
    have ih' := ih (List.nodup_cons.1 hn).2 hm.tail hf.tail
    have hsub := reached_subset (stopsSeed user) l
    by_cases hg : c ∈ given
    · have ht := theirs_given user hg
      have hst : stopsSeed user c = false := by
        unfold stopsSeed
        rw [ht]
        rfl
      have hr : reached (stopsSeed user) (c :: l) = c :: reached (stopsSeed user) l := by
        rw [reached, hst]; rfl
      rw [hr, through_cons, ht]
      change _ = (Except.ok (), afterSeed p (c :: reached (stopsSeed user) l) s
        (through user s (reached (stopsSeed user) l) i.user) i)
      by_cases h1 : c = "RandomMixin"
      · subst h1
        obtain ⟨g, hs'⟩ := Option.isSome_iff_exists.1 (hs List.mem_cons_self)
        have hs2 : Inst.rng { i with rngSeed := some s } = some g := hs'
        rw [callIfAny_some (by rfl), PyM.run_modify_bind, PyM.bind_ok (attr_ok hs2), PyM.run_modify_bind]
        change callIfAny (seedBody p user) l s { i with rngSeed := some s, rng := some (p.reseed s g) } = _
        refine (ih' { i with rngSeed := some s, rng := some (p.reseed s g) } (fun h => absurd h hnl)
          fun h => hk (List.mem_cons_of_mem _ h)).trans (Prod.ext rfl ?_)
        have : "RandomMixin" ∉ reached (stopsSeed user) l := fun h => hnl (hsub _ h)
        unfold afterSeed
        simp [this, hs']
      · by_cases h3 : c = "RandomWithChildrenMixin"
        · subst h3
          obtain ⟨m1, m2⟩ := hm [] l rfl
          obtain ⟨ks, hk'⟩ := Option.isSome_iff_exists.1 (hk List.mem_cons_self)
          rw [callIfAny_some (by rfl), PyM.bind_ok (attr_ok hk'), PyM.run_modify_bind, ← callIfAny_has]
          · unfold PyM.ignoring
            rw [ih' { i with children := some (ks.map (p.seed s)) } (fun h => hs (List.mem_cons_of_mem _ h))
              fun _ => rfl]
            refine Prod.ext rfl ?_
            have h4 : "RandomWithChildrenMixin" ∉ reached (stopsSeed user) l := fun h => hnl (hsub _ h)
            dsimp only
            unfold afterSeed
            simp [h4, hk']
          · rw [has_seed]
            exact List.any_eq_true.2 ⟨_, m1, by simp [definesSeed]⟩
        · have hb : (seedBody p user c : Option (Body (Inst seed ρ ι κ υ) seed)) = none := by
            revert hg
            simp only [given, List.mem_cons, List.not_mem_nil, or_false]
            rintro (rfl | rfl | rfl | rfl | rfl | rfl | rfl | rfl)
            · rfl
            · rfl
            · rfl
            · rfl
            · exact absurd rfl h1
            · rfl
            · rfl
            · exact absurd rfl h3
          rw [callIfAny_none hb, ih' _ (fun h => hs (List.mem_cons_of_mem _ h))
            fun h => hk (List.mem_cons_of_mem _ h), afterSeed_other p h1 h3]
    · have hb := seedBody_user (ι := ι) p user hg
      have ht := theirs_user user hg
      have hg' := hg
      simp only [given, List.mem_cons, List.not_mem_nil, or_false, not_or] at hg'
      obtain ⟨-, -, -, g4, g5, -, g7, g8⟩ := hg'
      cases hu : user c with
      | inherited =>
        rw [hu] at hb ht
        have hst : stopsSeed user c = false := by unfold stopsSeed; rw [ht]; rfl
        have hr : reached (stopsSeed user) (c :: l) = c :: reached (stopsSeed user) l := by
          rw [reached, hst]; rfl
        rw [hr, through_cons, ht, callIfAny_none hb, ih' _ (fun h => hs (List.mem_cons_of_mem _ h))
          fun h => hk (List.mem_cons_of_mem _ h), afterSeed_other p g5 g8]
        rfl
      | stops act =>
        rw [hu] at hb ht
        have hst : stopsSeed user c = true := by unfold stopsSeed; rw [ht]; rfl
        have hr : reached (stopsSeed user) (c :: l) = [c] := by
          rw [reached, hst]; rfl
        rw [hr, through_cons, ht, callIfAny_some hb, afterSeed_other p g5 g8]
        refine Prod.ext rfl ?_
        simp [afterSeed, through, User.late, User.early]
      | passesOn before after =>
        rw [hu] at hb ht
        have hst : stopsSeed user c = false := by unfold stopsSeed; rw [ht]; rfl
        have hr : reached (stopsSeed user) (c :: l) = c :: reached (stopsSeed user) l := by
          rw [reached, hst]; rfl
        have hh : has (seedBody p user : Name → Option (Body (Inst seed ρ ι κ υ) seed)) l = true := by
          rw [has_seed]; exact hf [] c l before after rfl ht
        rw [hr, through_cons, ht, callIfAny_some hb, afterSeed_other p g5 g8, PyM.run_modify_bind,
          ← callIfAny_has hh, PyM.bind_ok (ih' { i with user := before s i.user }
          (fun h => hs (List.mem_cons_of_mem _ h)) fun h => hk (List.mem_cons_of_mem _ h))]
        rfl
      | passesOnIfAny before after =>
        rw [hu] at hb ht
        have hst : stopsSeed user c = false := by unfold stopsSeed; rw [ht]; rfl
        have hr : reached (stopsSeed user) (c :: l) = c :: reached (stopsSeed user) l := by
          rw [reached, hst]; rfl
        rw [hr, through_cons, ht, callIfAny_some hb, afterSeed_other p g5 g8, PyM.run_modify_bind]
        change (callIfAny (seedBody p user) l s >>= _) _ = _
        rw [PyM.bind_ok (ih' { i with user := before s i.user } (fun h => hs (List.mem_cons_of_mem _ h))
          fun h => hk (List.mem_cons_of_mem _ h))]
        rfl

end seed

section init
variable (p : Parts seed ρ κ) (user : Name → UserInit seed ι κ υ)

/-- The attributes that the mixins among these classes set. -/
def setFrom (l : List Name) (kw : Kw seed ι κ) (i : Inst seed ρ ι κ υ) : Inst seed ρ ι κ υ where
  rngSeed := if "RandomMixin" ∈ l then some (kw.rngSeed.getD p.noSeed) else i.rngSeed
  rng := i.rng
  items := if "ItemsMixin" ∈ l then some (kw.items.getD []) else i.items
  children := if "ChildrenMixin" ∈ l then some (kw.children.getD []) else i.children
  user := i.user

/-- After `__init__` of these classes, of which `RandomMixin` calls `reset`. -/
def afterInit (r l : List Name) (kw : Kw seed ι κ) (u : υ) (i : Inst seed ρ ι κ υ) : Inst seed ρ ι κ υ :=
  if "RandomMixin" ∈ l then afterReset p r u (setFrom p l kw i) else { setFrom p l kw i with user := u }

theorem initBody_user (again : PyM (Inst seed ρ ι κ υ) Unit) {c : Name} (h : c ∉ given) :
    initBody p user again c = (match user c with
      | .inherited => none
      | .passesOn before args after => some fun _ supr kw => do
        PyM.modify fun i => { i with user := before i.user }
        supr (args kw)
        PyM.modify fun i => { i with user := after i.user }) := by
  simp only [given, List.mem_cons, List.not_mem_nil, or_false, not_or] at h
  unfold initBody
  simp only [h, if_false, false_or]
  cases user c <;> rfl

theorem afterInit_other {c : Name} (h1 : c ≠ "RandomMixin") (h2 : c ≠ "ItemsMixin") (h3 : c ≠ "ChildrenMixin")
    (r l : List Name) (kw : Kw seed ι κ) (u : υ) (i : Inst seed ρ ι κ υ) :
    afterInit p r (c :: l) kw u i = afterInit p r l kw u i := by
  unfold afterInit setFrom
  simp [h1.symm, h2.symm, h3.symm]

theorem afterInit_user (r l : List Name) (kw : Kw seed ι κ) (u u' : υ) (i : Inst seed ρ ι κ υ) :
    afterInit p r l kw u { i with user := u' } = afterInit p r l kw u i := by
  unfold afterInit
  split <;> rfl

theorem afterInit_set (r l : List Name) (kw : Kw seed ι κ) (u u' : υ) (i : Inst seed ρ ι κ υ) :
    { afterInit p r l kw u i with user := u' } = afterInit p r l kw u' i := by
  unfold afterInit
  split <;> rfl

theorem fits_other {c : Name} (h1 : c ≠ "RandomMixin") (h2 : c ≠ "ItemsMixin") (h3 : c ≠ "ChildrenMixin")
    (l : List Name) (kw : Kw seed ι κ) : kw.Fits (c :: l) ↔ kw.Fits l := by
  unfold Kw.Fits
  simp [h1.symm, h2.symm, h3.symm]

theorem last_tail {c : Name} {l : List Name} (hn : (c :: l).Nodup) (hl : (c :: l).getLast? = some "object") :
    (c = "object" ∧ l = []) ∨ (c ≠ "object" ∧ l.getLast? = some "object") := by
  cases l with
  | nil => simp at hl; exact .inl ⟨hl, rfl⟩
  | cons d l =>
    rw [List.getLast?_cons_cons] at hl
    refine .inr ⟨?_, hl⟩
    rintro rfl
    exact (List.nodup_cons.1 hn).1 (List.mem_of_getLast? hl)

/-- `__init__` along the order. -/
theorem init_chain (r mro : List Name) (again : PyM (Inst seed ρ ι κ υ) Unit)
    (l : List Name) (hag : "RandomMixin" ∈ l → ∀ i, i.rngSeed.isSome →
      ("ChildrenMixin" ∈ mro → i.children.isSome) → ∃ u, again i = (.ok (), afterReset p r u i)) (hn : l.Nodup)
    (hl : l.getLast? = some "object") (ha : ∀ c ∈ l, theirArgs user c = id) (kw : Kw seed ι κ)
    (i : Inst seed ρ ι κ υ)
    (hk : "RandomMixin" ∈ l → "ChildrenMixin" ∈ mro → "ChildrenMixin" ∈ l ∨ i.children.isSome) :
    (kw.Fits l → ∃ u, call (initBody p user again) l kw i = (.ok (), afterInit p r l kw u i)) ∧
      (¬ kw.Fits l → (call (initBody p user again) l kw i).1 = .error .typeError) := by
  induction l generalizing kw i with
  | nil => cases hl
  | cons c l ih =>
    have hnl := (List.nodup_cons.1 hn).1
    rcases last_tail hn hl with ⟨rfl, rfl⟩ | ⟨hco, hl'⟩
    · have e : call (initBody p user again) ["object"] kw i =
          if kw.rngSeed.isNone ∧ kw.items.isNone ∧ kw.children.isNone ∧ kw.other = [] then (.ok (), i)
          else (.error .typeError, i) := by
        rw [call]
        have : initBody p user again "object" = some fun _ _ kw =>
          if kw.rngSeed.isNone ∧ kw.items.isNone ∧ kw.children.isNone ∧ kw.other = [] then pure ()
          else PyM.raise .typeError := rfl
        rw [this]
        dsimp only
        split <;> rfl
      have hf : kw.Fits ["object"] ↔
          (kw.rngSeed.isNone ∧ kw.items.isNone ∧ kw.children.isNone ∧ kw.other = []) := by
        unfold Kw.Fits
        simp
      rw [e, hf]
      constructor
      · intro h
        rw [if_pos h]
        refine ⟨i.user, ?_⟩
        simp [afterInit, setFrom]
      · intro h
        rw [if_neg h]
    · have ih' := ih (fun h => hag (List.mem_cons_of_mem _ h)) (List.nodup_cons.1 hn).2 hl' fun c hc => ha c (List.mem_cons_of_mem _ hc)
      by_cases hg : c ∈ given
      · by_cases h1 : c = "RandomMixin"
        · subst h1
          have e : call (initBody p user again) ("RandomMixin" :: l) kw i =
              (call (initBody p user again) l { kw with rngSeed := none } >>= fun _ => again)
                { i with rngSeed := some (kw.rngSeed.getD p.noSeed) } := rfl
          obtain ⟨a1, a2⟩ := ih' { kw with rngSeed := none }
            { i with rngSeed := some (kw.rngSeed.getD p.noSeed) } fun h => absurd h hnl
          have hf : kw.Fits ("RandomMixin" :: l) ↔ Kw.Fits (seed := seed) (ι := ι) (κ := κ) { kw with rngSeed := none } l := by
            unfold Kw.Fits
            simp
          rw [e, hf]
          constructor
          · intro h
            obtain ⟨u, hu⟩ := a1 h
            rw [PyM.bind_ok hu]
            have e2 : afterInit p r l { kw with rngSeed := none } u
                { i with rngSeed := some (kw.rngSeed.getD p.noSeed) } =
                { setFrom p ("RandomMixin" :: l) kw i with user := u } := by
              unfold afterInit setFrom
              simp [hnl]
            rw [e2]
            obtain ⟨u', hu'⟩ := hag List.mem_cons_self { setFrom p ("RandomMixin" :: l) kw i with user := u }
              (by simp [setFrom]) (by
                intro hcm
                rcases hk List.mem_cons_self hcm with h' | h'
                · simp only [setFrom, h', if_true]; rfl
                · simp only [setFrom]; split <;> simp [h'])
            refine ⟨u', ?_⟩
            rw [hu']
            unfold afterInit
            rw [if_pos List.mem_cons_self]
            rfl
          · intro h
            generalize hq : call (initBody p user again) l { kw with rngSeed := none }
                { i with rngSeed := some (kw.rngSeed.getD p.noSeed) } = q
            have := a2 h
            rw [hq] at this
            obtain ⟨q1, q2⟩ := q
            cases this
            rw [PyM.bind_err hq]
        · by_cases h2 : c = "ItemsMixin"
          · subst h2
            have e : call (initBody p user again) ("ItemsMixin" :: l) kw i =
                call (initBody p user again) l { kw with items := none }
                  { i with items := some (kw.items.getD []) } := rfl
            obtain ⟨a1, a2⟩ := ih' { kw with items := none } { i with items := some (kw.items.getD []) } (by
              intro h h'
              rcases hk (List.mem_cons_of_mem _ h) h' with h' | h'
              · simp only [List.mem_cons, show ¬ "ChildrenMixin" = "ItemsMixin" by decide, false_or] at h'
                exact .inl h'
              · exact .inr h')
            have hf : kw.Fits ("ItemsMixin" :: l) ↔ Kw.Fits (seed := seed) (ι := ι) (κ := κ) { kw with items := none } l := by
              unfold Kw.Fits
              simp
            rw [e, hf]
            refine ⟨fun h => ?_, a2⟩
            obtain ⟨u, hu⟩ := a1 h
            refine ⟨u, hu.trans (Prod.ext rfl ?_)⟩
            unfold afterInit setFrom
            simp [hnl]
          · by_cases h3 : c = "ChildrenMixin"
            · subst h3
              have e : call (initBody p user again) ("ChildrenMixin" :: l) kw i =
                  call (initBody p user again) l { kw with children := none }
                    { i with children := some (kw.children.getD []) } := rfl
              obtain ⟨a1, a2⟩ := ih' { kw with children := none }
                { i with children := some (kw.children.getD []) } fun _ _ => .inr rfl
              have hf : kw.Fits ("ChildrenMixin" :: l) ↔ Kw.Fits (seed := seed) (ι := ι) (κ := κ) { kw with children := none } l := by
                unfold Kw.Fits
                simp
              rw [e, hf]
              refine ⟨fun h => ?_, a2⟩
              obtain ⟨u, hu⟩ := a1 h
              refine ⟨u, hu.trans (Prod.ext rfl ?_)⟩
              unfold afterInit setFrom
              simp [hnl]
            · have hb : initBody p user again c = none := by
                revert hg
                simp only [given, List.mem_cons, List.not_mem_nil, or_false]
                rintro (rfl | rfl | rfl | rfl | rfl | rfl | rfl | rfl)
                · exact absurd rfl hco
                · rfl
                · rfl
                · rfl
                · exact absurd rfl h1
                · exact absurd rfl h2
                · exact absurd rfl h3
                · rfl
              rw [fits_other h1 h2 h3, call, hb]
              dsimp only
              simp only [afterInit_other p h1 h2 h3]
              refine ih' kw i fun h h' => ?_
              rcases hk (List.mem_cons_of_mem _ h) h' with h' | h'
              · exact .inl ((List.mem_cons.1 h').resolve_left (Ne.symm h3))
              · exact .inr h'
      · have hb := initBody_user p user again hg
        have hid := ha c List.mem_cons_self
        unfold theirArgs at hid
        rw [if_neg hg] at hid
        simp only [given, List.mem_cons, List.not_mem_nil, or_false, not_or] at hg
        obtain ⟨-, -, -, g4, h1, h2, h3, g8⟩ := hg
        have hk' : ∀ u : υ, "RandomMixin" ∈ l → "ChildrenMixin" ∈ mro →
            "ChildrenMixin" ∈ l ∨ Option.isSome { i with user := u }.children := by
          intro u h h'
          rcases hk (List.mem_cons_of_mem _ h) h' with h' | h'
          · exact .inl ((List.mem_cons.1 h').resolve_left (Ne.symm h3))
          · exact .inr h'
        rw [fits_other h1 h2 h3, call, hb]
        simp only [afterInit_other p h1 h2 h3]
        cases hu : user c with
        | inherited => exact ih' kw i (hk' i.user)
        | passesOn before args after =>
          rw [hu] at hid
          have hargs : args = id := hid
          subst hargs
          dsimp only
          obtain ⟨a1, a2⟩ := ih' kw { i with user := before i.user } (hk' _)
          constructor
          · intro h
            obtain ⟨u, hu'⟩ := a1 h
            refine ⟨after u, ?_⟩
            rw [PyM.run_modify_bind]
            change (call (initBody p user again) l kw >>= _) _ = _
            rw [PyM.bind_ok hu', afterInit_user]
            refine Prod.ext rfl ?_
            have : (afterInit p r l kw u i).user = u := by unfold afterInit; split <;> rfl
            change { afterInit p r l kw u i with user := after (afterInit p r l kw u i).user } = _
            rw [this, afterInit_set]
          · intro h
            rw [PyM.run_modify_bind]
            change ((call (initBody p user again) l kw >>= _) _).1 = _
            generalize hq : call (initBody p user again) l kw { i with user := before i.user } = q
            have := a2 h
            rw [hq] at this
            obtain ⟨q1, q2⟩ := q
            cases this
            rw [PyM.bind_err hq]

theorem call_congr {σ : Type} {impl impl' : Name → Option (Body σ α)} {l : List Name}
    (h : ∀ c ∈ l, impl c = impl' c) : call impl l = call impl' l := by
  induction l with
  | nil => rfl
  | cons c l ih =>
    have h1 : has impl l = has impl' l := by
      unfold has
      rw [Bool.eq_iff_iff, List.any_eq_true, List.any_eq_true]
      constructor
      · rintro ⟨d, hd, e⟩; exact ⟨d, hd, by rw [← h d (List.mem_cons_of_mem _ hd)]; exact e⟩
      · rintro ⟨d, hd, e⟩; exact ⟨d, hd, by rw [h d (List.mem_cons_of_mem _ hd)]; exact e⟩
    funext a
    rw [call, call, h c List.mem_cons_self, h1, ih fun d hd => h d (List.mem_cons_of_mem _ hd)]

/-- The same class passing on its arguments. -/
def plain (c : Name) (d : Name) : UserInit seed ι κ υ :=
  match user d with
  | .inherited => .inherited
  | .passesOn before args after => .passesOn before (if d = c then id else args) after

theorem initBody_plain (again : PyM (Inst seed ρ ι κ υ) Unit) {c d : Name} (h : d ≠ c) :
    initBody p user again d = initBody p (plain user c) again d := by
  have : plain user c d = user d := by
    unfold plain
    cases user d with
    | inherited => rfl
    | passesOn before args after => dsimp only; rw [if_neg h]
  unfold initBody
  rw [this]

theorem theirArgs_plain {c d : Name} (h : d ≠ c → theirArgs user d = id) :
    theirArgs (plain user c) d = id := by
  unfold theirArgs at h ⊢
  by_cases hg : d ∈ given
  · rw [if_pos hg]
  · rw [if_neg hg] at h ⊢
    unfold plain
    cases hu : user d with
    | inherited => rfl
    | passesOn before args after =>
      change (if d = c then id else args) = id
      by_cases hd : d = c
      · rw [if_pos hd]
      · rw [if_neg hd]
        have := h hd
        rw [hu] at this
        exact this

theorem call_plain (again : PyM (Inst seed ρ ι κ υ) Unit) {c : Name} {l : List Name} (hn : (c :: l).Nodup)
    (kw : Kw seed ι κ) : call (initBody p user again) (c :: l) kw =
      call (initBody p (plain user c) again) (c :: l) (theirArgs user c kw) := by
  have hc := (List.nodup_cons.1 hn).1
  have hl : call (initBody p user again) l = call (initBody p (plain user c) again) l :=
    call_congr fun d hd => initBody_plain p user again fun e => hc (e ▸ hd)
  have hh : has (initBody p user again) l = has (initBody p (plain user c) again) l := by
    unfold has
    rw [Bool.eq_iff_iff, List.any_eq_true, List.any_eq_true]
    constructor
    · rintro ⟨d, hd, e⟩
      exact ⟨d, hd, by rw [← initBody_plain p user again (ne_of_mem_of_not_mem hd hc)]; exact e⟩
    · rintro ⟨d, hd, e⟩
      exact ⟨d, hd, by rw [initBody_plain p user again (ne_of_mem_of_not_mem hd hc)]; exact e⟩
  rw [call, call, hl, hh]
  unfold theirArgs
  by_cases hg : c ∈ given
  · rw [if_pos hg]
    have : initBody p (plain user c) again c = initBody p user again c := by
      revert hg
      simp only [given, List.mem_cons, List.not_mem_nil, or_false]
      rintro (rfl | rfl | rfl | rfl | rfl | rfl | rfl | rfl) <;> rfl
    rw [this]
    rfl
  · rw [if_neg hg, initBody_user p user again hg, initBody_user p (plain user c) again hg]
    unfold plain
    cases user c with
    | inherited => rfl
    | passesOn before args after =>
      dsimp only
      rw [if_pos rfl]
      rfl

end init

/-! ### The theorems -/

theorem library_mro : ∃ env, defineAll builtins library = .ok env ∧
    env.mro "RandomWithChildrenMixin" =
      some ["RandomWithChildrenMixin", "RandomMixin", "ChildrenMixin", "object"] :=
  ⟨_, by rfl, by decide⟩

theorem mixed_of_order {l : List Name} (hn : l.Nodup)
    (h : "RandomWithChildrenMixin" ∈ l →
      ["RandomWithChildrenMixin", "RandomMixin", "ChildrenMixin", "object"].Sublist l) : Mixed l := by
  rintro a b rfl
  have h' := h (by simp)
  have ha : "RandomWithChildrenMixin" ∉ a := fun hm =>
    (List.nodup_append.1 hn).2.2 _ hm _ List.mem_cons_self rfl
  rw [List.sublist_append_iff] at h'
  obtain ⟨x, y, hxy, hx, hy⟩ := h'
  cases x with
  | cons z x =>
    simp only [List.cons_append, List.cons.injEq] at hxy
    obtain ⟨rfl, _⟩ := hxy
    exact absurd (hx.subset List.mem_cons_self) ha
  | nil =>
    simp only [List.nil_append] at hxy
    subst hxy
    have := List.Sublist.of_cons_cons hy
    exact ⟨this.subset (by simp), this.subset (by simp)⟩

theorem mixed_mro {classes : List (Name × List Name)} (hb : Based classes) {env : Classes}
    (h : defineAll builtins (library ++ classes) = .ok env) {c : Name} {l : List Name}
    (hc : env.mro c = some l) : Mixed l := by
  obtain ⟨_, _, hn, hk⟩ := C103_order hb h hc
  refine mixed_of_order hn fun hm => ?_
  obtain ⟨l', h1, h2⟩ := hk _ hm
  rw [defineAll_append] at h
  obtain ⟨e0, h3, h4⟩ := Py.bind_eq_ok h
  obtain ⟨e1, h5, h6⟩ := library_mro
  rw [h3] at h5
  cases h5
  rw [mro_defineAll h4 h6] at h1
  cases h1
  exact h2

theorem follows_mro {classes : List (Name × List Name)} (hb : Based classes) {env : Classes}
    (h : defineAll builtins (library ++ classes) = .ok env) {c : Name} {l : List Name}
    (hc : env.mro c = some l) {user : Name → User α υ} {defines : Name → Bool}
    (hs : Sound env user defines) : Follows user defines l := by
  rintro a d b before after rfl hd
  obtain ⟨_, _, hn, hk⟩ := C103_order hb h hc
  obtain ⟨l', h1, h2⟩ := hk d (by simp)
  obtain ⟨t, rfl⟩ : ∃ t, l' = d :: t := by
    have := (C103_order hb h h1).1
    cases l' with
    | nil => cases this
    | cons x t => cases this; exact ⟨t, rfl⟩
  have := hs d before after hd t h1
  obtain ⟨e, he, hde⟩ := List.any_eq_true.1 this
  refine List.any_eq_true.2 ⟨e, ?_, hde⟩
  have ha : d ∉ a := fun hm => (List.nodup_append.1 hn).2.2 _ hm _ List.mem_cons_self rfl
  rw [List.sublist_append_iff] at h2
  obtain ⟨x, y, hxy, hx, hy⟩ := h2
  cases x with
  | cons z x =>
    simp only [List.cons_append, List.cons.injEq] at hxy
    obtain ⟨rfl, _⟩ := hxy
    exact absurd (hx.subset List.mem_cons_self) ha
  | nil =>
    simp only [List.nil_append] at hxy
    subst hxy
    exact (List.Sublist.of_cons_cons hy).subset he

/-- **C103 (reset).** What `reset` does to an instance of any class: `RandomMixin`, `ChildrenMixin` and
`RandomWithChildrenMixin` do their part exactly if they come before `Emitter` and before any other class
that does not call `super()`; the children are given the seed before they are reset, once each; and of the
classes of the user each one up to there is visited once, in order. -/
theorem C103_reset {classes : List (Name × List Name)} (hb : Based classes) {env : Classes}
    (h : defineAll builtins (library ++ classes) = .ok env) {c : Name} {l : List Name}
    (hc : env.mro c = some l) (p : Parts seed ρ κ) (user : Name → User Unit υ)
    (hs : Sound env user (definesReset user)) (hd : l.any (definesReset user) = true)
    (i : Inst seed ρ ι κ υ) (hi : "RandomMixin" ∈ l → i.rngSeed.isSome)
    (hk : "ChildrenMixin" ∈ l → i.children.isSome) :
    reset p user l i = (.ok (), afterReset p (reached (stopsReset user) l)
      (through user () (reached (stopsReset user) l) i.user) i) := by
  rw [← reset_chain p user l (C103_order hb h hc).2.2.1 (mixed_mro hb h hc) (follows_mro hb h hc hs) i hi hk,
    callIfAny_has]
  · rfl
  · rw [has_reset]; exact hd

/-- **C103 (seed).** What `seed` does: the generator and, with `RandomWithChildrenMixin`, all children are
seeded, and `rng_seed` is kept for the next `reset`. -/
theorem C103_seed {classes : List (Name × List Name)} (hb : Based classes) {env : Classes}
    (h : defineAll builtins (library ++ classes) = .ok env) {c : Name} {l : List Name}
    (hc : env.mro c = some l) (p : Parts seed ρ κ) (user : Name → User seed υ)
    (hs : Sound env user (definesSeed user)) (hd : l.any (definesSeed user) = true) (s : seed)
    (i : Inst seed ρ ι κ υ) (hi : "RandomMixin" ∈ l → i.rng.isSome)
    (hk : "ChildrenMixin" ∈ l → i.children.isSome) :
    seedAll p user l s i = (.ok (), afterSeed p (reached (stopsSeed user) l) s
      (through user s (reached (stopsSeed user) l) i.user) i) := by
  have hm := mixed_mro hb h hc
  rw [← seed_chain p user s l (C103_order hb h hc).2.2.1 hm (follows_mro hb h hc hs) i hi
    (fun hr => hk (hm.mem hr).2), callIfAny_has]
  · rfl
  · rw [has_seed]; exact hd

/-- **C103 (construction).** What an instance of any class is after `__init__`: `rng_seed`, `items` and
children are those given by keyword (`None`, `[]` and no children otherwise), and `reset` has been called once
if there is a `RandomMixin`. Arguments for which there is no mixin are refused with a TypeError. (`kw'` are
the arguments that the `__init__` of the class passes on; the other classes of the user pass on theirs
unchanged.) -/
theorem C103_init {classes : List (Name × List Name)} (hb : Based classes) {env : Classes}
    (h : defineAll builtins (library ++ classes) = .ok env) {c : Name} {l : List Name}
    (hc : env.mro c = some l) (p : Parts seed ρ κ) (userReset : Name → User Unit υ)
    (hs : Sound env userReset (definesReset userReset)) (userInit : Name → UserInit seed ι κ υ)
    (ha : ∀ d ∈ l, d ≠ c → theirArgs userInit d = id) (kw kw' : Kw seed ι κ)
    (hkw : kw' = theirArgs userInit c kw) (u : υ) :
    (kw'.Fits l → ∃ u', construct p userInit userReset l kw u = (.ok (),
      if "RandomMixin" ∈ l then afterReset p (reached (stopsReset userReset) l) u' (fresh p l kw' u)
      else { fresh p l kw' u with user := u' })) ∧
    (¬ kw'.Fits l → (construct p userInit userReset l kw u).1 = .error .typeError) := by
  obtain ⟨h1, h2, h3, _⟩ := C103_order hb h hc
  cases l with
  | nil => cases h1
  | cons x t =>
    cases h1
    unfold construct
    rw [call_plain p userInit _ h3, ← hkw]
    have hk : "RandomMixin" ∈ c :: t → "ChildrenMixin" ∈ c :: t → "ChildrenMixin" ∈ c :: t ∨
        Option.isSome ({ user := u } : Inst seed ρ ι κ υ).children := fun _ h => .inl h
    refine init_chain p (plain userInit c) (reached (stopsReset userReset) (c :: t)) (c :: t)
      (reset p userReset (c :: t)) (c :: t) (fun hr i hi hk => ?_) h3 h2
      (fun d hd => theirArgs_plain userInit fun e => ha d hd e) kw' { user := u } hk
    exact ⟨_, C103_reset hb h hc p userReset hs
      (List.any_eq_true.2 ⟨_, hr, by simp [definesReset]⟩) i (fun _ => hi) hk⟩

theorem mem_reached {stops : Name → Bool} {a b : List Name} {d : Name}
    (h : ∀ e ∈ a, stops e = false) : d ∈ reached stops (a ++ d :: b) := by
  induction a with
  | nil => unfold reached; simp only [List.nil_append]; split <;> simp
  | cons x a ih =>
    unfold reached
    simp only [List.cons_append]
    rw [h x List.mem_cons_self]
    exact List.mem_cons_of_mem _ (ih fun e he => h e (List.mem_cons_of_mem _ he))

/-- A class listed before another one. -/
theorem before_of_sublist {a b : Name} {l : List Name} (hn : l.Nodup) (h : [a, b].Sublist l) :
    ∃ x y, l = x ++ a :: y ∧ b ∉ x := by
  obtain ⟨x, y, rfl⟩ := List.append_of_mem (h.subset List.mem_cons_self)
  refine ⟨x, y, rfl, fun hb => ?_⟩
  have ha : a ∉ x := fun hm => (List.nodup_append.1 hn).2.2 _ hm _ List.mem_cons_self rfl
  rw [List.sublist_append_iff] at h
  obtain ⟨u, v, huv, hu, hv⟩ := h
  cases u with
  | cons z u =>
    simp only [List.cons_append, List.cons.injEq] at huv
    obtain ⟨rfl, _⟩ := huv
    exact ha (hu.subset List.mem_cons_self)
  | nil =>
    simp only [List.nil_append] at huv
    subst huv
    have hby := (List.Sublist.of_cons_cons hv).subset List.mem_cons_self
    exact (List.nodup_append.1 hn).2.2 _ hb _ (List.mem_cons_of_mem _ hby) rfl

/-- **C103 (mixins first).** If some class in the order lists a mixin before `Emitter`, and no class of the
user overrides `reset` without calling `super()`, then `reset` reaches the mixin. -/
theorem C103_mixins_first {classes : List (Name × List Name)} (hb : Based classes) {env : Classes}
    (h : defineAll builtins (library ++ classes) = .ok env) {c d m : Name} {l bases : List Name}
    (hc : env.mro c = some l) (user : Name → User Unit υ) (hu : ∀ e ∈ l, (theirs user e).stopsHere = false)
    (hdl : d ∈ l) (hd : (d, bases) ∈ library ++ classes) (hm : [m, "Emitter"].Sublist bases) :
    m ∈ reached (stopsReset user) l := by
  have hsub := (hm.trans ((List.sublist_cons_self d bases).trans (C103_bases hb h hc hdl hd)))
  obtain ⟨x, y, rfl, hx⟩ := before_of_sublist (C103_order hb h hc).2.2.1 hsub
  refine mem_reached fun e he => ?_
  unfold stopsReset
  rw [hu e (by simp [he])]
  have : e ≠ "Emitter" := fun e' => hx (e' ▸ he)
  simp [this]

/-! ### Violations and examples -/

/-- Seeds are numbers or `None`; a generator and a child remember what was done to them. -/
def demoParts : Parts (Option Nat) (List (Option Nat)) (List (Option Nat)) where
  noSeed := none
  random s := [s]
  reseed s g := s :: g
  setSeed s k := s :: k
  reset k := k
  seed s k := s :: k

abbrev DemoInst := Inst (Option Nat) (List (Option Nat)) Nat (List (Option Nat)) Unit

/-- No class of the user defines the method. -/
def nobody {α : Type} : Name → User α Unit := fun _ => .inherited

def nobodyInit : Name → UserInit (Option Nat) Nat (List (Option Nat)) Unit := fun _ => .inherited

/-- `class Early(Emitter, RandomMixin)`, `class Late(RandomMixin, Emitter)`,
`class Family(Emitter, RandomWithChildrenMixin)`, `class Parent(Choice, ChildrenMixin)`. -/
def demoClasses : List (Name × List Name) :=
  [("Early", ["Emitter", "RandomMixin"]), ("Late", ["RandomMixin", "Emitter"]),
   ("Family", ["Emitter", "RandomWithChildrenMixin"]), ("Parent", ["Choice", "ChildrenMixin"]),
   ("Good", ["RandomWithChildrenMixin", "ItemsMixin", "Emitter"]), ("Better", ["Good"])]

def demoEnv : Py Classes := defineAll builtins (library ++ demoClasses)

def demoMro (c : Name) : List Name :=
  match demoEnv with
  | .ok env => (env.mro c).getD []
  | .error _ => []

theorem demo_early : demoMro "Early" = ["Early", "Emitter", "Generic", "ABC", "RandomMixin", "object"] := by
  decide +kernel

theorem demo_family : demoMro "Family" = ["Family", "Emitter", "Generic", "ABC", "RandomWithChildrenMixin",
    "RandomMixin", "ChildrenMixin", "object"] := by
  decide +kernel

theorem demo_parent : demoMro "Parent" = ["Parent", "Choice", "RandomMixin", "ItemsMixin", "Emitter", "Generic",
    "ABC", "ChildrenMixin", "object"] := by
  decide +kernel

/-- **C103 (violated).** With `Emitter` listed first, an instance has no generator: construction succeeds
(for every seed), but `self.rng` does not exist, and `seed` raises AttributeError. -/
theorem C103_violated (s t : Option Nat) :
    construct demoParts nobodyInit nobody (demoMro "Early") { rngSeed := some s } () =
      (.ok (), ({ rngSeed := some s, user := () } : DemoInst)) ∧
    seedAll demoParts nobody (demoMro "Early") t ({ rngSeed := some s, user := () } : DemoInst) =
      (.error .attributeError, { rngSeed := some t, user := () }) := by
  rw [demo_early]
  exact ⟨rfl, rfl⟩

/-- **C103 (violated).** With `RandomWithChildrenMixin` it is even harder to see: `seed` succeeds. And the
children are not given the seed at construction. -/
theorem C103_children_violated (s t : Option Nat) (ks : List (List (Option Nat))) :
    construct demoParts nobodyInit nobody (demoMro "Family") { rngSeed := some s, children := some ks } () =
      (.ok (), ({ rngSeed := some s, children := some ks, user := () } : DemoInst)) ∧
    seedAll demoParts nobody (demoMro "Family") t
        ({ rngSeed := some s, children := some ks, user := () } : DemoInst) =
      (.ok (), { rngSeed := some t, children := some (ks.map (demoParts.seed t)), user := () }) := by
  rw [demo_family]
  exact ⟨rfl, rfl⟩

/-- Parts in which a reset shows. -/
def markParts : Parts (Option Nat) (List (Option Nat)) (List (Option Nat)) :=
  { demoParts with reset := fun _ => [] }

/-- **C103 (violated).** A `Choice` with children, `class Parent(Choice, ChildrenMixin)`: resetting it does
not reset the children. -/
theorem C103_subclass_violated :
    reset markParts nobody (demoMro "Parent")
        ({ rngSeed := some none, children := some [[some 1]], user := () } : DemoInst) =
      (.ok (), { rngSeed := some none, rng := some [none], children := some [[some 1]], user := () }) := by
  rw [demo_parent]
  rfl

/-- The classes of the library list their mixins first: `reset` gets to every mixin that a class has. -/
theorem C103_library : ∀ c ∈ library, ∀ m ∈ ["RandomMixin", "ChildrenMixin", "RandomWithChildrenMixin"],
    m ∈ demoMro c.1 → m ∈ reached (stopsReset (nobody : Name → User Unit Unit)) (demoMro c.1) := by
  decide +kernel

theorem demoEnv_ok : ∃ env, demoEnv = .ok env ∧ env.mro "Better" = some (demoMro "Better") ∧
    "Good" ∈ demoMro "Better" := by
  have h : (match demoEnv with
      | .ok env => decide (env.mro "Better" = some (demoMro "Better"))
      | .error _ => false) = true ∧ "Good" ∈ demoMro "Better" := by decide +kernel
  obtain ⟨h1, h2⟩ := h
  cases he : demoEnv with
  | error e => rw [he] at h1; cases h1
  | ok env => rw [he] at h1; exact ⟨env, rfl, of_decide_eq_true h1, h2⟩

/-- The theorems apply to `class Better(Good)` with
`class Good(RandomWithChildrenMixin, ItemsMixin, Emitter)`. -/
example : ∀ m ∈ ["RandomMixin", "ChildrenMixin", "RandomWithChildrenMixin"],
    m ∈ reached (stopsReset (nobody : Name → User Unit Unit)) (demoMro "Better") := by
  decide +kernel

example : "RandomWithChildrenMixin" ∈
    reached (stopsReset (nobody : Name → User Unit Unit)) (demoMro "Better") := by
  obtain ⟨env, h1, h2, h3⟩ := demoEnv_ok
  exact C103_mixins_first (bases := ["RandomWithChildrenMixin", "ItemsMixin", "Emitter"])
    (by intro c; revert c; decide) h1 h2 nobody (fun e _ => by unfold theirs nobody; split <;> rfl) h3
    (by decide) (by decide)

/-- An instance of it: generator and children get the seed 7. -/
example (x : Nat) : ∃ env l, defineAll builtins (library ++ demoClasses) = .ok env ∧
    env.mro "Better" = some l ∧ ∃ u,
    construct demoParts nobodyInit nobody l
      { rngSeed := some (some 7), items := some [x], children := some [[]] } () =
    (.ok (), ({
      rngSeed := some (some 7), rng := some [some 7], items := some [x],
      children := some [[some 7]], user := u } : DemoInst)) := by
  obtain ⟨env, h1, h2, h3⟩ := demoEnv_ok
  refine ⟨env, _, h1, h2, ?_⟩
  have hs : Sound env (nobody : Name → User Unit Unit) (definesReset nobody) := by
    intro d before after hd
    unfold theirs nobody at hd
    split at hd <;> cases hd
  obtain ⟨u, hu⟩ := (C103_init (ι := Nat) (by intro c; revert c; decide) h1 h2 demoParts nobody hs nobodyInit
    (fun d _ _ => by unfold theirArgs nobodyInit; split <;> rfl)
    { rngSeed := some (some 7), items := some [x], children := some [[]] } _ rfl ()).1
      (by
        have hm : "RandomMixin" ∈ demoMro "Better" ∧ "ItemsMixin" ∈ demoMro "Better" ∧
          "ChildrenMixin" ∈ demoMro "Better" := by decide +kernel
        exact ⟨fun _ => hm.1, fun _ => hm.2.1, fun _ => hm.2.2, rfl⟩)
  refine ⟨u, hu.trans ?_⟩
  have hm : demoMro "Better" = ["Better", "Good", "RandomWithChildrenMixin", "RandomMixin", "ChildrenMixin",
    "ItemsMixin", "Emitter", "Generic", "ABC", "object"] := by decide +kernel
  rw [hm]
  rfl

end Cls
end Fauxdoc
