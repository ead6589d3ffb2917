import Verif.Spec.Abstract
import Verif.Props.Classes
import Verif.Props.Names
/-
C122: which classes can be instantiated.
-/
namespace Fauxdoc
namespace Cls
variable {α seed ρ ι κ υ : Type}

theorem stillAbstract_iff (ms : Methods) (mro : List Name) (n : String) :
    StillAbstract ms mro n ↔ getMethod ms mro n = some true := by
  unfold StillAbstract getMethod
  rw [List.findSome?_eq_some_iff]
  constructor
  · rintro ⟨a, d, b, h1, h2, h3⟩
    exact ⟨a, d, b, h1, h3, h2⟩
  · rintro ⟨a, d, b, h1, h3, h2⟩
    exact ⟨a, d, b, h1, h2, h3⟩

/-- A part of the order that has the first class with a method finds the same. -/
theorem findSome?_part {β : Type} {f : Name → Option β} {m l : List Name} (h : m.Sublist l) (hn : l.Nodup)
    {a b : List Name} {d : Name} (hl : l = a ++ d :: b) (ha : ∀ x ∈ a, f x = none) (hd : (f d).isSome)
    (hm : d ∈ m) : m.findSome? f = f d := by
  induction h generalizing a with
  | slnil => cases hm
  | @cons m l x h ih =>
    cases a with
    | nil =>
      cases hl
      exact absurd (h.subset hm) (List.nodup_cons.1 hn).1
    | cons y a =>
      cases hl
      exact ih (List.nodup_cons.1 hn).2 rfl (fun x hx => ha x (List.mem_cons_of_mem _ hx)) hm
  | @cons_cons m l x h ih =>
    cases a with
    | nil =>
      cases hl
      obtain ⟨v, hv⟩ := Option.isSome_iff_exists.1 hd
      simp [hv]
    | cons y a =>
      cases hl
      rw [List.findSome?_cons, ha x List.mem_cons_self]
      refine ih (List.nodup_cons.1 hn).2 rfl (fun x hx => ha x (List.mem_cons_of_mem _ hx)) ?_
      rcases List.mem_cons.1 hm with e | hm
      · subst e
        exact absurd (by simp) (List.nodup_cons.1 hn).1
      · exact hm

theorem Abstracts.of_cons (t : Abstracts) (c d : Name) (x : List String) :
    Abstracts.of ((c, x) :: t) d = if c = d then x else t.of d := by
  unfold Abstracts.of
  by_cases h : c = d <;> simp [h]

theorem collectAll_spec {ms : Methods} {env : Classes} (hw : WF env) (hd : Declared env ms)
    (classes : List (Name × List Name)) : ∀ {e0 : Classes} {t : Abstracts},
    defineAll e0 classes = .ok env →
    (∀ c l, e0.mro c = some l → ∀ n, n ∈ t.of c ↔ getMethod ms l n = some true) →
    ∀ c l, env.mro c = some l → ∀ n, n ∈ (collectAll ms env t classes).of c ↔ getMethod ms l n = some true := by
  induction classes with
  | nil => intro e0 t h ht; cases h; exact ht
  | cons k classes ih =>
    obtain ⟨name, bases⟩ := k
    intro e0 t h ht
    unfold defineAll at h
    obtain ⟨e1, h1, h2⟩ := Py.bind_eq_ok h
    obtain ⟨mros, l, hm, hnone, _, hl, rfl⟩ := define_spec h1
    have hmro : env.mro name = some (name :: l) := mro_defineAll h2 (by rw [mro_cons, if_pos rfl])
    refine ih h2 ?_
    intro c l' hc n
    rw [mro_cons] at hc
    rw [Abstracts.of_cons]
    by_cases e : name = c
    swap
    · rw [if_neg e] at hc ⊢; exact ht c l' hc n
    rw [if_pos e] at hc ⊢
    subst e
    cases hc
    rw [hmro, Option.getD_some]
    unfold collect
    by_cases habc : "ABC" ∈ name :: l
    · rw [if_pos habc]
      constructor
      · intro hn
        rcases List.mem_append.1 hn with hn | hn
        · have := of_decide_eq_true (List.mem_filter.1 hn).2
          unfold getMethod
          rw [List.findSome?_cons, this]
        · exact of_decide_eq_true (List.mem_filter.1 hn).2
      · intro hn
        rw [List.mem_append]
        cases hx : (ms name).lookup n with
        | some v =>
          left
          have hv : v = true := by
            unfold getMethod at hn
            rw [List.findSome?_cons, hx] at hn
            exact Option.some.inj hn
          subst hv
          refine List.mem_filter.2 ⟨?_, by simp [hx]⟩
          by_contra hc
          rw [(PyModule.lookup_none_iff _ _).2 hc] at hx
          cases hx
        | none =>
          right
          refine List.mem_filter.2 ⟨?_, by simp [hn]⟩
          obtain ⟨a, d, b, e1, e2, e3⟩ := (stillAbstract_iff _ _ _).2 hn
          have hne : d ≠ name := by rintro rfl; rw [hx] at e3; cases e3
          obtain ⟨a', rfl⟩ : ∃ a', a = name :: a' := by
            cases a with
            | nil => cases e1; exact absurd rfl hne
            | cons y a => cases e1; exact ⟨a, rfl⟩
          cases e1
          have hnd := (List.nodup_cons.1 (hw.nodup _ _ hmro)).2
          obtain ⟨b', hb', m, hbm, hms, hdm⟩ : ∃ b' ∈ bases, ∃ m, e0.mro b' = some m ∧ m ∈ mros ∧ d ∈ m := by
            obtain ⟨m, hmm, hdm⟩ := (mem_merge hl d).1 (by simp)
            rcases List.mem_append.1 hmm with hmm | hmm
            · obtain ⟨b', hb', e⟩ := (mapM_mem hm).1 m hmm
              exact ⟨b', hb', m, e, hmm, hdm⟩
            · rw [List.mem_singleton] at hmm
              subst hmm
              obtain ⟨m, hmm, e⟩ := (mapM_mem hm).2 d hdm
              obtain ⟨t', rfl⟩ := hw.head d m (mro_defineAll h2 (mro_define h1 e))
              exact ⟨d, hdm, _, e, hmm, List.mem_cons_self⟩
          refine List.mem_flatMap.2 ⟨b', hb', (ht b' m hbm n).2 ?_⟩
          unfold getMethod
          rw [findSome?_part (f := fun c => (ms c).lookup n)
            (sublist_merge hl m (List.mem_append_left _ hms)) hnd rfl
            (fun x hx => e2 x (List.mem_cons_of_mem _ hx)) (by simp [e3]) hdm, e3]
    · rw [if_neg habc]
      refine ⟨fun h => (by cases h), fun hn => absurd ?_ habc⟩
      obtain ⟨a, d, b, e1, e2, e3⟩ := (stillAbstract_iff _ _ _).2 hn
      obtain ⟨l', h3, h4⟩ := hw.known _ _ hmro d (by rw [e1]; simp)
      exact h4.subset (hd d l' n h3 e3)

theorem wf_program {classes : List (Name × List Name)} (hb : Based classes) {env : Classes}
    (h : defineAll builtins (library ++ classes) = .ok env) : WF env :=
  wf_defineAll wf_builtins (by
    intro k hk
    rcases List.mem_append.1 hk with hk | hk
    · exact (by decide : ∀ k ∈ library, k.2 ≠ []) k hk
    · exact hb k hk) h

/-- **C122 (abstract methods).** In every program, a method is among the abstract methods of a class exactly
if the first class in the order of the class that defines the method declares it abstract. So a class
inherits an implementation from any class before the declaration, and from none after it. -/
theorem C122_abstract {classes : List (Name × List Name)} (hb : Based classes) {env : Classes}
    (h : defineAll builtins (library ++ classes) = .ok env) (user : Methods)
    (hd : Declared env (allMethods user)) {c : Name} {l : List Name} (hc : env.mro c = some l) (n : String) :
    n ∈ (collectAll (allMethods user) env [] (library ++ classes)).of c ↔
      StillAbstract (allMethods user) l n := by
  rw [stillAbstract_iff]
  refine collectAll_spec (wf_program hb h) hd _ h ?_ c l hc n
  intro c l hc n
  unfold builtins at hc
  rw [mro_cons] at hc
  by_cases e : "object" = c
  · rw [if_pos e] at hc
    cases hc
    simp [Abstracts.of, getMethod, allMethods, libraryMethods]
  · rw [if_neg e] at hc; cases hc

/-- Without abstract methods of the user, those of `Emitter` are the only ones. -/
theorem allMethods_abstract {user : Methods} (hu : ∀ c n, (user c).lookup n ≠ some true) {c : Name} {n : String}
    (h : (allMethods user c).lookup n = some true) : c = "Emitter" ∧ n ∈ ["emit", "emit_many"] := by
  unfold allMethods at h
  split at h
  · unfold libraryMethods at h
    split at h
    · rename_i e
      refine ⟨e, ?_⟩
      by_contra hn
      rw [(PyModule.lookup_none_iff _ _).2 (by simpa using hn)] at h
      cases h
    · split at h
      · exfalso
        rw [List.lookup_cons] at h
        split at h
        · cases h
        · rw [List.lookup_cons] at h
          split at h <;> cases h
      · cases h
  · exact absurd h (hu c n)

theorem emitter_abstract (user : Methods) {n : String} (h : n ∈ ["emit", "emit_many"]) :
    (allMethods user "Emitter").lookup n = some true := by
  have : allMethods user "Emitter" = [("emit", true), ("emit_many", true)] := rfl
  rw [this]
  revert n
  decide

theorem declared_user {classes : List (Name × List Name)} (hb : Based classes) {env : Classes}
    (h : defineAll builtins (library ++ classes) = .ok env) {user : Methods}
    (hu : ∀ c n, (user c).lookup n ≠ some true) : Declared env (allMethods user) := by
  intro c l n hc hn
  obtain ⟨rfl, _⟩ := allMethods_abstract hu hn
  obtain ⟨t, rfl⟩ := (wf_program hb h).head _ _ hc
  exact (C103_bases hb h hc List.mem_cons_self
    (List.mem_append_left _ (by decide : ("Emitter", ["Generic", "ABC"]) ∈ library))).subset (by simp)

/-- **C122 (which classes can be instantiated).** A class derived from `Emitter` has no abstract methods
exactly if `emit` and `emit_many` are each defined by a class that comes before `Emitter` in its order. -/
theorem C122_concrete {classes : List (Name × List Name)} (hb : Based classes) {env : Classes}
    (h : defineAll builtins (library ++ classes) = .ok env) (user : Methods)
    (hu : ∀ c n, (user c).lookup n ≠ some true) {c : Name} {l : List Name} (hc : env.mro c = some l)
    (he : "Emitter" ∈ l) :
    (collectAll (allMethods user) env [] (library ++ classes)).of c = [] ↔
      ∀ n ∈ ["emit", "emit_many"], ∃ d, Before l d "Emitter" ∧ ((allMethods user d).lookup n).isSome := by
  have hn := (wf_program hb h).nodup _ _ hc
  have key := fun n => C122_abstract hb h user (declared_user hb h hu) hc n
  constructor
  · intro h0 n hn'
    obtain ⟨a, b, rfl⟩ := List.append_of_mem he
    by_contra hno
    have : n ∈ (collectAll (allMethods user) env [] (library ++ classes)).of c :=
      (key n).2 ⟨a, "Emitter", b, rfl, fun x hx => by
        cases hx' : (allMethods user x).lookup n with
        | none => rfl
        | some v => exact absurd ⟨x, ⟨a, b, rfl, hx⟩, by rw [hx']; rfl⟩ hno, emitter_abstract user hn'⟩
    rw [h0] at this
    cases this
  · intro hall
    rw [List.eq_nil_iff_forall_not_mem]
    intro n hmem
    obtain ⟨a, d, b, rfl, h2, h3⟩ := (key n).1 hmem
    obtain ⟨rfl, hne⟩ := allMethods_abstract hu h3
    obtain ⟨d, ⟨a', b', e, hd⟩, hs⟩ := hall n hne
    have haa : a = a' := by
      rcases List.append_eq_append_iff.1 e with ⟨z, hz, hz'⟩ | ⟨z, hz, hz'⟩
      · cases z with
        | nil => simpa using hz.symm
        | cons x z =>
          cases hz'
          rw [e] at hn
          exact absurd rfl ((List.nodup_append.1 hn).2.2 "Emitter" (by rw [hz]; simp) "Emitter" (by simp))
      · cases z with
        | nil => simpa using hz
        | cons x z =>
          cases hz'
          exact absurd rfl ((List.nodup_append.1 hn).2.2 "Emitter" (by rw [hz]; simp) "Emitter" (by simp))
    subst haa
    rw [h2 d hd] at hs
    cases hs

/-- **C122 (refused).** Otherwise making an instance raises a TypeError, whatever the arguments. -/
theorem C122_refused {classes : List (Name × List Name)} (hb : Based classes) {env : Classes}
    (h : defineAll builtins (library ++ classes) = .ok env) (user : Methods)
    (hu : ∀ c n, (user c).lookup n ≠ some true) {c : Name} {l : List Name} (hc : env.mro c = some l)
    (he : "Emitter" ∈ l) {n : String} (hn : n ∈ ["emit", "emit_many"])
    (hno : ∀ d, Before l d "Emitter" → (allMethods user d).lookup n = none)
    (p : Parts seed ρ κ) (userInit : Name → UserInit seed ι κ υ) (userReset : Name → User Unit υ)
    (kw : Kw seed ι κ) (u : υ) :
    make p userInit userReset (collectAll (allMethods user) env [] (library ++ classes)) c l kw u =
      .error .typeError := by
  unfold make
  rw [if_neg]
  intro h0
  obtain ⟨d, h1, h2⟩ := (C122_concrete hb h user hu hc he).1 h0 n hn
  rw [hno d h1] at h2
  cases h2

/-- The order of `Wrap`. -/
theorem wrap_mro : ∃ env, defineAll builtins library = .ok env ∧
    env.mro "_deprecated_Wrap" = some ["_deprecated_Wrap", "RandomWithChildrenMixin", "RandomMixin",
      "ChildrenMixin", "Emitter", "Generic", "ABC", "object"] :=
  ⟨_, by rfl, by decide⟩

theorem wrap_order {classes : List (Name × List Name)} (hb : Based classes) {env : Classes}
    (h : defineAll builtins (library ++ classes) = .ok env) {c : Name} {l : List Name}
    (hc : env.mro c = some l) (hm : "_deprecated_Wrap" ∈ l) :
    ["_deprecated_Wrap", "RandomWithChildrenMixin", "RandomMixin",
      "ChildrenMixin", "Emitter", "Generic", "ABC", "object"].Sublist l := by
  obtain ⟨_, _, hn, hk⟩ := C103_order hb h hc
  obtain ⟨l', h1, h2⟩ := hk _ hm
  rw [defineAll_append] at h
  obtain ⟨e0, h3, h4⟩ := Py.bind_eq_ok h
  obtain ⟨e1, h5, h6⟩ := wrap_mro
  rw [h3] at h5
  cases h5
  rw [mro_defineAll h4 h6] at h1
  cases h1
  exact h2

/-- **C122 (Wrap).** A class derived from the deprecated `Wrap` that defines `emit` and `emit_many` can be
instantiated, and an instance has what `Wrap` promises: its `emitters` are the sources given, which have been
given the seed and reset, and it has a generator made with the seed. (`Wrap.__init__` passes `source` on as
`children`; the classes of the user pass on their arguments unchanged and do not keep `reset` from the
mixins.) -/
theorem C122_wrap {classes : List (Name × List Name)} (hb : Based classes) {env : Classes}
    (h : defineAll builtins (library ++ classes) = .ok env) (user : Methods)
    (hu : ∀ c n, (user c).lookup n ≠ some true) {c : Name} {l : List Name} (hc : env.mro c = some l)
    (hw : "_deprecated_Wrap" ∈ l)
    (hdef : ∀ n ∈ ["emit", "emit_many"], ((allMethods user c).lookup n).isSome)
    (p : Parts seed ρ κ) (userInit : Name → UserInit seed ι κ υ) (ha : ∀ d ∈ l, theirArgs userInit d = id)
    (userReset : Name → User Unit υ) (hr : ∀ e ∈ l, (theirs userReset e).stopsHere = false)
    (hs : Sound env userReset (definesReset userReset)) (s : seed) (source : List κ) (u : υ) :
    ∃ i, make p userInit userReset (collectAll (allMethods user) env [] (library ++ classes)) c l
        { rngSeed := some s, children := some source } u = .ok i ∧
      i.rngSeed = some s ∧ i.rng = some (p.random s) ∧
      i.children = some (source.map fun k => p.reset (p.setSeed s k)) := by
  have hsub := wrap_order hb h hc hw
  have hn := (wf_program hb h).nodup _ _ hc
  obtain ⟨t, rfl⟩ := (wf_program hb h).head _ _ hc
  have hmem : ∀ x ∈ ["RandomWithChildrenMixin", "RandomMixin", "ChildrenMixin", "Emitter"], x ∈ c :: t :=
    fun x hx => hsub.subset (by revert x; decide)
  have hbef : ∀ x ∈ ["_deprecated_Wrap", "RandomWithChildrenMixin", "RandomMixin", "ChildrenMixin"],
      [x, "Emitter"].Sublist (c :: t) := fun x hx => by
    refine List.Sublist.trans ?_ hsub
    revert x
    decide
  have hreach : ∀ x ∈ ["_deprecated_Wrap", "RandomWithChildrenMixin", "RandomMixin", "ChildrenMixin"],
      x ∈ reached (stopsReset userReset) (c :: t) := fun x hx => by
    obtain ⟨a, b, e, ha⟩ := before_of_sublist hn (hbef x hx)
    rw [e] at hr ⊢
    refine mem_reached fun y hy => ?_
    unfold stopsReset
    rw [hr y (by simp [hy])]
    have : y ≠ "Emitter" := fun e' => ha (e' ▸ hy)
    simp [this]
  have hce : c ≠ "Emitter" := by
    rintro rfl
    obtain ⟨a, b, e, ha'⟩ := before_of_sublist hn (hbef "_deprecated_Wrap" (by decide))
    cases a with
    | nil => exact absurd (List.cons.inj e).1 (by decide)
    | cons y a => exact ha' (by rw [← (List.cons.inj e).1]; exact List.mem_cons_self)
  have hnil : (collectAll (allMethods user) env [] (library ++ classes)).of c = [] := by
    refine (C122_concrete hb h user hu hc (hmem _ (by decide))).2 fun n hn' => ⟨c, ?_, hdef n hn'⟩
    obtain ⟨a, b, rfl⟩ := List.append_of_mem ((List.mem_cons.1 (hmem "Emitter" (by decide))).resolve_left hce.symm)
    exact ⟨c :: a, b, rfl, List.mem_cons_self⟩
  obtain ⟨u', hcon⟩ := (C103_init hb h hc p userReset hs userInit (fun d hd _ => ha d hd)
    { rngSeed := some s, children := some source } { rngSeed := some s, children := some source }
    (by rw [ha c List.mem_cons_self]; rfl) u).1
    ⟨fun _ => hmem _ (by decide), fun h => (by cases h), fun _ => hmem _ (by decide), rfl⟩
  rw [if_pos (hmem _ (by decide))] at hcon
  unfold make
  rw [if_pos hnil, hcon]
  refine ⟨_, rfl, ?_, ?_, ?_⟩
  · simp only [afterReset, fresh]
    rw [if_pos (hmem _ (by decide))]; rfl
  · simp only [afterReset, fresh]
    rw [if_pos (hreach _ (by decide)), if_pos (hmem _ (by decide))]; rfl
  · simp only [afterReset, fresh]
    rw [if_pos (hreach _ (by decide)), if_pos (hreach _ (by decide)), if_pos (hmem _ (by decide)),
      if_pos (hmem _ (by decide))]
    simp

/-! ### The library, and examples -/

/-- **C122 (library).** Of the classes of the library, exactly `Emitter` and the deprecated `Wrap` cannot be
instantiated. -/
theorem C122_library : ∃ env, defineAll builtins library = .ok env ∧ ∀ k ∈ library,
    (collectAll (allMethods fun _ => []) env [] library).of k.1 ≠ [] ↔
      k.1 = "Emitter" ∨ k.1 = "_deprecated_Wrap" :=
  ⟨_, by rfl, by decide +kernel⟩

/-- `class Impl` with `emit` and `emit_many`, `class Fine(Impl, Emitter)`, `class Later(Emitter, Impl)`;
`class Half(Wrap)` with `emit` only, `class Mine(Half)` with `emit_many`; `class Both(Wrap)` with both. -/
def abstractDemo : List (Name × List Name) :=
  [("Impl", ["object"]), ("Fine", ["Impl", "Emitter"]), ("Later", ["Emitter", "Impl"]),
   ("Half", ["_deprecated_Wrap"]), ("Mine", ["Half"]), ("Both", ["_deprecated_Wrap"])]

def abstractDemoMethods : Methods := fun c =>
  if c = "Impl" ∨ c = "Both" then [("emit", false), ("emit_many", false)]
  else if c = "Half" then [("emit", false)]
  else if c = "Mine" then [("emit_many", false)]
  else []

theorem abstractDemo_concrete (c : Name) (n : String) : (abstractDemoMethods c).lookup n ≠ some true := by
  unfold abstractDemoMethods
  have h : ∀ l : List (String × Bool), (∀ q ∈ l, q.2 = false) → l.lookup n ≠ some true := by
    intro l hl
    induction l with
    | nil => simp
    | cons q l ih =>
      obtain ⟨k, v⟩ := q
      have hv : v = false := hl _ List.mem_cons_self
      subst hv
      rw [List.lookup_cons]
      split
      · simp
      · exact ih fun q hq => hl q (List.mem_cons_of_mem _ hq)
  split
  · exact h _ (by decide)
  · split
    · exact h _ (by decide)
    · split
      · exact h _ (by decide)
      · exact h _ (by decide)

/-- An implementation listed after `Emitter` does not count, and a class may be completed in steps. -/
example : ∃ env, defineAll builtins (library ++ abstractDemo) = .ok env ∧
    let t := collectAll (allMethods abstractDemoMethods) env [] (library ++ abstractDemo)
    t.of "Fine" = [] ∧ t.of "Later" = ["emit", "emit_many"] ∧ t.of "Half" = ["emit_many"] ∧
      t.of "Mine" = [] ∧ t.of "Both" = [] ∧ t.of "_deprecated_Wrap" = ["emit", "emit_many"] :=
  ⟨_, by rfl, by decide +kernel⟩

theorem abstractDemo_env : ∃ env, defineAll builtins (library ++ abstractDemo) = .ok env ∧
    env.mro "Both" = some ["Both", "_deprecated_Wrap", "RandomWithChildrenMixin", "RandomMixin",
      "ChildrenMixin", "Emitter", "Generic", "ABC", "object"] ∧
    env.mro "Later" = some ["Later", "Emitter", "Generic", "ABC", "Impl", "object"] :=
  ⟨_, by rfl, by decide, by decide⟩

/-- An instance of `Both`, with a source and the seed 7. -/
example : ∃ env l, defineAll builtins (library ++ abstractDemo) = .ok env ∧ env.mro "Both" = some l ∧
    ∃ i : DemoInst, make demoParts nobodyInit nobody
      (collectAll (allMethods abstractDemoMethods) env [] (library ++ abstractDemo)) "Both" l
      { rngSeed := some (some 7), children := some [[]] } () = .ok i ∧
    i.rngSeed = some (some 7) ∧ i.rng = some [some 7] ∧ i.children = some [[some 7]] := by
  obtain ⟨env, h1, h2, _⟩ := abstractDemo_env
  have hs : Sound env (nobody : Name → User Unit Unit) (definesReset nobody) := by
    intro d before after hd
    unfold theirs nobody at hd
    split at hd <;> cases hd
  exact ⟨env, _, h1, h2, C122_wrap (by intro k; revert k; decide) h1 abstractDemoMethods abstractDemo_concrete h2
    (by decide) (by decide) demoParts nobodyInit
    (fun d _ => by unfold theirArgs nobodyInit UserInit.args; split <;> rfl) nobody
    (fun e _ => by unfold theirs nobody; split <;> rfl) hs (some 7) [[]] ()⟩

/-- `Later` is refused. -/
example : ∃ env l, defineAll builtins (library ++ abstractDemo) = .ok env ∧ env.mro "Later" = some l ∧
    ∀ kw, make demoParts nobodyInit nobody
      (collectAll (allMethods abstractDemoMethods) env [] (library ++ abstractDemo)) "Later" l kw () =
        .error .typeError := by
  obtain ⟨env, h1, _, h2⟩ := abstractDemo_env
  refine ⟨env, _, h1, h2, fun kw => C122_refused (by intro k; revert k; decide) h1 abstractDemoMethods
    abstractDemo_concrete h2 (by decide) (n := "emit") (by decide) ?_ demoParts nobodyInit nobody kw ()⟩
  rintro d ⟨a, b, e, hd⟩
  have : a = ["Later"] := by
    match a, e with
    | [], e => exact absurd (List.cons.inj e).1 (by decide)
    | [x], e => cases e; rfl
    | x :: y :: a, e =>
      exfalso
      simp only [List.cons_append, List.cons.injEq] at e
      obtain ⟨_, _, e⟩ := e
      have : "Emitter" ∈ ["Generic", "ABC", "Impl", "object"] := by rw [e]; simp
      exact absurd this (by decide)
  subst this
  rw [List.mem_singleton] at hd
  subst hd
  decide

end Cls
end Fauxdoc
