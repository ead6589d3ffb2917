import Verif.Proofs.Relabel
import Verif.Props.Assign
import Verif.Props.Heap3
/-
What assigning source fields, a separator, a name or `hide` does (C65, C66), and C40 for
`BasedOnFields`.
-/
set_option linter.unusedSectionVars false
namespace Fauxdoc
open PyM World
variable {K : Type} [Field K] [LinearOrder K] [IsStrictOrderedRing K] [FloorRing K] {R : Rng K}

/-! ### C65: other source fields, another separator -/

theorem modify_onlyNode (r : Ref) (node : Node) (w : World R) :
    OnlyNode r w (w.upd r fun a => { a with node := some node }) ∧
      ((w.upd r fun a => { a with node := some node }).obj r).node = some node :=
  ⟨onlyNode_upd r _ w rfl, by rw [upd_obj, if_pos rfl]⟩

/-- **C65 (CopyFields).** `set_source_fields` replaces the source fields and nothing else: no field is
called, reset or seeded, the separator stays. -/
theorem C65_copy {r : Ref} {src src' : List Ref} {single single' : Bool} {sep : Option (List Char)}
    {w : World R} (hn : (w.obj r).node = some (.copyFields src single sep)) :
    ∃ w', setSourceFields r src' single' w = (.ok (), w') ∧ OnlyNode r w w' ∧
      (w'.obj r).node = some (.copyFields src' single' sep) := by
  unfold setSourceFields
  rw [run_get_bind, hn]
  exact ⟨_, rfl, modify_onlyNode r _ w⟩

/-- **C65 (BasedOnFields).** The action stays, too, and is not tried. -/
theorem C65_based_on {r : Ref} {src src' : List Ref} {single single' : Bool} {w : World R}
    (hn : (w.obj r).node = some (.basedOn src single)) :
    ∃ w', setSourceFields r src' single' w = (.ok (), w') ∧ OnlyNode r w w' ∧
      (w'.obj r).node = some (.basedOn src' single') := by
  unfold setSourceFields
  rw [run_get_bind, hn]
  exact ⟨_, rfl, modify_onlyNode r _ w⟩

/-- **C65 (separator).** Assigning a separator replaces the separator and nothing else. -/
theorem C65_separator {r : Ref} {src : List Ref} {single : Bool} {sep sep' : Option (List Char)}
    {w : World R} (hn : (w.obj r).node = some (.copyFields src single sep)) :
    ∃ w', setSeparator r sep' w = (.ok (), w') ∧ OnlyNode r w w' ∧
      (w'.obj r).node = some (.copyFields src single sep') := by
  unfold setSeparator
  rw [run_get_bind, hn]
  exact ⟨_, rfl, modify_onlyNode r _ w⟩

/-- **C65 (other classes).** No other object has `set_source_fields` or `reset_source`, and only
`BasedOnFields` has `seed_source`: asking for them raises `AttributeError` and changes nothing. -/
theorem C65_refused (str : Val → List Char) (fuel : Nat) {r : Ref} {w : World R}
    (hb : ∀ src single, (w.obj r).node ≠ some (.basedOn src single)) :
    (∀ s, seedSource str fuel r s w = (.error .attributeError, w)) ∧
    ((∀ src single sep, (w.obj r).node ≠ some (.copyFields src single sep)) →
      (∀ src single, setSourceFields r src single w = (.error .attributeError, w)) ∧
      resetSource str fuel r w = (.error .attributeError, w)) := by
  refine ⟨fun s => ?_, fun hc => ⟨fun src single => ?_, ?_⟩⟩
  · unfold seedSource
    rw [run_get_bind]
    rcases hn : (w.obj r).node with _ | n
    · rfl
    · cases n with
      | basedOn src single => exact absurd hn (hb _ _)
      | _ => rfl
  · unfold setSourceFields
    rw [run_get_bind]
    rcases hn : (w.obj r).node with _ | n
    · rfl
    · cases n with
      | basedOn src single => exact absurd hn (hb _ _)
      | copyFields src single sep => exact absurd hn (hc _ _ _)
      | _ => rfl
  · unfold resetSource
    rw [run_get_bind]
    rcases hn : (w.obj r).node with _ | n
    · rfl
    · cases n with
      | basedOn src single => exact absurd hn (hb _ _)
      | copyFields src single sep => exact absurd hn (hc _ _ _)
      | _ => rfl

theorem multiValued_onlyNode {r g : Ref} {w v : World R} (h : OnlyNode r w v)
    (hw : (w.obj r).isField = false) (hv : (v.obj r).isField = false)
    (hi : (v.obj r).items = (w.obj r).items) : multiValued g v = multiValued g w := by
  have hitems : ∀ x, (v.obj x).items = (w.obj x).items := fun x => by
    by_cases hx : x = r
    · rw [hx, hi]
    · rw [h.2.2.1 x hx]
  unfold multiValued
  by_cases hg : g = r
  · subst hg
    have key : ∀ u : World R, (u.obj g).isField = false → multiValued g u = true := by
      intro u hu
      unfold multiValued
      unfold Attrs.isField at hu
      rcases hn : (u.obj g).node with _ | node
      · rfl
      · rw [hn] at hu
        cases node <;> first | rfl | cases hu
    exact (key v hv).trans (key w hw).symm
  · rw [h.2.2.1 g hg]
    rcases (w.obj g).node with _ | node
    · rfl
    · cases node <;> first | rfl | exact congrArg Field.multiValued (hitems _)

theorem copy_cache {r : Ref} {w v : World R} (h : OnlyNode r w v) (g : Ref) :
    (v.obj g).cache = (w.obj g).cache := by
  by_cases hg : g = r
  · rw [hg, h.2.2.2]
  · rw [h.2.2.1 g hg]

/-- **C65 (CopyFields emission).** From then on the emitter copies the last values of the new source
fields: of one single-valued field, its value; otherwise the list of values, or the joined string. -/
theorem C65_copy_emits (str : Val → List Char) (fuel : Nat) {r : Ref} {src src' : List Ref}
    {single single' : Bool} {sep : Option (List Char)} {w w' : World R}
    (hn : (w.obj r).node = some (.copyFields src single sep))
    (h : setSourceFields r src' single' w = (.ok (), w')) :
    (∀ g, OneSource w src' single' g →
      World.call str (fuel + 1) r none w' = (.ok (w.obj g).cache, w')) ∧
    ((∀ g, ¬ OneSource w src' single' g) → sep = none →
      World.call str (fuel + 1) r none w' =
        (.ok (if lastValues w src' = [] then .none else .list (lastValues w src')), w')) ∧
    ((∀ g, ¬ OneSource w src' single' g) → ∀ s, sep = some s →
      ∃ x, Joined s ((lastValues w src').map str) x ∧
        World.call str (fuel + 1) r none w' = (.ok (.str x), w')) := by
  obtain ⟨w1, h1, ho, hn'⟩ := C65_copy (src' := src') (single' := single') hn
  rw [h1, Prod.mk.injEq] at h
  obtain ⟨-, rfl⟩ := h
  have hlast : lastValues w1 src' = lastValues w src' := by
    unfold lastValues
    congr 1
    exact List.map_congr_left fun g _ => by rw [copy_cache ho]
  have hone : ∀ g, OneSource w1 src' single' g ↔ OneSource w src' single' g := fun g => by
    unfold OneSource
    rw [multiValued_onlyNode ho (by unfold Attrs.isField; rw [hn]) (by unfold Attrs.isField; rw [hn'])
      (by unfold Attrs.items; rw [hn, hn'])]
  refine ⟨fun g hg => ?_, fun hg hs => ?_, fun hg s hs => ?_⟩
  · rw [C42_store_single str fuel hn' ((hone g).2 hg), copy_cache ho]
  · subst hs
    rw [C42_store_many str fuel hn' fun g hg' => hg g ((hone g).1 hg'), hlast]
  · subst hs
    have := C42_store_joined str fuel hn' fun g hg' => hg g ((hone g).1 hg')
    rwa [hlast] at this

/-- **C65 (BasedOnFields emission, one field).** From then on the action is applied to the last value
of the new source field. -/
theorem C65_based_on_emits_one (str : Val → List Char) (fuel : Nat) {r g : Ref} {src : List Ref}
    {single single' : Bool} {cb : Callback R.G} {w w' : World R}
    (hn : (w.obj r).node = some (.basedOn src single)) (hw : (w.obj r).wrapper = some cb)
    (h : setSourceFields r [g] single' w = (.ok (), w')) (x : Val) (v : World R) :
    World.call str (fuel + 1) r none w' = (.ok x, v) ↔
      Applies (rngAttr r) cb [([(w.obj g).cache], [])] w' [x] v := by
  obtain ⟨w1, h1, ho, hn'⟩ := C65_based_on (src' := [g]) (single' := single') hn
  rw [h1, Prod.mk.injEq] at h
  obtain ⟨-, rfl⟩ := h
  rw [C44_store_one str fuel hn' (by rw [ho.2.2.2]; exact hw), copy_cache ho]

/-- **C65 (BasedOnFields emission, several fields).** The action gets the last values of the new
source fields under their names. -/
theorem C65_based_on_emits_many (str : Val → List Char) (fuel : Nat) {r : Ref} {src src' : List Ref}
    {single single' : Bool} {cb : Callback R.G} {w w' : World R}
    (hn : (w.obj r).node = some (.basedOn src single)) (hw : (w.obj r).wrapper = some cb)
    (h : setSourceFields r src' single' w = (.ok (), w')) (hlen : src'.length ≠ 1)
    (hnames : (src'.map fun g => (w.obj g).name).Nodup)
    (hself : "self" ∉ src'.map fun g => (w.obj g).name) (x : Val) (v : World R) :
    World.call str (fuel + 1) r none w' = (.ok x, v) ↔
      Applies (rngAttr r) cb [([], src'.map fun g => ((w.obj g).name, (w.obj g).cache))] w' [x] v := by
  obtain ⟨w1, h1, ho, hn'⟩ := C65_based_on (src' := src') (single' := single') hn
  rw [h1, Prod.mk.injEq] at h
  obtain ⟨-, rfl⟩ := h
  have hname : ∀ g, (w1.obj g).name = (w.obj g).name := fun g => by
    by_cases hg : g = r
    · subst hg; unfold Attrs.name; rw [hn, hn']
    · rw [ho.2.2.1 g hg]
  have e1 : (src'.map fun g => (w1.obj g).name) = src'.map fun g => (w.obj g).name :=
    List.map_congr_left fun g _ => hname g
  rw [C44_store_many str fuel hn' (by rw [ho.2.2.2]; exact hw) hlen (by rw [e1]; exact hnames)
    (by rw [e1]; exact hself)]
  rw [show (src'.map fun g => ((w1.obj g).name, (w1.obj g).cache)) =
    src'.map fun g => ((w.obj g).name, (w.obj g).cache) from
    List.map_congr_left fun g _ => by rw [hname, copy_cache ho]]

/-! ### C66: another name, another `hide` -/

theorem setHide_ok {f : Ref} {b : Bool} {w w' : World R} :
    setHide f b w = (.ok (), w') ↔
      (w.obj f).isField = true ∧ w' = relabelAt f id (fun _ => b) w := by
  unfold setHide Attrs.isField relabelAt
  rw [run_get_bind]
  have hup : ∀ n, (w.obj f).node = n →
      w.upd f (fun a => { a with node := relabel id (fun _ => b) a.node }) =
        w.upd f (fun a => { a with node := relabel id (fun _ => b) n }) := by
    intro n hn
    unfold World.upd
    congr 1
    funext x
    by_cases hx : x = f
    · subst hx; rw [if_pos rfl, if_pos rfl]; dsimp only; rw [hn]
    · rw [if_neg hx, if_neg hx]
  rw [hup _ rfl]
  rcases (w.obj f).node with _ | node
  · constructor
    · intro h; cases h
    · rintro ⟨h, -⟩; cases h
  · cases node with
    | field n e rp g hd =>
      constructor
      · intro h; cases h; exact ⟨rfl, rfl⟩
      · rintro ⟨-, rfl⟩; rfl
    | _ =>
      constructor
      · intro h; cases h
      · rintro ⟨h, -⟩; cases h

theorem setName_ok {f : Ref} {name : String} {w w' : World R} :
    setName f name w = (.ok (), w') ↔
      (w.obj f).isField = true ∧ w' = relabelAt f (fun _ => name) id w := by
  unfold setName Attrs.isField relabelAt
  rw [run_get_bind]
  have hup : ∀ n, (w.obj f).node = n →
      w.upd f (fun a => { a with node := relabel (fun _ => name) id a.node }) =
        w.upd f (fun a => { a with node := relabel (fun _ => name) id n }) := by
    intro n hn
    unfold World.upd
    congr 1
    funext x
    by_cases hx : x = f
    · subst hx; rw [if_pos rfl, if_pos rfl]; dsimp only; rw [hn]
    · rw [if_neg hx, if_neg hx]
  rw [hup _ rfl]
  rcases (w.obj f).node with _ | node
  · constructor
    · intro h; cases h
    · rintro ⟨h, -⟩; cases h
  · cases node with
    | field n e rp g hd =>
      constructor
      · intro h; cases h; exact ⟨rfl, rfl⟩
      · rintro ⟨-, rfl⟩; rfl
    | _ =>
      constructor
      · intro h; cases h
      · rintro ⟨h, -⟩; cases h

theorem isField_of_node {a b : Attrs R} (h : a.node = b.node) : a.isField = b.isField := by
  unfold Attrs.isField; rw [h]

theorem hide_relabel (f x : Ref) (F : String → String) (G : Bool → Bool) (w : World R) :
    ((relabelAt f F G w).obj x).hide =
      if x = f ∧ (w.obj x).isField = true then G (w.obj x).hide else (w.obj x).hide := by
  rw [relabelAt_obj]
  unfold Attrs.hide Attrs.isField
  by_cases hx : x = f
  · subst hx
    rcases (w.obj x).node with _ | node
    · simp [relabel]
    · cases node <;> simp [relabel]
  · simp [hx]

/-- **C66 (hide, calls).** A call gives the same after `hide` was assigned, and then assigning `hide`
commutes with the call: the flag influences no emitter and no field. -/
theorem C66_hide_call (str : Val → List Char) (fuel : Nat) (r : Ref) (arg : Option Val) {f : Ref}
    {b : Bool} {w w' : World R} (h : setHide f b w = (.ok (), w')) :
    (World.call str fuel r arg w').1 = (World.call str fuel r arg w).1 ∧
      setHide f b (World.call str fuel r arg w).2 = (.ok (), (World.call str fuel r arg w').2) := by
  obtain ⟨hf, rfl⟩ := setHide_ok.1 h
  obtain ⟨h1, h2, h3⟩ := Relab.call (R := R) (f := f) (F := id) (G := fun _ => b)
    (nodes := fun x => (w.obj x).node) (Or.inl rfl) str fuel r arg w _ ⟨rfl, fun _ => rfl⟩
  exact ⟨h1.symm, setHide_ok.2 ⟨(isField_of_node (h3 f)).trans hf, h2⟩⟩

/-- **C66 (name, calls).** The same for `name`, unless the field is one of several sources of a
`BasedOnFields` emitter. -/
theorem C66_name_call (str : Val → List Char) (fuel : Nat) (r : Ref) (arg : Option Val) {f : Ref}
    {name : String} {w w' : World R} (h : setName f name w = (.ok (), w'))
    (hu : ∀ x src single, (w.obj x).node = some (.basedOn src single) → f ∈ src → src.length = 1) :
    (World.call str fuel r arg w').1 = (World.call str fuel r arg w).1 ∧
      setName f name (World.call str fuel r arg w).2 =
        (.ok (), (World.call str fuel r arg w').2) := by
  obtain ⟨hf, rfl⟩ := setName_ok.1 h
  obtain ⟨h1, h2, h3⟩ := Relab.call (R := R) (f := f) (F := fun _ => name) (G := id)
    (nodes := fun x => (w.obj x).node) (Or.inr hu) str fuel r arg w _ ⟨rfl, fun _ => rfl⟩
  exact ⟨h1.symm, setName_ok.2 ⟨(isField_of_node (h3 f)).trans hf, h2⟩⟩

theorem FieldsRun.relab {f : Ref} {F : String → String} {G : Bool → Bool}
    {nodes : Ref → Option Node} (hN : NameUnused f F nodes) (str : Val → List Char) (fuel : Nat)
    {fields : Dict Ref} {w v : World R} {vals : List Val}
    (hr : FieldsRun (fun r => World.call str fuel r none) fields w vals v) {w' : World R}
    (h : Relab f F G nodes w w') :
    ∃ v', FieldsRun (fun r => World.call str fuel r none) fields w' vals v' ∧
      Relab f F G nodes v v' := by
  induction hr generalizing w' with
  | nil s => exact ⟨w', .nil _, h⟩
  | cons h1 _ ih =>
    rename_i k g fs s s1 s2 x xs _
    obtain ⟨e1, e2⟩ := Relab.call hN str fuel g none s w' h
    rw [h1] at e1 e2
    obtain ⟨v', h3, h4⟩ := ih e2
    refine ⟨v', .cons (s1 := (World.call str fuel g none w').2) ?_ h3, h4⟩
    exact Prod.ext e1.symm rfl

/-- **C66 (hide, documents).** Assigning `hide` changes in which documents the field's value appears,
and nothing else: the document holds the same values, those of the fields that are now not hidden, and
making it and assigning `hide` commute. -/
theorem C66_hide (str : Val → List Char) (fuel : Nat) {fields : Dict Ref} (hk : fields.keys.Nodup)
    {f : Ref} {b : Bool} {w w' v : World R} {doc : Dict Val}
    (h : setHide f b w = (.ok (), w')) (hd : World.document str fuel fields w = (.ok doc, v)) :
    ∃ vals v', FieldsRun (fun r => World.call str fuel r none) fields w vals v ∧
      doc = visible (fun r => (w.obj r).hide) fields vals ∧
      World.document str fuel fields w' =
        (.ok (visible (fun r => if r = f then b else (w.obj r).hide) fields vals), v') ∧
      setHide f b v = (.ok (), v') := by
  obtain ⟨vals, h1, h2⟩ := (C49_store str fuel hk w v doc).1 hd
  obtain ⟨hf, rfl⟩ := setHide_ok.1 h
  obtain ⟨v', h3, h4⟩ := FieldsRun.relab (R := R) (f := f) (F := id) (G := fun _ => b)
    (nodes := fun x => (w.obj x).node) (Or.inl rfl) str fuel h1 ⟨rfl, fun _ => rfl⟩
  refine ⟨vals, v', h1, h2, ?_, setHide_ok.2 ⟨(isField_of_node (h4.2 f)).trans hf, h4.1⟩⟩
  rw [C49_store str fuel hk]
  refine ⟨vals, h3, ?_⟩
  congr 1
  funext x
  rw [hide_relabel]
  by_cases hx : x = f
  · subst hx; simp [hf]
  · simp [hx]

/-- **C66 (name, documents).** Renaming a field changes no document (the schema keeps its keys) unless
the field is one of several sources of a `BasedOnFields` emitter. -/
theorem C66_name (str : Val → List Char) (fuel : Nat) {fields : Dict Ref} (hk : fields.keys.Nodup)
    {f : Ref} {name : String} {w w' v : World R} {doc : Dict Val}
    (h : setName f name w = (.ok (), w'))
    (hu : ∀ x src single, (w.obj x).node = some (.basedOn src single) → f ∈ src → src.length = 1)
    (hd : World.document str fuel fields w = (.ok doc, v)) :
    ∃ v', World.document str fuel fields w' = (.ok doc, v') ∧ setName f name v = (.ok (), v') := by
  obtain ⟨vals, h1, h2⟩ := (C49_store str fuel hk w v doc).1 hd
  obtain ⟨hf, rfl⟩ := setName_ok.1 h
  obtain ⟨v', h3, h4⟩ := FieldsRun.relab (R := R) (f := f) (F := fun _ => name) (G := id)
    (nodes := fun x => (w.obj x).node) (Or.inr hu) str fuel h1 ⟨rfl, fun _ => rfl⟩
  refine ⟨v', ?_, setName_ok.2 ⟨(isField_of_node (h4.2 f)).trans hf, h4.1⟩⟩
  rw [C49_store str fuel hk]
  refine ⟨vals, h3, ?_⟩
  rw [h2]
  congr 1
  funext x
  rw [hide_relabel]
  simp

/-! ### C40 for `BasedOnFields` -/

theorem Dict.keys_update_congr {β γ : Type} :
    ∀ (l : List (String × β)) (l' : List (String × γ)) (d : Dict β) (d' : Dict γ),
      l.map Prod.fst = l'.map Prod.fst → d.keys = d'.keys →
      (d.update l).keys = (d'.update l').keys := by
  intro l
  induction l with
  | nil =>
    intro l' d d' h hd
    cases l' with
    | nil => exact hd
    | cons a l' => cases h
  | cons a l ih =>
    intro l' d d' h hd
    cases l' with
    | nil => cases h
    | cons a' l' =>
      simp only [List.map_cons, List.cons.injEq] at h
      refine ih l' (d.set a.1 a.2) (d'.set a'.1 a'.2) h.2 ?_
      rw [Dict.keys_set, Dict.keys_set, h.1, hd]

theorem Dict.mem_keys_update {β : Type} {k : String} :
    ∀ (l : List (String × β)) (d : Dict β), k ∈ (d.update l).keys →
      k ∈ d.keys ∨ k ∈ l.map Prod.fst := by
  intro l
  induction l with
  | nil => intro d h; exact Or.inl h
  | cons a l ih =>
    intro d h
    rcases ih (d.set a.1 a.2) h with h | h
    · rw [Dict.keys_set] at h
      split at h
      · exact Or.inl h
      · rcases List.mem_append.1 h with h | h
        · exact Or.inl h
        · exact Or.inr (by simp [List.mem_singleton.1 h])
    · exact Or.inr (List.mem_cons_of_mem _ h)

variable {σ G : Type}

/-- **C40 (BasedOnFields, one field).** If the setter accepts the action, then whatever the field's
last value, emission runs the action's body: Python does not reject the arguments. -/
theorem C40_based_on_one (L : Attr σ G) (g : SourceGroup σ) {f : SourceField σ} (hg : g.fields = [f])
    (cb : Callback G) (hv : ∀ ps, cb.sig = some ps → Sig.Valid ps) (store reset : PyM σ Unit)
    (s t : σ) (h : BasedOnFields.setAction g cb store reset s = (.ok ⟨⟩, t)) (s' : σ) :
    BodyRuns L cb [f.previous s'] [] := by
  obtain ⟨_, s1, _, h1⟩ := PyM.bind_eq_ok h
  obtain ⟨a, s2, h2, h3⟩ := PyM.bind_eq_ok h1
  unfold BasedOnFields.trial at h2
  rw [hg] at h2
  obtain ⟨v0, s3, _, h4⟩ := PyM.bind_eq_ok h2
  cases h4
  obtain ⟨s4, h5⟩ := finally_eq_ok h3
  rw [PyM.lift_apply, Prod.mk.injEq] at h5
  exact bodyRuns_of_mock L cb hv (by simp [Dict.keys]) (by simp [Dict.keys]) h5.1 rfl rfl

/-- **C40 (BasedOnFields, several fields).** The same with the fields' last values under their names,
provided no field is named `rng` when the action asks for a generator (see `C40_violated`). -/
theorem C40_based_on_many_partial (L : Attr σ G) (g : SourceGroup σ) (hg : g.fields.length ≠ 1)
    (cb : Callback G) (hv : ∀ ps, cb.sig = some ps → Sig.Valid ps)
    (hrng : cb.DeclaresRng → "rng" ∉ g.fields.map (·.name)) (store reset : PyM σ Unit)
    (s t : σ) (h : BasedOnFields.setAction g cb store reset s = (.ok ⟨⟩, t)) (s' : σ) :
    BodyRuns L cb [] (Dict.ofItems (g.fields.map fun f => (f.name, f.previous s'))) := by
  obtain ⟨_, s1, _, h1⟩ := PyM.bind_eq_ok h
  obtain ⟨a, s2, h2, h3⟩ := PyM.bind_eq_ok h1
  have hmap : ∀ (l : List (SourceField σ)) (s s2 : σ) (items : List (String × Val)),
      mapPyM (fun (f : SourceField σ) => do return (f.name, ← f.call)) l s = (.ok items, s2) →
      items.map Prod.fst = l.map (·.name) := by
    intro l
    induction l with
    | nil => intro s s2 items h; cases h; rfl
    | cons f l ih =>
      intro s s2 items h
      unfold mapPyM at h
      obtain ⟨x, s3, h4, h5⟩ := PyM.bind_eq_ok h
      obtain ⟨v, s4, _, h6⟩ := PyM.bind_eq_ok h4
      obtain ⟨xs, s5, h7, h8⟩ := PyM.bind_eq_ok h5
      cases h6
      cases h8
      simp [ih _ _ _ h7]
  have ha : ∃ items : List (String × Val), a = ([], Dict.ofItems items) ∧
      items.map Prod.fst = g.fields.map (·.name) := by
    unfold BasedOnFields.trial at h2
    rcases hl : g.fields with _ | ⟨f, _ | ⟨f', l⟩⟩
    · rw [hl] at h2
      obtain ⟨items, s3, h4, h5⟩ := PyM.bind_eq_ok h2
      cases h5
      exact ⟨items, rfl, hmap _ _ _ _ h4⟩
    · rw [hl] at hg; exact absurd rfl hg
    · rw [hl] at h2
      obtain ⟨items, s3, h4, h5⟩ := PyM.bind_eq_ok h2
      cases h5
      exact ⟨items, rfl, hmap _ _ _ _ h4⟩
  obtain ⟨items, rfl, hitems⟩ := ha
  obtain ⟨s4, h5⟩ := finally_eq_ok h3
  rw [PyM.lift_apply, Prod.mk.injEq] at h5
  refine bodyRuns_of_mock L cb hv (Dict.nodup_ofItems _) (fun hd hm => ?_) h5.1 rfl
    (Dict.keys_update_congr _ _ _ _ ?_ rfl)
  · rcases Dict.mem_keys_update _ _ hm with hm | hm
    · simp [Dict.keys] at hm
    · rw [hitems] at hm
      exact hrng hd hm
  · rw [hitems, List.map_map]
    rfl

/-- `lambda n, kind: ...`. -/
def pairOf : Callback Nat where
  sig := some [⟨"n", .posOrKw, false⟩, ⟨"kind", .posOrKw, false⟩]
  run _ kw := .ok (.list (kw.map (·.2)))
  runRng _ _ := PyM.raise .typeError

/-- `demoWorld` with an emitter 20 based on the fields `n` and `kind`. -/
def pairWorld : World demoRng := (World.newBasedOnFields demoStr 5 [3, 11] false pairOf (some 9) demoWorld).2

/-- Construction accepted the action for the emitter 16, based on the field `n`.  After
`set_source_fields([n, kind])`, which does not check the action again, every emission fails: C40 is
false if source fields may be exchanged. -/
theorem C40_retarget_violated :
    (World.call demoStr 5 16 none demoWorld).1 = .ok (.list [.int 1, .int 1]) ∧
    (setSourceFields 16 [3, 11] false demoWorld).1 = .ok () ∧
    (World.call demoStr 5 16 none (setSourceFields 16 [3, 11] false demoWorld).2).1 =
      .error .typeError := by decide +kernel

/-- The same if a source field is renamed. -/
theorem C40_rename_violated :
    (World.newBasedOnFields demoStr 5 [3, 11] false pairOf (some 9) demoWorld).1 = .ok 20 ∧
    (World.call demoStr 5 20 none pairWorld).1 = .ok (.list [.int 2, .int 8]) ∧
    (World.call demoStr 5 20 none (setName 3 "m" pairWorld).2).1 = .error .typeError := by
  decide +kernel

/-! ### Concrete cases -/

/-- A `CopyFields` has no `seed_source`; a field has none of the three methods. -/
example : (seedSource demoStr 5 12 (some 1) demoWorld).1 = .error .attributeError ∧
    (resetSource demoStr 5 12 demoWorld).1 = .ok () ∧
    (setSourceFields 3 [11] false demoWorld).1 = .error .attributeError := by decide +kernel

/-- The emitter 12 copies `n` and `kind`, joined; after `set_source_fields(n)` it gives the value of
`n` as it is. -/
example : (World.call demoStr 5 12 none (World.document demoStr 5 demoFields demoWorld).2).1
      = .ok (.str ['2', '-', '8']) ∧
    (World.call demoStr 5 12 none
      (setSourceFields 12 [3] true (World.document demoStr 5 demoFields demoWorld).2).2).1
      = .ok (.int 2) := by decide +kernel

example : OneSource demoWorld [3] true 3 := by unfold OneSource; decide +kernel

/-- Another separator. -/
example : (World.call demoStr 5 12 none
      (setSeparator 12 (some ['+']) (World.document demoStr 5 demoFields demoWorld).2).2).1
      = .ok (.str ['2', '+', '8']) := by decide +kernel

/-- The emitter 16 doubles the value of `n`; afterwards that of `kind`. -/
example : (World.call demoStr 5 16 none
      (setSourceFields 16 [11] true (World.document demoStr 5 demoFields demoWorld).2).2).1
      = .ok (.list [.int 8, .int 8]) := by decide +kernel

/-- The emitter 20 is based on two fields; afterwards their order is the other one. -/
example : (World.call demoStr 5 20 none (setSourceFields 20 [11, 3] false pairWorld).2).1
      = .ok (.list [.int 8, .int 2]) := by decide +kernel

example : ([11, 3].map fun g => (pairWorld.obj g).name) = ["kind", "n"] := by decide +kernel

/-- Documents show the field `kind` once it is not hidden, and not the field `n` once it is. -/
example : (World.document demoStr 5 [("n", 3), ("kind", 11)] demoWorld).1 = .ok [("n", .int 2)] ∧
    (World.document demoStr 5 [("n", 3), ("kind", 11)] (setHide 11 false demoWorld).2).1
      = .ok [("n", .int 2), ("kind", .int 8)] ∧
    (World.document demoStr 5 [("n", 3), ("kind", 11)] (setHide 3 true demoWorld).2).1 = .ok [] := by
  decide +kernel

/-- Renaming `n` leaves documents alone: the emitter based on it has one source. -/
example : (World.document demoStr 5 demoFields (setName 3 "m" demoWorld).2).1 =
    (World.document demoStr 5 demoFields demoWorld).1 := by decide +kernel

/-- The hypothesis of `C66_name` holds in `demoWorld'`. -/
example : ∀ x src single, (demoWorld'.obj x).node = some (.basedOn src single) → 3 ∈ src →
    src.length = 1 := by
  intro x src single h _
  by_cases hx : x < 20
  · have : ∀ y < 20, ∀ src single, (demoWorld'.obj y).node = some (.basedOn src single) →
        src.length = 1 := by
      intro y hy src single h
      have key : ∀ y < 20, (match (demoWorld'.obj y).node with
        | some (.basedOn src _) => src.length == 1
        | _ => true) = true := by decide +kernel
      have := key y hy
      rw [h] at this
      exact beq_iff_eq.1 this
    exact this x hx src single h
  · have : (demoWorld'.obj x).node = none := by
      unfold demoWorld'
      dsimp only
      rw [if_neg hx]; rfl
    rw [this] at h; cases h

end Fauxdoc
