import Verif.Props.Seeds2
/-
C52: the values of a field do not depend on unrelated fields.
-/
set_option linter.unusedSectionVars false
namespace Fauxdoc
open PyM World
variable {K : Type} [Field K] [LinearOrder K] [FloorRing K] {R : Rng K}

/-- The entries of a document under the given names. -/
def restrict (names : List String) (d : Dict Val) : Dict Val := d.filter fun kv => kv.1 ∈ names

theorem Dict.set_cons {β : Type} (a k : String) (b v : β) (d : Dict β) :
    Dict.set ((a, b) :: d) k v = if a = k then (k, v) :: d else (a, b) :: d.set k v := rfl

theorem restrict_cons (names : List String) (kv : String × Val) (d : Dict Val) :
    restrict names (kv :: d) = if kv.1 ∈ names then kv :: restrict names d else restrict names d := by
  unfold restrict
  by_cases h : kv.1 ∈ names <;> simp [h]

theorem restrict_set (names : List String) (d : Dict Val) (k : String) (v : Val) :
    restrict names (d.set k v) = if k ∈ names then (restrict names d).set k v
      else restrict names d := by
  induction d with
  | nil =>
    by_cases hk : k ∈ names <;> simp [restrict, Dict.set, hk]
  | cons kv d ih =>
    obtain ⟨a, b⟩ := kv
    rw [Dict.set_cons, restrict_cons]
    by_cases h : a = k
    · subst h
      rw [if_pos rfl, restrict_cons]
      by_cases hk : a ∈ names
      · simp only [if_pos hk, Dict.set_cons, if_pos]
      · simp only [if_neg hk]
    · rw [if_neg h, restrict_cons, ih]
      dsimp only
      by_cases ha : a ∈ names
      · rw [if_pos ha, if_pos ha]
        by_cases hk : k ∈ names
        · rw [if_pos hk, if_pos hk, Dict.set_cons, if_neg h]
        · rw [if_neg hk, if_neg hk]
      · rw [if_neg ha, if_neg ha]

/-- `P` contains everything its objects depend on: child emitters and source fields. -/
structure SelfContained (P : Ref → Prop) (w : World R) : Prop where
  children : ∀ r, P r → ∀ c ∈ (w.obj r).children, P c
  sources : ∀ r, P r → ∀ g ∈ (w.obj r).sources, P g
  seeded : ∀ r, P r → (w.obj r).random = true → (w.obj r).rngSeed ≠ none

/-- The fields outside `P` share no emitters with those in `P`. -/
def Unrelated (P : Ref → Prop) (fields : Dict Ref) (w : World R) : Prop :=
  ∀ kf ∈ fields, ¬ P kf.2 → ∀ x, Below w kf.2 x → ¬ P x

namespace World
variable {nodes : Ref → Option Node} {wrappers : Ref → Option (Callback R.G)} {P : Ref → Prop}

theorem Same.refl_of (P : Ref → Prop) (w : World R) (h : SelfContained P w) :
    Same (fun x => (w.obj x).node) (fun x => (w.obj x).wrapper) P w w where
  node _ _ := rfl
  wrapper _ _ := rfl
  same _ _ := rfl
  seeds x k hx hk := by
    have := h.seeded x hx (by unfold Attrs.random; rw [hk])
    unfold Attrs.rngSeed at this
    rw [hk] at this
    exact Option.ne_none_iff_exists'.1 this

/-- The loop of a schema, with and without the fields outside `P`. -/
theorem loop_filter [DecidablePred P] (hP : ∀ r, P r → ∀ c ∈ Node.childRefs (nodes r), P c)
    (hsrc : ∀ r, P r → ∀ g ∈ Node.sourceRefs (nodes r), P g) (str : Val → List Char) (fuel : Nat)
    (names : List String) (w0 : World R) (hide hide' : Ref → Bool) (fields : Dict Ref)
    (hhide : ∀ kf ∈ fields, P kf.2 → hide kf.2 = hide' kf.2)
    (hnames : ∀ kf ∈ fields, kf.1 ∈ names ↔ P kf.2)
    (hout : Unrelated P fields w0) (doc d : Dict Val) (w w' u : World R)
    (hcfg : SameConfig w0 w) (hS : Same nodes wrappers P w u)
    (h : Schema.loop hide (fun r => call str fuel r none) doc fields w = (.ok d, w')) :
    ∃ u', Schema.loop hide' (fun r => call str fuel r none) (restrict names doc)
        (fields.filter fun kf => P kf.2) u = (.ok (restrict names d), u') ∧
      Same nodes wrappers P w' u' ∧ SameConfig w0 w' := by
  induction fields generalizing doc w u with
  | nil =>
    cases h
    exact ⟨u, rfl, hS, hcfg⟩
  | cons kf fs ih =>
    obtain ⟨k, f⟩ := kf
    unfold Schema.loop at h
    obtain ⟨v, w1, h1, h2⟩ := PyM.bind_eq_ok h
    have hcfg1 : SameConfig w0 w1 := by
      have := C56_configuration str fuel f none w
      rw [h1] at this
      exact fun r => (this r).trans (hcfg r)
    have ih' := fun doc u hS h => ih (fun kf hkf => hhide kf (List.mem_cons_of_mem _ hkf))
      (fun kf hkf => hnames kf (List.mem_cons_of_mem _ hkf))
      (fun kf hkf => hout kf (List.mem_cons_of_mem _ hkf)) doc w1 u hcfg1 hS h
    have hkn := hnames (k, f) (by simp)
    dsimp only at hkn
    by_cases hf : P f
    · rw [List.filter_cons_of_pos (by simpa using hf)]
      obtain ⟨e1, e2⟩ := (same_steps nodes wrappers P hP hsrc).call str fuel f hf none w u hS
      rcases hu : call str fuel f none u with ⟨x | v', u1⟩
      · rw [h1, hu] at e1; cases e1
      · rw [h1, hu] at e1 e2
        cases e1
        unfold Schema.loop
        rw [PyM.bind_apply, hu]
        dsimp only
        rw [← hhide (k, f) (by simp) hf]
        dsimp only
        by_cases hh : hide f = true
        · rw [if_pos hh] at h2 ⊢
          exact ih' doc u1 e2 h2
        · rw [if_neg hh] at h2 ⊢
          have := ih' _ u1 e2 h2
          rw [restrict_set, if_pos (hkn.2 hf)] at this
          exact this
    · rw [List.filter_cons_of_neg (by simpa using hf)]
      have hbel : ∀ x, Below w f x → ¬ P x := fun x hx => hout (k, f) (by simp) hf x
        ((Below.congr fun y => node_of_shape (shape_of_config (hcfg y))).1 hx)
      have hS1 : Same nodes wrappers P w1 u := by
        have key : ∀ x, P x → w1.obj x = w.obj x := by
          intro x hx
          have := C57_only_below str fuel f x none w fun hb => hbel x hb hx
          rw [h1] at this
          exact this
        exact ⟨fun x hx => by rw [key x hx]; exact hS.node x hx,
          fun x hx => by rw [key x hx]; exact hS.wrapper x hx,
          fun x hx => by rw [key x hx]; exact hS.same x hx,
          fun x k hx hk => by rw [key x hx]; exact hS.seeds x k hx hk⟩
      by_cases hh : hide f = true
      · rw [if_pos hh] at h2
        exact ih' doc u hS1 h2
      · rw [if_neg hh] at h2
        have := ih' _ u hS1 h2
        rw [restrict_set, if_neg fun hk => hf (hkn.1 hk)] at this
        exact this

/-- The names of the fields in `P` determine them. -/
theorem names_iff [DecidablePred P] (fields : Dict Ref) (hn : fields.keys.Nodup) (kf : String × Ref)
    (hkf : kf ∈ fields) : kf.1 ∈ Dict.keys (fields.filter fun kf => P kf.2) ↔ P kf.2 := by
  constructor
  · intro h
    obtain ⟨kf', h1, h2⟩ := List.mem_map.1 h
    obtain ⟨h3, h4⟩ := List.mem_filter.1 h1
    have : kf' = kf := List.inj_on_of_nodup_map hn h3 hkf h2
    subst this
    simpa using h4
  · intro h
    exact List.mem_map_of_mem (List.mem_filter.2 ⟨hkf, by simpa using h⟩)

theorem documents_filter [DecidablePred P] (hP : ∀ r, P r → ∀ c ∈ Node.childRefs (nodes r), P c)
    (hsrc : ∀ r, P r → ∀ g ∈ Node.sourceRefs (nodes r), P g) (str : Val → List Char) (fuel : Nat)
    (fields : Dict Ref) (hn : fields.keys.Nodup) (w0 : World R) (hout : Unrelated P fields w0)
    (k : Nat) (w u : World R) (hcfg : SameConfig w0 w) (hS : Same nodes wrappers P w u)
    (hok : ∀ d ∈ documents str fuel fields k w, ∃ doc, d = .ok doc) :
    documents str fuel (fields.filter fun kf => P kf.2) k u =
      (documents str fuel fields k w).map fun d =>
        d.map (restrict (Dict.keys (fields.filter fun kf => P kf.2))) := by
  induction k generalizing w u with
  | zero => rfl
  | succ k ih =>
    unfold documents at hok ⊢
    obtain ⟨d, hd⟩ := hok _ List.mem_cons_self
    rcases hw : document str fuel fields w with ⟨x, w'⟩
    rw [hw] at hd
    dsimp only at hd
    subst hd
    have h0 := hw
    unfold document Schema.call at h0
    rw [PyM.run_get_bind] at h0
    obtain ⟨u', h1, h2, h3⟩ := loop_filter (P := P) hP hsrc str fuel
      (Dict.keys (fields.filter fun kf => P kf.2)) w0 (fun r => (w.obj r).hide)
      (fun r => (u.obj r).hide) fields (fun kf _ hp => by rw [hS.same kf.2 hp])
      (fun kf hkf => names_iff fields hn kf hkf) hout [] d w w' u hcfg hS h0
    have hu : document str fuel (fields.filter fun kf => P kf.2) u =
        (.ok (restrict (Dict.keys (fields.filter fun kf => P kf.2)) d), u') := by
      unfold document Schema.call
      rw [PyM.run_get_bind]
      exact h1
    rw [hu, List.map_cons]
    dsimp only
    rw [hw] at hok
    rw [ih w' u' h3 h2 fun d hd => hok d (by simp [hd])]
    rfl

end World

/-- **C52 (removing unrelated fields).** Let `P` be a set of objects that contains everything its
objects depend on, with seeds, and suppose that the fields outside `P` share no emitters with `P`.
As long as the schema produces documents, the schema without the fields outside `P` produces the
same documents, but for the entries of those fields. -/
theorem C52_removed (P : Ref → Prop) [DecidablePred P] (str : Val → List Char) (fuel : Nat)
    (fields : Dict Ref) (hn : fields.keys.Nodup) (w : World R) (hP : SelfContained P w)
    (hout : Unrelated P fields w) (k : Nat)
    (hok : ∀ d ∈ World.documents str fuel fields k w, ∃ doc, d = .ok doc) :
    World.documents str fuel (fields.filter fun kf => P kf.2) k w =
      (World.documents str fuel fields k w).map fun d =>
        d.map (restrict (Dict.keys (fields.filter fun kf => P kf.2))) :=
  World.documents_filter hP.children hP.sources str fuel fields hn w hout k w w (fun _ => rfl)
    (.refl_of P w hP) hok

/-- **C52.** Two schemas, over two stores that agree on `P`, contain the same fields out of `P`, in
the same order, and any other fields unrelated to these.  As long as both produce documents, these
have the same entries for the fields in `P`, document by document. -/
theorem C52_independent (P : Ref → Prop) [DecidablePred P] (str : Val → List Char) (fuel : Nat)
    (fields fields' : Dict Ref) (hn : fields.keys.Nodup) (hn' : fields'.keys.Nodup) (w w' : World R)
    (hP : SelfContained P w) (hagree : ∀ x, P x → w.obj x = w'.obj x)
    (hsame : (fields.filter fun kf => P kf.2) = fields'.filter fun kf => P kf.2)
    (hout : Unrelated P fields w) (hout' : Unrelated P fields' w') (k : Nat)
    (hok : ∀ d ∈ World.documents str fuel fields k w, ∃ doc, d = .ok doc)
    (hok' : ∀ d ∈ World.documents str fuel fields' k w', ∃ doc, d = .ok doc) :
    (World.documents str fuel fields k w).map (fun d =>
        d.map (restrict (Dict.keys (fields.filter fun kf => P kf.2)))) =
      (World.documents str fuel fields' k w').map fun d =>
        d.map (restrict (Dict.keys (fields.filter fun kf => P kf.2))) := by
  rw [← C52_removed P str fuel fields hn w hP hout k hok]
  conv_rhs => rw [hsame]
  rw [hsame]
  have h0 := World.Same.refl_of P w hP
  have hS : World.Same (fun x => (w.obj x).node) (fun x => (w.obj x).wrapper) P w' w :=
    ⟨fun x hx => by rw [← hagree x hx], fun x hx => by rw [← hagree x hx],
      fun x hx => (hagree x hx).symm, fun x k hx hk => by rw [← hagree x hx]; exact h0.seeds x k hx hk⟩
  exact World.documents_filter hP.children hP.sources str fuel fields' hn' w' hout' k w' w
    (fun _ => rfl) hS hok'

/-! ### Examples -/

/-- The objects that the fields `n` and `pair` consist of. -/
def demoP : List Ref := [0, 1, 2, 3, 16, 17, 18, 19]

/-- They contain everything they depend on, ... -/
theorem demoP_self : SelfContained (· ∈ demoP) demoWorld := by
  refine ⟨?_, ?_, ?_⟩ <;> decide +kernel
/-- ... the other fields are unrelated, ... -/
theorem demoP_unrelated : Unrelated (· ∈ demoP) demoFields demoWorld := by
  intro kf hkf hP x hx
  have h1 : ∀ kf ∈ demoFields, kf.2 ∉ demoP → kf.2 ∈ [4, 5, 6, 7, 8, 9, 10, 11, 12, 13, 14, 15] := by
    decide +kernel
  have h2 := hx.mem [4, 5, 6, 7, 8, 9, 10, 11, 12, 13, 14, 15] (by decide +kernel) (h1 kf hkf hP)
  revert h2
  have h3 : ∀ x ∈ [4, 5, 6, 7, 8, 9, 10, 11, 12, 13, 14, 15], x ∉ demoP := by decide +kernel
  exact h3 x
/-- ... and the schema produces documents. -/
theorem demo_documents : ∀ d ∈ World.documents demoStr 5 demoFields 3 demoWorld,
    ∃ doc, d = .ok doc := by
  have h : ∀ d ∈ World.documents demoStr 5 demoFields 3 demoWorld, d.isOk = true := by decide +kernel
  intro d hd
  have := h d hd
  cases d with
  | error e => cases this
  | ok doc => exact ⟨doc, rfl⟩
example : World.documents demoStr 5 [("n", 3), ("pair", 19)] 3 demoWorld =
    (World.documents demoStr 5 demoFields 3 demoWorld).map fun d =>
      d.map (restrict ["n", "pair"]) := by
  have := C52_removed (· ∈ demoP) demoStr 5 demoFields (by decide +kernel) demoWorld demoP_self
    demoP_unrelated 3 demo_documents
  exact this
example : (World.documents demoStr 5 [("n", 3), ("pair", 19)] 2 demoWorld) =
    [.ok [("n", .int 2), ("pair", .list [.int 2, .int 2])],
     .ok [("n", .int 3), ("pair", .list [.int 3, .int 3])]] := by decide +kernel
/-- The hypothesis matters: dropping `n`, on which `copy` and `pair` depend, changes `pair`. -/
example : (World.documents demoStr 5 [("pair", 19)] 1 demoWorld) =
    [.ok [("pair", .list [.int 1, .int 1])]] := by decide +kernel

end Fauxdoc
