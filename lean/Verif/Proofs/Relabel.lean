import Verif.Proofs.World
import Verif.Proofs.World3
/-
Calls do not depend on the name and the `hide` flag of a field, except that `BasedOnFields` on several
fields passes their names on.
-/
set_option linter.unusedSectionVars false
namespace Fauxdoc
open PyM
variable {K : Type} [Field K] [LinearOrder K] [FloorRing K] {R : Rng K}

namespace World

/-- The node of a field with another name and `hide` flag. -/
def relabel (F : String → String) (G : Bool → Bool) : Option Node → Option Node
  | some (.field n e rp g h) => some (.field (F n) e rp g (G h))
  | node => node

/-- The store with the field `f` relabelled. -/
def relabelAt (f : Ref) (F : String → String) (G : Bool → Bool) (w : World R) : World R :=
  w.upd f fun a => { a with node := relabel F G a.node }

variable {f : Ref} {F : String → String} {G : Bool → Bool} {nodes : Ref → Option Node}

/-- `v` is `w` with the field `f` relabelled; the classes in `w` are `nodes`. -/
def Relab (f : Ref) (F : String → String) (G : Bool → Bool) (nodes : Ref → Option Node)
    (w v : World R) : Prop :=
  v = relabelAt f F G w ∧ ∀ x, (w.obj x).node = nodes x

/-- `f` is not one of several sources of a `BasedOnFields`, or keeps its name. -/
def NameUnused (f : Ref) (F : String → String) (nodes : Ref → Option Node) : Prop :=
  F = id ∨ ∀ r src single, nodes r = some (.basedOn src single) → f ∈ src → src.length = 1

theorem relabelAt_obj (x : Ref) (w : World R) : (relabelAt f F G w).obj x =
    { w.obj x with node := if x = f then relabel F G (w.obj x).node else (w.obj x).node } := by
  unfold relabelAt
  rw [upd_obj]
  by_cases h : x = f
  · subst h; simp
  · simp [h]

theorem Relab.node {w v : World R} (h : Relab f F G nodes w v) (x : Ref) :
    (v.obj x).node = if x = f then relabel F G (nodes x) else nodes x := by
  rw [h.1, relabelAt_obj]
  dsimp only
  rw [h.2 x]

theorem Relab.rest {w v : World R} (h : Relab f F G nodes w v) (x : Ref) :
    v.obj x = { w.obj x with node := (v.obj x).node } := by
  rw [h.1, relabelAt_obj]

theorem Relab.upd {w v : World R} (h : Relab f F G nodes w v) (r : Ref) (g : Attrs R → Attrs R)
    (hg : ∀ a nd, g { a with node := nd } = { g a with node := nd }) (e : Nat) :
    Relab f F G nodes { w.upd r g with entropy := e } { v.upd r g with entropy := e } := by
  have hgn : ∀ a, (g a).node = a.node := fun a => by
    have := hg a a.node
    rw [show ({ a with node := a.node } : Attrs R) = a from rfl] at this
    rw [this]
  obtain ⟨rfl, h2⟩ := h
  refine ⟨?_, fun x => ?_⟩
  · unfold relabelAt World.upd
    dsimp only
    congr 1
    funext x
    by_cases hx : x = r <;> by_cases hf : x = f
    · subst hx; subst hf
      simp only [if_true]
      rw [hg, hgn]
    · subst hx
      have : f ≠ x := fun e => hf e.symm
      simp [hf]
    · subst hf
      simp [hx]
    · simp [hx, hf]
  · change ((w.upd r g).obj x).node = _
    rw [upd_obj]
    by_cases hx : x = r
    · subst hx
      rw [if_pos rfl, hgn, h2]
    · rw [if_neg hx, h2]

theorem Relab.entropy {w v : World R} (h : Relab f F G nodes w v) : v.entropy = w.entropy := by
  rw [h.1]; rfl

theorem Relab.onChoice {β : Type} (r : Ref) (m : ChoiceM Val R β) :
    Rel (Relab f F G nodes) (World.onChoice r m) (World.onChoice r m) := by
  intro w v h
  have e1 : (v.obj r).choice = (w.obj r).choice := by rw [h.rest r]
  have e2 := h.entropy
  unfold World.onChoice
  rw [e1, e2]
  exact ⟨rfl, h.upd r _ (fun _ _ => rfl) _⟩

theorem Relab.attr {β γ : Type} {r : Ref} {L : Attr (World R) β} {get : Attrs R → β}
    {set : β → Attrs R → Attrs R} (hget : ∀ w, L.get w = get (w.obj r))
    (hset : ∀ b w, L.set b w = w.upd r (set b)) (h1 : ∀ a nd, get { a with node := nd } = get a)
    (h2 : ∀ b a nd, set b { a with node := nd } = { set b a with node := nd }) (m : PyM β γ) :
    Rel (Relab f F G nodes) (L.run m) (L.run m) := by
  intro w v h
  have e : L.get v = L.get w := by rw [hget, hget, h.rest r, h1]
  unfold Attr.run
  rw [e]
  rcases m (L.get w) with ⟨x, b⟩
  refine ⟨rfl, ?_⟩
  dsimp only
  rw [hset, hset]
  have := h.upd r (set b) (h2 b) w.entropy
  rwa [show ({ v.upd r (set b) with entropy := w.entropy } : World R) = v.upd r (set b) by
    rw [← h.entropy]; rfl] at this

theorem Relab.multi {w v : World R} (h : Relab f F G nodes w v) (g : Ref) :
    multiValued g w = multiValued g v := by
  unfold multiValued
  have hi : ∀ x, (v.obj x).items = (w.obj x).items := by
    intro x
    unfold Attrs.items
    rw [h.rest x, h.node x]
    dsimp only
    rw [h.2 x]
    by_cases hx : x = f
    · rw [if_pos hx]
      rcases nodes x with _ | node
      · rfl
      · cases node <;> rfl
    · rw [if_neg hx]
  rw [h.node g, h.2 g]
  by_cases hx : g = f
  · rw [if_pos hx]
    rcases nodes g with _ | node
    · rfl
    · cases node <;> try rfl
      exact congrArg Field.multiValued (hi _).symm
  · rw [if_neg hx]
    rcases nodes g with _ | node
    · rfl
    · cases node <;> try rfl
      exact congrArg Field.multiValued (hi _).symm

/-- A group of sources, with the names replaced: all that one source or `CopyFields` look at. -/
theorem Relab.noNames {c c' : Ref → PyM (World R) Val} {rs rs' : Ref → PyM (World R) Unit}
    {sd sd' : Ref → Option Int → PyM (World R) Unit} {w v s t : World R} {src : List Ref}
    {single : Bool} (hst : Relab f F G nodes s t) (g' : SourceGroup (World R))
    (hg' : g' = { sourceGroup c' rs' sd' v src single with fields :=
      (src.map fun g =>
        { name := (w.obj g).name
          previous := fun v => (v.obj g).cache
          multiValued := multiValued g
          call := c' g
          reset := rs' g
          seed := sd' g }) }) :
    GroupAt s t (sourceGroup c rs sd w src single) g' where
  single := by subst hg'; rfl
  fields := by
    subst hg'
    unfold sourceGroup
    dsimp only
    rw [List.forall₂_map_left_iff, List.forall₂_map_right_iff, List.forall₂_same]
    intro g _
    exact ⟨rfl, by change (s.obj g).cache = (t.obj g).cache; rw [hst.rest g], hst.multi g⟩

theorem copyCall_names (str : Val → List Char) {c : Ref → PyM (World R) Val}
    {rs : Ref → PyM (World R) Unit} {sd : Ref → Option Int → PyM (World R) Unit} (w v : World R)
    (src : List Ref) (single : Bool) (sep : Option (List Char)) (arg : Option Val) :
    CopyFields.call str (sourceGroup c rs sd v src single) sep arg =
      CopyFields.call str { sourceGroup c rs sd v src single with fields :=
      (src.map fun g =>
        { name := (w.obj g).name
          previous := fun v => (v.obj g).cache
          multiValued := multiValued g
          call := c g
          reset := rs g
          seed := sd g }) } sep arg := by
  have hcol : ∀ (l : List Ref) (s : World R) (vals : List Val), CopyFields.collect s vals
      (l.map fun g =>
        { name := (v.obj g).name
          previous := fun v => (v.obj g).cache
          multiValued := multiValued g
          call := c g
          reset := rs g
          seed := sd g }) = CopyFields.collect s vals
      (l.map fun g =>
        { name := (w.obj g).name
          previous := fun v => (v.obj g).cache
          multiValued := multiValued g
          call := c g
          reset := rs g
          seed := sd g }) := by
    intro l s
    induction l with
    | nil => intro vals; rfl
    | cons a l ih =>
      intro vals
      simp only [List.map_cons, CopyFields.collect]
      split <;> exact ih _
  have he : CopyFields.emit str (sourceGroup c rs sd v src single) sep =
      CopyFields.emit str { sourceGroup c rs sd v src single with fields :=
      (src.map fun g =>
        { name := (w.obj g).name
          previous := fun v => (v.obj g).cache
          multiValued := multiValued g
          call := c g
          reset := rs g
          seed := sd g }) } sep := by
    unfold CopyFields.emit
    funext s
    rw [PyM.run_get_bind, PyM.run_get_bind]
    have hs : SourceGroup.singleValued (sourceGroup c rs sd v src single) s =
        SourceGroup.singleValued { sourceGroup c rs sd v src single with fields :=
      (src.map fun g =>
        { name := (w.obj g).name
          previous := fun v => (v.obj g).cache
          multiValued := multiValued g
          call := c g
          reset := rs g
          seed := sd g }) } s := by
      unfold SourceGroup.singleValued sourceGroup
      rcases src with _ | ⟨a, _ | ⟨b, l⟩⟩ <;> rfl
    rw [hs]
    unfold sourceGroup
    dsimp only
    rw [hcol]
    rcases src with _ | ⟨a, l⟩ <;> rfl
  unfold CopyFields.call CopyFields.emitMany
  rw [he]

theorem basedCall_names (L : Attr (World R) R.G) (cb : Callback R.G) {c : Ref → PyM (World R) Val}
    {rs : Ref → PyM (World R) Unit} {sd : Ref → Option Int → PyM (World R) Unit} (w v : World R)
    (src : List Ref) (single : Bool) (hlen : src.length = 1) (arg : Option Val) :
    BasedOnFields.call L (sourceGroup c rs sd v src single) cb arg =
      BasedOnFields.call L { sourceGroup c rs sd v src single with fields :=
      (src.map fun g =>
        { name := (w.obj g).name
          previous := fun v => (v.obj g).cache
          multiValued := multiValued g
          call := c g
          reset := rs g
          seed := sd g }) } cb arg := by
  rcases src with _ | ⟨a, _ | ⟨b, l⟩⟩
  · cases hlen
  · rfl
  · cases hlen

/-- Calls are the same for a relabelled field, and leave it relabelled. -/
theorem Relab.call (hN : NameUnused f F nodes) (str : Val → List Char) :
    ∀ (fuel : Nat) (r : Ref), ChildRel (Relab (R := R) f F G nodes) (World.call str fuel r)
      (World.call str fuel r) := by
  have hChoiceReset : ∀ (fuel : Nat) (r : Ref) (k : ItemsKind), nodes r = some (.choice k) →
      Rel (Relab (R := R) f F G nodes) (reset fuel r) (reset fuel r) := by
    intro fuel r k hk
    cases fuel with
    | zero => exact Rel.raise _ _
    | succ fuel =>
      unfold World.reset
      refine Rel.get_bind fun w v h => ?_
      have hv : (v.obj r).node = some (.choice k) := by
        rw [h.node r, hk]; split <;> rfl
      have hw : (w.obj r).node = some (.choice k) := by rw [h.2 r, hk]
      rw [hv, hw]
      exact Relab.onChoice r Choice.reset w v h
  have hword : ∀ (fuel : Nat) (r : Ref) {c : Child (World R)},
      ChildRel (Relab (R := R) f F G nodes) c c →
      WordRel (Relab f F G nodes) ⟨c, reset fuel r, roacInfo r⟩ ⟨c, reset fuel r, roacInfo r⟩ := by
    intro fuel r c hc
    refine ⟨hc, ?_, ?_⟩
    · refine Rel.get_bind fun w v h => ?_
      rw [h.node r, h.2 r]
      rcases hn : nodes r with _ | node
      · split <;> exact ⟨rfl, h⟩
      · cases node with
        | choice k =>
          have := Relab.onChoice r Choice.roacInfo w v h
          split <;> exact this
        | _ => split <;> exact ⟨rfl, h⟩
    · by_cases hk : ∃ k, nodes r = some (.choice k)
      · obtain ⟨k, hk⟩ := hk
        exact Or.inl (hChoiceReset fuel r k hk)
      · refine Or.inr fun s r' t e s0 hs => ?_
        unfold roacInfo at e
        dsimp only at e
        rw [PyM.run_get_bind, hs.2 r] at e
        rcases hn : nodes r with _ | node
        · rw [hn] at e; cases e; rfl
        · rw [hn] at e
          cases node with
          | choice k => exact absurd ⟨k, hn⟩ hk
          | _ => cases e; rfl
  have hrng : ∀ r, AttrRel (Relab (R := R) f F G nodes) (rngAttr r) (rngAttr r) := fun r m =>
    Relab.attr (get := (·.rng)) (set := fun b a => { a with rng := b }) (fun _ => rfl)
      (fun _ _ => rfl) (fun _ _ => rfl) (fun _ _ _ => rfl) m
  have hcache : ∀ r x, Rel (Relab (R := R) f F G nodes) (PyM.modify ((cacheAttr r).set x))
      (PyM.modify ((cacheAttr r).set x)) := by
    intro r x w v h
    refine ⟨rfl, ?_⟩
    have := h.upd r (fun a => { a with cache := x }) (fun _ _ => rfl) w.entropy
    rwa [show ({ v.upd r (fun a => { a with cache := x }) with entropy := w.entropy } : World R) =
      v.upd r (fun a => { a with cache := x }) by rw [← h.entropy]; rfl] at this
  intro fuel
  induction fuel with
  | zero => intro r arg; exact Rel.raise _ _
  | succ fuel ih =>
    intro r arg
    unfold World.call
    refine Rel.get_bind fun w v h => ?_
    have hwr : (v.obj r).wrapper = (w.obj r).wrapper := by rw [h.rest r]
    have hN2 := h.node r
    have hN1 := h.2 r
    rw [hwr, hN1, hN2]
    rcases hn : nodes r with _ | node
    · rw [show (if r = f then relabel F G none else none) = none by split <;> rfl]
      exact ⟨rfl, h⟩
    · by_cases hfield : ∃ n e rp g hd, node = .field n e rp g hd
      · obtain ⟨n, e, rp, g, hd, rfl⟩ := hfield
        have hrel : Rel (Relab (R := R) f F G nodes) (match arg with
            | none => Field.call (cacheAttr r) (World.call str fuel e) (World.call str fuel rp)
                (World.call str fuel g)
            | some _ => PyM.raise .typeError) (match arg with
            | none => Field.call (cacheAttr r) (World.call str fuel e) (World.call str fuel rp)
                (World.call str fuel g)
            | some _ => PyM.raise .typeError) := by
          cases arg with
          | some x => exact Rel.raise _ _
          | none => exact Field.call_rel (hcache r) (ih e) (ih rp) (ih g)
        by_cases hrf : r = f
        · rw [if_pos hrf]; exact hrel w v h
        · rw [if_neg hrf]; exact hrel w v h
      · have hsame : (if r = f then relabel F G (some node) else some node) = some node := by
          split
          · cases node <;> first | rfl | exact absurd ⟨_, _, _, _, _, rfl⟩ hfield
          · rfl
        rw [hsame]
        cases node with
        | choice k => exact Relab.onChoice r (Choice.child arg) w v h
        | static =>
          refine emitterCall_rel ?_ (fun n => ?_) arg w v h <;>
          exact Relab.attr (get := (·.static)) (set := fun b a => { a with static := b })
            (fun _ => rfl) (fun _ _ => rfl) (fun _ _ => rfl) (fun _ _ _ => rfl) _
        | iterative =>
          refine emitterCallOr_rel (fun _ => Rel.raise _ _) ?_ (fun n => ?_) arg w v h <;>
          exact Relab.attr (get := (·.iter)) (set := fun b a => { a with iter := b })
            (fun _ => rfl) (fun _ _ => rfl) (fun _ _ => rfl) (fun _ _ _ => rfl) _
        | sequential k =>
          refine emitterCallOr_rel (fun _ => Rel.raise _ _) ?_ (fun n => ?_) arg w v h <;>
          exact Relab.attr (get := (·.seq)) (set := fun b a => { a with seq := b })
            (fun _ => rfl) (fun _ _ => rfl) (fun _ _ => rfl) (fun _ _ _ => rfl) _
        | word l c => exact Word.call_rel (ih l) (ih c) arg w v h
        | text n wd s => exact Text.call_rel (hword fuel wd (ih wd)) (ih n) (ih s) arg w v h
        | wrapOne s =>
          cases (w.obj r).wrapper with
          | none => exact ⟨rfl, h⟩
          | some cb => exact WrapOne.call_rel (hrng r) cb (ih s) arg w v h
        | wrapMany ss =>
          cases (w.obj r).wrapper with
          | none => exact ⟨rfl, h⟩
          | some cb =>
            refine WrapMany.call_rel (hrng r) cb ?_ arg w v h
            rw [List.forall₂_map_left_iff, List.forall₂_map_right_iff, List.forall₂_same]
            intro ks _
            exact ⟨rfl, ih ks.2⟩
        | copyFields src single sep =>
          dsimp only
          rw [copyCall_names str w v src single sep arg]
          have hc := CopyFields.call_rel (S := Relab (R := R) f F G nodes) str sep
            (fun s t hst => Relab.noNames (c := fun g => World.call str fuel g none)
              (c' := fun g => World.call str fuel g none)
              (rs := reset fuel) (rs' := reset fuel) (sd := seed fuel) (sd' := seed fuel) (w := w) (v := v) (src := src)
              (single := single) hst _ rfl) arg
          exact hc w v h
        | basedOn src single =>
          cases (w.obj r).wrapper with
          | none => exact ⟨rfl, h⟩
          | some cb =>
            by_cases hlen : src.length = 1
            · dsimp only
              rw [basedCall_names (rngAttr r) cb w v src single hlen arg]
              have hc := BasedOnFields.call_rel (S := Relab (R := R) f F G nodes) (hrng r) cb
                (fun s t hst => Relab.noNames (c := fun g => World.call str fuel g none)
                  (c' := fun g => World.call str fuel g none)
              (rs := reset fuel) (rs' := reset fuel) (sd := seed fuel) (sd' := seed fuel) (w := w) (v := v) (src := src)
                  (single := single) hst _ rfl) arg
              exact hc w v h
            · have hnm : ∀ g ∈ src, (w.obj g).name = (v.obj g).name := by
                intro g hg
                unfold Attrs.name
                rw [h.node g, h.2 g]
                by_cases hgf : g = f
                · rw [if_pos hgf]
                  rcases hN with rfl | hN
                  · rcases nodes g with _ | nd
                    · rfl
                    · cases nd <;> rfl
                  · exact absurd (hN r src single hn (hgf ▸ hg)) hlen
                · rw [if_neg hgf]
              have hc := BasedOnFields.call_rel (S := Relab (R := R) f F G nodes) (hrng r) cb
                (g := sourceGroup (fun g => World.call str fuel g none) (reset fuel) (seed fuel) w
                  src single)
                (g' := sourceGroup (fun g => World.call str fuel g none) (reset fuel) (seed fuel) v
                  src single) (fun s t hst => ⟨rfl, ?_⟩) arg
              · exact hc w v h
              unfold sourceGroup
              dsimp only
              rw [List.forall₂_map_left_iff, List.forall₂_map_right_iff, List.forall₂_same]
              intro g hg
              exact ⟨hnm g hg, by change (s.obj g).cache = (t.obj g).cache; rw [hst.rest g], hst.multi g⟩
        | field n e rp g hd => exact absurd ⟨_, _, _, _, _, rfl⟩ hfield

end World
end Fauxdoc
