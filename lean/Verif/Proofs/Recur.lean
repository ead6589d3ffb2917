import Verif.Spec.Recur
import Verif.Proofs.Derived
import Verif.Props.Profile
/-
Fields that are based on each other.
-/
set_option linter.unusedSectionVars false
namespace Fauxdoc
open PyM World
variable {K : Type} [Field K] [LinearOrder K] [FloorRing K] [IsStrictOrderedRing K] {R : Rng K}
variable {str : Val → List Char} {fuel : Nat}

theorem World.withValues_self (w : World R) : w.withValues w.lastValues = w := rfl

theorem World.withValues_twice (w : World R) (x y : Ref → Val) :
    (w.withValues x).withValues y = w.withValues y := rfl

theorem World.lastValues_withValues (w : World R) (x : Ref → Val) :
    (w.withValues x).lastValues = x := rfl

theorem World.withValues_upd (w : World R) (x : Ref → Val) (f : Ref) (v : Val) :
    (w.withValues x).upd f (fun a => { a with cache := v }) =
      w.withValues (Function.update x f v) := by
  unfold World.upd World.withValues
  congr 1
  funext r
  by_cases h : r = f
  · subst h; simp
  · simp [h]

theorem Equation.In.withValues {q : Equation R.G} {w : World R} (h : q.In w) (x : Ref → Val) :
    q.In (w.withValues x) :=
  ⟨h.built, h.names, h.plain, h.nodup, h.noSelf⟩

/-- Equations are about classes, functions and constants. -/
theorem Equation.In.congr {q : Equation R.G} {w w' : World R} (h : q.In w)
    (h1 : ∀ x, (w'.obj x).node = (w.obj x).node) (h2 : ∀ x, (w'.obj x).wrapper = (w.obj x).wrapper)
    (h3 : ∀ x, (w'.obj x).static = (w.obj x).static) : q.In w' := by
  obtain ⟨nm, e, rp, gt, hd, single, g1, g2, g3, g4, g5, g6, g7⟩ := h.built
  refine ⟨⟨nm, e, rp, gt, hd, single, ?_, ?_, ?_, ?_, ?_, ?_, ?_⟩, ?_, h.plain, h.nodup, h.noSelf⟩
  · rw [h1]; exact g1
  · rw [h1]; exact g2
  · rw [h2]; exact g3
  · rw [h1]; exact g4
  · rw [h3]; exact g5
  · rw [h1]; exact g6
  · rw [h3]; exact g7
  · intro s hs
    have := h.names s hs
    unfold Attrs.name at this ⊢
    rw [h1]; exact this

theorem applies_plain {L : Attr (World R) R.G} {cb : Callback R.G} {a : List Val × Dict Val} {v : Val}
    {s t : World R} (hp : ¬ cb.DeclaresRng) :
    Applies L cb [a] s [v] t ↔ cb.invoke a.1 a.2 = .ok v ∧ t = s := by
  constructor
  · intro h
    obtain ⟨h1, h2⟩ := h.2 hp
    cases h1 with
    | cons h1 _ => exact ⟨h1, h2⟩
  · rintro ⟨h1, h2⟩
    exact ⟨fun h => absurd h hp, fun _ => ⟨.cons h1 .nil, h2⟩⟩

/-- The field returns what the function returns for the last values of the sources. -/
theorem Equation.In.call {q : Equation R.G} {w : World R} (h : q.In w) (v : Val) (w' : World R) :
    World.call str (fuel + 2) q.field none w = (.ok v, w') ↔
      q.action.invoke (q.arguments w.lastValues).1 (q.arguments w.lastValues).2 = .ok v ∧
        w' = w.upd q.field fun a => { a with cache := v } := by
  obtain ⟨nm, e, rp, gt, hd, single, g1, g2, g3, g4, g5, g6, g7⟩ := h.built
  have e1 : World.call str (fuel + 1) gt none w = (.ok (.bool true), w) := by
    rw [call_static str fuel g6, g7]
  have e2 : World.call str (fuel + 1) rp none w = (.ok .none, w) := by
    rw [call_static str fuel g4, g5]
  have e3 : World.call str (fuel + 1) e (some .none) w = World.call str (fuel + 1) e none w := by
    rw [call_basedOn str fuel _ g2 g3, call_basedOn str fuel _ g2 g3]
    rfl
  have e4 : ∀ v w3, World.call str (fuel + 1) e none w = (.ok v, w3) ↔
      q.action.invoke (q.arguments w.lastValues).1 (q.arguments w.lastValues).2 = .ok v ∧ w3 = w := by
    intro v w3
    rcases hs : q.sources with _ | ⟨⟨n1, s1⟩, _ | ⟨⟨n2, s2⟩, ss⟩⟩
    · rw [hs] at g2
      rw [C44_store_many str fuel g2 g3 (by simp) (by simp) (by simp), applies_plain h.plain]
      unfold Equation.arguments
      rw [hs]
      rfl
    · rw [hs] at g2
      rw [C44_store_one str fuel g2 g3, applies_plain h.plain]
      unfold Equation.arguments
      rw [hs]
      rfl
    · have en : (q.sources.map (·.2)).map (fun g => (w.obj g).name) = q.sources.map (·.1) := by
        rw [List.map_map]
        exact List.map_congr_left fun s hs => h.names s hs
      have ev : (q.sources.map (·.2)).map (fun g => ((w.obj g).name, (w.obj g).cache)) =
          q.sources.map fun s => (s.1, w.lastValues s.2) := by
        rw [List.map_map]
        exact List.map_congr_left fun s hs => by
          simp only [Function.comp, h.names s hs]; rfl
      rw [C44_store_many str fuel g2 g3 (by rw [hs]; simp) (by rw [en]; exact h.nodup)
        (by rw [en]; exact h.noSelf), applies_plain h.plain, ev]
      unfold Equation.arguments
      rw [hs]
  rw [C46_store str (fuel + 1) g1]
  constructor
  · rintro ⟨gv, w1, k1, ⟨k2, -⟩ | ⟨-, k, w2, w3, k2, k3, k4⟩⟩
    · rw [e1] at k1; cases k1; cases k2
    · rw [e1] at k1; cases k1
      rw [e2] at k2; cases k2
      rw [e3, e4] at k3
      obtain ⟨k3, rfl⟩ := k3
      exact ⟨k3, k4⟩
  · rintro ⟨k1, k2⟩
    exact ⟨_, _, e1, .inr ⟨rfl, _, _, w, e2, e3 ▸ (e4 v w).2 ⟨k1, rfl⟩, k2⟩⟩

/-- One equation after the other. -/
inductive Solves {G : Type} : List (Equation G) → (Ref → Val) → (Ref → Val) → Prop
  | nil (x : Ref → Val) : Solves [] x x
  | cons {q : Equation G} {eqs : List (Equation G)} {x x' : Ref → Val} {v : Val}
      (h : q.action.invoke (q.arguments x).1 (q.arguments x).2 = .ok v)
      (hs : Solves eqs (Function.update x q.field v) x') : Solves (q :: eqs) x x'

theorem Solves.others {G : Type} {eqs : List (Equation G)} {x x' : Ref → Val} (h : Solves eqs x x') (r : Ref)
    (hr : r ∉ eqs.map (·.field)) : x' r = x r := by
  induction h with
  | nil => rfl
  | cons _ _ ih =>
    rw [List.map_cons, List.mem_cons, not_or] at hr
    rw [ih hr.2, Function.update_of_ne hr.1]

/-- Documents of a part of the schema. -/
theorem runs_solves {w : World R} :
    ∀ {eqs : List (Equation R.G)} (_ : ∀ q ∈ eqs, q.In w) (_ : (eqs.map (·.field)).Nodup) (x : Ref → Val)
      (vals : List Val) (t : World R),
    FieldsRun (fun r => World.call str (fuel + 2) r none) (eqs.map fun q => (q.key, q.field)) (w.withValues x)
        vals t ↔
      ∃ x', Solves eqs x x' ∧ vals = eqs.map (fun q => x' q.field) ∧ t = w.withValues x'
  | [], _, _, x, vals, t => by
    constructor
    · intro h; cases h; exact ⟨x, .nil x, rfl, rfl⟩
    · rintro ⟨x', h, rfl, rfl⟩; cases h; exact .nil _
  | q :: eqs, hq, hn, x, vals, t => by
    rw [List.map_cons, List.nodup_cons] at hn
    have ih := fun y vs t => runs_solves (eqs := eqs) (fun p hp => hq p (List.mem_cons_of_mem _ hp)) hn.2 y vs t
    have hc := fun v w' => (((hq q List.mem_cons_self).withValues x).call (str := str) (fuel := fuel) v w')
    constructor
    · intro h
      cases h with
      | cons h1 h2 =>
        obtain ⟨k1, rfl⟩ := (hc _ _).1 h1
        rw [withValues_upd] at h2
        obtain ⟨x', i1, rfl, rfl⟩ := (ih _ _ _).1 h2
        refine ⟨x', .cons k1 i1, ?_, rfl⟩
        rw [List.map_cons, i1.others _ hn.1, Function.update_self]
    · rintro ⟨x', h, rfl, rfl⟩
      cases h with
      | cons h1 h2 =>
        rw [List.map_cons]
        refine .cons ?_ ((ih _ _ _).2 ⟨x', h2, rfl, rfl⟩)
        have e := h2.others _ hn.1
        rw [Function.update_self] at e
        subst e
        exact (hc _ _).2 ⟨h1, (withValues_upd _ _ _ _).symm⟩

theorem Equation.arguments_congr {G : Type} (q : Equation G) {x y : Ref → Val}
    (h : ∀ s ∈ q.sources, x s.2 = y s.2) : q.arguments x = q.arguments y := by
  unfold Equation.arguments
  rcases hs : q.sources with _ | ⟨⟨n1, s1⟩, _ | ⟨⟨n2, s2⟩, ss⟩⟩
  · rfl
  · simp only
    rw [h (n1, s1) (by rw [hs]; simp)]
  · simp only
    rw [List.map_congr_left fun s hs' => by rw [h s (by rw [hs]; exact hs')]]

/-- One after the other, or all at once. -/
theorem solves_iff {G : Type} {eqs : List (Equation G)} (hn : (eqs.map (·.field)).Nodup) (x x' : Ref → Val) :
    Solves eqs x x' ↔ Follows eqs x x' := by
  induction eqs generalizing x with
  | nil =>
    constructor
    · intro h; cases h
      exact ⟨fun pre q post h => by simp at h, fun _ _ => rfl⟩
    · intro h
      have : x' = x := funext fun r => h.others r (by simp)
      subst this; exact .nil _
  | cons q eqs ih =>
    rw [List.map_cons, List.nodup_cons] at hn
    have key : ∀ (y : Ref → Val) (pre : List (Equation G)), y q.field = x' q.field → (∀ r, r ≠ q.field → y r = x r) →
        (fun g => if g ∈ pre.map (·.field) then x' g else y g) =
        (fun g => if g ∈ (q :: pre).map (·.field) then x' g else x g) := by
      intro y pre h1 h2
      funext g
      by_cases hg : g = q.field
      · subst hg
        rw [if_pos (by simp : q.field ∈ (q :: pre).map (·.field)), h1]
        split <;> rfl
      · rw [h2 g hg]
        simp only [List.map_cons, List.mem_cons, hg, false_or]
    constructor
    · intro h
      cases h with
      | @cons _ _ _ _ v h1 h2 =>
        have hv : x' q.field = v := by rw [h2.others _ hn.1, Function.update_self]
        have hf := (ih hn.2 _).1 h2
        refine ⟨?_, ?_⟩
        · intro pre p post he
          rcases pre with _ | ⟨p', pre⟩
          · rw [List.nil_append, List.cons.injEq] at he
            obtain ⟨rfl, rfl⟩ := he
            simp only [List.map_nil, List.not_mem_nil, if_false]
            rw [hv]; exact h1
          · rw [List.cons_append, List.cons.injEq] at he
            obtain ⟨rfl, rfl⟩ := he
            have := hf.solves pre p post rfl
            rw [key _ pre (by rw [Function.update_self, hv]) fun r hr => Function.update_of_ne hr _ _] at this
            exact this
        · intro r hr
          rw [List.map_cons, List.mem_cons, not_or] at hr
          rw [hf.others r hr.2, Function.update_of_ne hr.1]
    · intro h
      have h1 := h.solves [] q eqs rfl
      simp only [List.map_nil, List.not_mem_nil, if_false] at h1
      refine .cons h1 ((ih hn.2 _).2 ⟨?_, ?_⟩)
      · intro pre p post he
        have := h.solves (q :: pre) p post (by rw [he]; rfl)
        rw [key _ pre (Function.update_self ..) fun r hr => Function.update_of_ne hr _ _]
        exact this
      · intro r hr
        by_cases hq : r = q.field
        · subst hq; rw [Function.update_self]
        · rw [Function.update_of_ne hq]
          exact h.others r (by rw [List.map_cons, List.mem_cons, not_or]; exact ⟨hq, hr⟩)

theorem Follows.unique {G : Type} {eqs : List (Equation G)} (hn : (eqs.map (·.field)).Nodup) {x y z : Ref → Val}
    (h : Follows eqs x y) (h' : Follows eqs x z) : y = z := by
  rw [← solves_iff hn] at h h'
  clear hn
  induction h with
  | nil => cases h'; rfl
  | cons h1 _ ih =>
    cases h' with
    | cons g1 g2 =>
      rw [h1] at g1
      cases g1
      exact ih g2

theorem visible_solution {G : Type} (hide : Ref → Bool) (x : Ref → Val) (eqs : List (Equation G)) :
    visible hide (eqs.map fun q => (q.key, q.field)) (eqs.map fun q => x q.field) = solution eqs hide x := by
  unfold visible solution
  induction eqs with
  | nil => rfl
  | cons q eqs ih =>
    rw [List.map_cons, List.map_cons, List.zip_cons_cons, List.filter_cons, List.filter_cons]
    by_cases h : hide q.field = true
    · simp only [h, Bool.not_true, Bool.false_eq_true, if_false]
      exact ih
    · simp only [h, Bool.not_false, if_true, List.map_cons]
      rw [← ih]

/-! ### reset -/

theorem Equations.congr {fields : Dict Ref} {eqs : List (Equation R.G)} {w w' : World R}
    (h : Equations fields eqs w) (hs : ∀ x, (w'.obj x).shape = (w.obj x).shape) : Equations fields eqs w' :=
  ⟨h.fields, h.keys, h.refs, fun q hq => (h.each q hq).congr (fun x => node_of_shape (hs x))
    (fun x => wrapper_of_shape (hs x)) fun x => by
      have h2 : ∀ a : Attrs R, a.shape.static = a.static := by
        intro a; unfold Attrs.shape; split <;> rfl
      rw [← h2 (w'.obj x), hs x, h2]⟩

/-- Resetting such a field changes no other field. -/
theorem Equation.In.reset {q : Equation R.G} {w w' : World R} (h : q.In w)
    (hr : World.reset fuel q.field w = (.ok (), w')) :
    (∀ x, (w'.obj x).shape = (w.obj x).shape) ∧ w'.lastValues q.field = .none ∧
      ∀ f, f ≠ q.field → (w.obj f).isField = true → w'.obj f = w.obj f := by
  obtain ⟨nm, e, rp, gt, hd, single, g1, g2, g3, g4, g5, g6, g7⟩ := h.built
  have hf := World.reset_frame fuel q.field (Below w q.field) w (fun _ hr _ hc => hr.trans (.step hc (.self _)))
    (.self q.field)
  rw [hr] at hf
  refine ⟨hf.shape, ?_, fun f hne hfield => hf.frame f fun hb => ?_⟩
  · cases fuel with
    | zero => cases hr
    | succ fuel =>
      rw [reset_field g1] at hr
      obtain ⟨_, w1, _, h2⟩ := PyM.bind_eq_ok hr
      cases h2
      exact (cacheAttr q.field).get_set _ _
  · have := hb.mem [q.field, e, rp, gt] (fun y hy c hc => by
      unfold Attrs.children at hc
      simp only [List.mem_cons, List.not_mem_nil, or_false] at hy
      rcases hy with rfl | rfl | rfl | rfl
      · rw [g1] at hc
        simp only [Node.childRefs, List.mem_cons, List.not_mem_nil, or_false] at hc
        rcases hc with rfl | rfl | rfl <;> simp
      · rw [g2] at hc; cases hc
      · rw [g4] at hc; cases hc
      · rw [g6] at hc; cases hc) (by simp)
    unfold Attrs.isField at hfield
    simp only [List.mem_cons, List.not_mem_nil, or_false] at this
    rcases this with rfl | rfl | rfl | rfl
    · exact hne rfl
    · rw [g2] at hfield; cases hfield
    · rw [g4] at hfield; cases hfield
    · rw [g6] at hfield; cases hfield

theorem resets_values : ∀ {eqs : List (Equation R.G)} {w w' : World R}, (∀ q ∈ eqs, q.In w) →
    (eqs.map (·.field)).Nodup →
    Group.doMethod ((eqs.map (·.field)).map some) (World.reset fuel) w = (.ok (), w') →
    (∀ x, (w'.obj x).shape = (w.obj x).shape) ∧ (∀ q ∈ eqs, w'.lastValues q.field = .none) ∧
      ∀ f, f ∉ eqs.map (·.field) → (w.obj f).isField = true → w'.obj f = w.obj f
  | [], w, w', _, _, h => by
    cases h
    exact ⟨fun _ => rfl, by simp, fun _ _ _ => rfl⟩
  | q :: eqs, w, w', hq, hn, h => by
    have hi := hq q List.mem_cons_self
    rw [List.map_cons, List.nodup_cons] at hn
    rw [List.map_cons, doMethod_cons] at h
    have hne := reset_attributeError fuel q.field w (by
      obtain ⟨nm, e, rp, gt, hd, single, g1, -⟩ := hi.built
      rw [g1]; simp)
    rcases hw : World.reset fuel q.field w with ⟨e | u, w1⟩
    · rw [hw] at h hne
      dsimp only at h hne
      rw [if_neg (fun he => hne (by rw [he]))] at h
      cases h
    · rw [hw] at h
      dsimp only at h
      obtain ⟨k1, k2, k3⟩ := hi.reset hw
      have hq1 : ∀ p ∈ eqs, p.In w1 := fun p hp =>
        (hq p (List.mem_cons_of_mem _ hp)).congr (fun x => node_of_shape (k1 x))
          (fun x => wrapper_of_shape (k1 x)) fun x => by
            have h2 : ∀ a : Attrs R, a.shape.static = a.static := by
              intro a; unfold Attrs.shape; split <;> rfl
            rw [← h2 (w1.obj x), k1 x, h2]
      obtain ⟨i1, i2, i3⟩ := resets_values hq1 hn.2 h
      have hf1 : ∀ f, (w1.obj f).isField = (w.obj f).isField := fun f => by
        unfold Attrs.isField
        rw [node_of_shape (k1 f)]
      have hqf : (w.obj q.field).isField = true := by
        obtain ⟨nm, e, rp, gt, hd, single, g1, -⟩ := hi.built
        unfold Attrs.isField
        rw [g1]
      refine ⟨fun x => (i1 x).trans (k1 x), fun p hp => ?_, fun f hf hfield => ?_⟩
      · rcases List.mem_cons.1 hp with rfl | hp
        · unfold World.lastValues
          rw [i3 p.field hn.1 (by rw [hf1]; exact hqf)]
          exact k2
        · exact i2 p hp
      · rw [List.map_cons, List.mem_cons, not_or] at hf
        rw [i3 f hf.2 (by rw [hf1]; exact hfield), k3 f hf.1 hfield]

end Fauxdoc
