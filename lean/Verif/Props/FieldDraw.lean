import Verif.Spec.FieldDraw
import Verif.Props.DocSet
import Verif.Props.TextDraw
import Verif.Props.Heap3
/-
C116: fields are filled independently of each other.
-/
set_option linter.unusedSectionVars false
namespace Fauxdoc
open PyM World
variable {K : Type} [Field K] [LinearOrder K] [FloorRing K] {R : Rng K}

/-! ### One field -/

/-- The generator after some draws. -/
def Rng.past (R : Rng K) : Nat → R.G → R.G
  | 0, g => g
  | n + 1, g => Rng.past R n (R.random g).2

theorem rands_past (n : Nat) : ∀ g : R.G,
    R.rands n g = (.ok (List.ofFn fun j : Fin n => R.nthDraw j g), R.past n g) := by
  induction n with
  | zero => exact fun g => rfl
  | succ n ih =>
    intro g
    change (R.rand >>= fun u => R.rands n >>= fun us => pure (u :: us)) g = _
    rw [PyM.bind_ok (m := R.rand) (a := (R.random g).1) (s' := (R.random g).2) rfl, PyM.bind_ok (ih _),
      List.ofFn_succ]
    rfl

theorem past_add (n : Nat) : ∀ (m : Nat) (g : R.G), R.past m (R.past n g) = R.past (n + m) g := by
  induction n with
  | zero => intro m g; rw [Nat.zero_add]; rfl
  | succ n ih => intro m g; rw [show n + 1 + m = (n + m) + 1 by omega]; exact ih m _

theorem nthDraw_past (n : Nat) : ∀ (m : Nat) (g : R.G), R.nthDraw m (R.past n g) = R.nthDraw (n + m) g := by
  induction n with
  | zero => intro m g; rw [Nat.zero_add]; rfl
  | succ n ih => intro m g; rw [show n + 1 + m = (n + m) + 1 by omega]; exact ih m _

theorem pickedBy_add {α : Type} (items : List α) (ws : List K) (n m : Nat) (g : R.G) :
    pickedBy (R := R) items ws (n + m) g =
      pickedBy (R := R) items ws n g ++ pickedBy (R := R) items ws m (R.past n g) := by
  unfold pickedBy Choice.pick
  rw [← List.filterMap_append, ← List.map_append]
  congr 2
  rw [List.ofFn_add]
  congr 1
  congr 1
  funext j
  exact (nthDraw_past n j g).symm

section
variable [IsStrictOrderedRing K]

/-- A `Choice` that started from `g` and has emitted `E`. -/
def Drawing (items : List Val) (ws : List K) (g : R.G) (a : Attrs R) (E : List Val) : Prop :=
  Picks items ws a ∧ a.choice.roac = false ∧ E = pickedBy (R := R) items ws E.length g ∧
    a.choice.rng = R.past E.length g

theorem streams_picks (str : Val → List Char) (e : Ref) (items : List Val) (ws : List K) (g : R.G) :
    Streams (R := R) str e (Drawing items ws g) := by
  rintro fuel arg ha w E ⟨hp, hro, hE, hrng⟩
  cases fuel with
  | zero => exact ⟨[], by rw [List.append_nil]; exact ⟨hp, hro, hE, hrng⟩, fun v h => by cases h⟩
  | succ fuel =>
    obtain ⟨k, hk⟩ := hp.node
    have hcall : World.call str (fuel + 1) e arg w = onChoice e (Choice.child arg) w := by
      conv_lhs => unfold World.call
      rw [PyM.run_get_bind, hk]
    have key : ∀ (m : Nat), Drawing items ws g
        ((w.withGen e (R.past m (w.obj e).choice.rng)).obj e)
        (E ++ pickedBy (R := R) items ws m (w.obj e).choice.rng) := by
      intro m
      have hl := (pickedBy_getElem (R := R) hp.same hp.total m (w.obj e).choice.rng).1
      refine ⟨?_, ?_, ?_, ?_⟩
      · rw [withGen_obj, if_pos rfl]
        exact ⟨hp.node, hp.among, hp.weights, hp.cumWeights, hp.replace, hp.same, hp.several, hp.total⟩
      · rw [withGen_obj, if_pos rfl]; exact hro
      · rw [List.length_append, hl, pickedBy_add, ← hE, ← hrng]
      · rw [withGen_obj, if_pos rfl, List.length_append, hl, ← past_add, ← hrng]
    have many : ∀ m : Nat, World.call str (fuel + 1) e (some (.int m)) w =
        (.ok (.list (pickedBy (R := R) items ws m (w.obj e).choice.rng)),
          w.withGen e (R.past m (w.obj e).choice.rng)) := by
      intro m
      obtain ⟨us, g', hu, h⟩ := picks_many hp hro str fuel m
      rw [rands_past] at hu
      cases hu
      exact h
    have one : ∀ arg, arg = none ∨ arg = some .none → ∃ b,
        Drawing items ws g ((World.call str (fuel + 1) e arg w).2.obj e) (E ++ b) ∧
          ∀ v, (World.call str (fuel + 1) e arg w).1 = .ok v → Block v b := by
      intro arg harg
      obtain ⟨v, hv, h⟩ := picks_call hp str fuel arg harg
      have hb : pickedBy (R := R) items ws 1 (w.obj e).choice.rng = [v] := by
        obtain ⟨h1, h2⟩ := pickedBy_getElem (R := R) hp.same hp.total 1 (w.obj e).choice.rng
        obtain ⟨x, hx⟩ := List.length_eq_one_iff.1 h1
        have h3 := (h2 0 (by omega)).2
        rw [hx] at h3
        rw [hx]
        exact congrArg (fun x => [x]) (Option.some.inj (h3.trans hv))
      have hk1 := key 1
      rw [hb] at hk1
      rw [h]
      exact ⟨[v], hk1, fun y hy => by cases hy; exact .one v⟩
    rcases arg with _ | v
    · exact one _ (.inl rfl)
    by_cases hnone : v = .none
    · exact one _ (.inr (by rw [hnone]))
    rcases hi : v.asInt with _ | n
    · have hbad : Choice.child (some v) ((w.obj e).choice, w.entropy) =
          (.error .typeError, ({ (w.obj e).choice with rng := R.past 0 (w.obj e).choice.rng }, w.entropy)) := by
        have : Choice.child (R := R) (some v) = Choice.emitBad v := by
          unfold Choice.child emitterCallOr
          cases v <;> first | exact absurd rfl hnone | (simp only [hi])
        rw [this]
        unfold Choice.emitBad
        rw [Choice.self_bind]
        simp only [hp.replace, hro, hp.cumWeights]
        rw [if_neg (by rw [hp.among]; exact hp.several)]
        have hne : ws ≠ [] := by
          rintro rfl
          exact absurd hp.total (by simp)
        obtain ⟨us, g', h1, _, _, h2⟩ := choicesCum_ok R ws hne hp.total 0 (w.obj e).choice.rng
        rw [hp.among, ← hp.same]
        cases h1
        rw [PyM.bind_apply]
        unfold Choice.onRng
        rw [h2]
        simp only [PyM.raise, hp.among, hp.cumWeights, hp.replace, hro, Rng.past]
      rw [hcall]
      unfold onChoice
      rw [hbad]
      have hk0 := key 0
      refine ⟨_, hk0, fun y hy => by cases hy⟩
    · have hn : 0 ≤ n := ha n hi
      have hsame : Choice.child (R := R) (some v) = Choice.child (some (.int n)) := by
        unfold Choice.child emitterCallOr
        cases v <;> first | exact absurd rfl hnone | (simp only [hi]; rfl)
      obtain ⟨m, rfl⟩ := Int.eq_ofNat_of_zero_le hn
      have hc2 : World.call str (fuel + 1) e (some (.int m)) w = onChoice e (Choice.child (some (.int m))) w := by
        conv_lhs => unfold World.call
        rw [PyM.run_get_bind, hk]
      rw [hcall, hsame, ← hc2, many m]
      exact ⟨_, key m, fun y hy => by cases hy; exact .many _⟩

theorem DrawnField.congr {w v : World R} {fields : Dict Ref} {name : String} {f e : Ref}
    {items : List Val} {ws : List K} (h : DrawnField w fields name f e items ws) (ha : World.Alike w v) :
    DrawnField v fields name f e items ws := by
  obtain ⟨k, hk⟩ := h.picks.node
  exact ⟨h.keys, h.user.congr fun x => World.node_of_shape (ha x),
    (hide_of_node (World.node_of_shape (ha f))).trans h.visible, h.picks.congr (ha e),
    (World.alike_of_shape (ha e).symm hk).roac.symm.trans h.roac, h.plain⟩

theorem document_typed {V : Ref → Val → Prop} {str : Val → List Char} (fuel : Nat) (fields : Dict Ref)
    {w : World R} (h : AllTyped V w) : AllTyped V (World.document str fuel fields w).2 := by
  unfold World.document Schema.call
  rw [run_get_bind]
  have hl : ∀ (fs : Dict Ref) (doc : Dict Val), Keeps (AllTyped (R := R) V)
      (Schema.loop (fun r => (w.obj r).hide) (fun r => World.call str fuel r none) doc fs) := by
    intro fs
    induction fs with
    | nil => exact fun doc => Keeps.pure _ _
    | cons kf fs ihf =>
      intro doc
      unfold Schema.loop
      refine (allCall_keeps str fuel kf.2 (arg := none) trivial).bind fun v => ?_
      split
      · exact ihf _
      · exact ihf _
  exact hl fields [] w h

theorem documents_streams {V : Ref → Val → Prop} {str : Val → List Char} {e f : Ref} {name : String}
    {I : Attrs R → List Val → Prop} (hI : Streams str e I) (hef : e ≠ f) (fuel : Nat)
    (fields : Dict Ref) (hk : fields.keys.Nodup) (n : Nat) : ∀ (w : World R) (docs : List (Dict Val))
      (E : List Val), OnlyUser w fields name f e → (w.obj f).hide = false → AllTyped V w →
      I (w.obj e) E → World.documents str fuel fields n w = docs.map .ok →
      ∃ bs a, I a (E ++ bs.flatten) ∧
        List.Forall₂ (fun d b => ∃ x, d.get? name = some x ∧ Block x b) docs bs := by
  induction n with
  | zero =>
    intro w docs E _ _ _ hE hd
    obtain rfl : docs = [] := by
      cases docs with
      | nil => rfl
      | cons d docs => cases hd
    exact ⟨[], w.obj e, by simpa using hE, .nil⟩
  | succ n ih =>
    intro w docs E hu hh ht hE hd
    cases docs with
    | nil => cases hd
    | cons d docs =>
      have hd' : (World.document str fuel fields w).1 :: World.documents str fuel fields n
        (World.document str fuel fields w).2 = .ok d :: docs.map .ok := hd
      rw [List.cons.injEq] at hd'
      obtain ⟨h0, h1⟩ := hd'
      obtain ⟨b, h2, h3⟩ := document_streams hI hef fuel fields hk w hu ht E hE
      have hn : ∀ x, ((World.document str fuel fields w).2.obj x).node = (w.obj x).node :=
        fun x => (World.document_frame str fuel fields (fun _ => True) w (fun _ _ _ _ => trivial)
          fun _ _ => trivial).node x
      obtain ⟨bs, a, h4, h5⟩ := ih _ docs (E ++ b) (hu.congr hn)
        ((hide_of_node (hn f)).trans hh) (document_typed fuel fields ht) h2 h1
      obtain ⟨h6, h7⟩ := h3 d h0
      exact ⟨b :: bs, a, by rw [List.flatten_cons, ← List.append_assoc]; exact h4,
        .cons ⟨_, h7 hh, h6⟩ h5⟩

/-- **C116 (one field).** The single values that a field has in any number of documents are what the
draws of its `Choice` pick, one after the other, whatever its gate and its repeat and the other fields. -/
theorem C116_values {V : Ref → Val → Prop} (str : Val → List Char) {w : World R} {fields : Dict Ref}
    {name : String} {f e : Ref} {items : List Val} {ws : List K}
    (h : DrawnField w fields name f e items ws) (ht : TypedOn V (fun _ => True) w) (fuel n : Nat)
    (docs : List (Dict Val)) (hd : World.documents str fuel fields n w = docs.map .ok) :
    valuesOf name docs =
      pickedBy (R := R) items ws (valuesOf name docs).length (w.obj e).choice.rng := by
  obtain ⟨k, hk⟩ := h.picks.node
  have hef : e ≠ f := h.user.ne hk (by intros; simp)
  obtain ⟨bs, a, h1, h2⟩ := documents_streams (streams_picks str e items ws (w.obj e).choice.rng) hef fuel
    fields h.keys n w docs [] h.user h.visible ht ⟨h.picks, h.roac, rfl, rfl⟩ hd
  rw [List.nil_append] at h1
  have hp : ∀ x ∈ bs.flatten, x.Plain := by
    intro x hx
    rw [h1.2.2.1] at hx
    exact h.plain x (pickedBy_mem hx)
  have he : valuesOf name docs = bs.flatten := by
    clear h1 hd
    induction h2 with
    | nil => rfl
    | @cons d b ds bs h3 _ ih =>
      obtain ⟨x, h4, h5⟩ := h3
      unfold valuesOf
      rw [List.flatMap_cons, List.flatten_cons, h4]
      congr 1
      · exact h5.parts_eq fun x hx => hp x (by rw [List.flatten_cons]; exact List.mem_append_left _ hx)
      · exact ih fun x hx => hp x (by rw [List.flatten_cons]; exact List.mem_append_right _ hx)
  rw [he]
  exact h1.2.2.1

/-! ### Two fields -/

theorem seedFields_typed {V : Ref → Val → Prop} (fuel : Nat) (s : Option Int) (fields : Dict Ref)
    {w : World R} (h : AllTyped V w) : AllTyped V (World.seedFields fuel s fields w).2 := by
  rw [seedFields_eq]
  exact doMethod_keeps (fun c _ => seed_typed fuel c s trivial) _ h

theorem seeded_field {w : World R} {fields : Dict Ref} {name : String} {f e : Ref} {items : List Val}
    {ws : List K} (h : DrawnField w fields name f e items ws) {fuel : Nat} {s : Int}
    (hok : (World.seedFields fuel (some s) fields w).1 = .ok ()) :
    ((World.seedFields fuel (some s) fields w).2.obj e).choice.rng = R.ofSeed s := by
  have hs := World.seedFields_shape fuel (some s) fields w
  obtain ⟨n, rp, g, hd, hn, _, _⟩ := h.user.node
  have hb : Below w f e := .step (c := e) (by unfold Attrs.children; rw [hn]; simp [Node.childRefs]) (.self e)
  have hse := World.seedFields_seeded fuel (some s) fields w hok h.user.field e hb
  obtain ⟨k, hk⟩ := h.picks.node
  unfold Attrs.Seeded at hse
  rw [(World.node_of_shape (hs e)).trans hk] at hse
  have hf := (hse.2 s rfl).2
  rwa [if_pos (h.picks.congr (hs e)).replace] at hf

/-- What the `m`-th values of two fields are after seeding. -/
theorem seeded_pair {V : Ref → Val → Prop} (str : Val → List Char) {w : World R} {fields : Dict Ref}
    {name : String} {f e : Ref} {items : List Val} {ws : List K}
    (h : DrawnField w fields name f e items ws) (hnd : items.Nodup) (ht : TypedOn V (fun _ => True) w)
    (s : Int) (fuel : Nat) (hok : (World.seedFields fuel (some s) fields w).1 = .ok ()) (fuel' n : Nat)
    (docs : List (Dict Val))
    (hd : World.documents str fuel' fields n (World.seedFields fuel (some s) fields w).2 = docs.map .ok)
    {m i : Nat} {x : Val} (hx : (valuesOf name docs)[m]? = some x) (hi : items[i]? = some x) :
    i = choicesPick (accumulate ws) ws.sum (R.nthDraw m (R.ofSeed s)) := by
  have hv := C116_values str (h.congr (World.seedFields_shape fuel (some s) fields w))
    (seedFields_typed fuel (some s) fields ht) fuel' n docs hd
  rw [seeded_field h hok] at hv
  obtain ⟨m0, _⟩ := List.getElem?_eq_some_iff.1 hx
  have e1 := ((pickedBy_getElem (R := R) h.picks.same h.picks.total (valuesOf name docs).length
    (R.ofSeed s)).2 m m0).2
  rw [← hv, hx] at e1
  exact nodup_index hnd hi e1.symm

/-- **C116, violated.** After `seed_fields(s)` the `m`-th values of two fields are decided by the same
draw, for every `m` and any number of documents: whatever the seed and the generator, the one is never
the `i`-th item of its choice and the other the `j`-th item of its own, if the parts of the unit
interval that belong to the two do not meet. -/
theorem C116_violated {V : Ref → Val → Prop} (str : Val → List Char) {w : World R} {fields : Dict Ref}
    {a b : String} {f e f' e' : Ref} {items items' : List Val} {wa wb : List K}
    (ha : DrawnField w fields a f e items wa) (hb : DrawnField w fields b f' e' items' wb)
    (hna : items.Nodup) (hnb : items'.Nodup) (ht : TypedOn V (fun _ => True) w) (s : Int) (fuel : Nat)
    (hok : (World.seedFields fuel (some s) fields w).1 = .ok ()) (fuel' n : Nat) (docs : List (Dict Val))
    (hd : World.documents str fuel' fields n (World.seedFields fuel (some s) fields w).2 = docs.map .ok)
    {m i j : Nat} {x y : Val} (hx : (valuesOf a docs)[m]? = some x) (hi : items[i]? = some x)
    (hy : (valuesOf b docs)[m]? = some y) (hj : items'[j]? = some y) :
    ¬ SharesApart wa i wb j ∧ (wa = wb → i = j) := by
  rw [seeded_pair str ha hna ht s fuel hok fuel' n docs hd hx hi,
    seeded_pair str hb hnb ht s fuel hok fuel' n docs hd hy hj]
  have hm : ∀ g : R.G, 0 ≤ R.nthDraw m g ∧ R.nthDraw m g < 1 := by
    clear * -
    induction m with
    | zero => exact fun g => ⟨R.random_nonneg g, R.random_lt_one g⟩
    | succ m ih => exact fun g => ih _
  exact ⟨same_draw ha.picks.total hb.picks.total (hm _).1 (hm _).2, fun h => by rw [h]⟩

theorem OneEach.getElem {name : String} : ∀ {docs : List (Dict Val)}, OneEach name docs → ∀ m : Nat,
    (valuesOf name docs)[m]? = docs[m]?.bind fun d => d.get? name := by
  intro docs
  induction docs with
  | nil => intro _ m; rfl
  | cons d docs ih =>
    intro h m
    obtain ⟨x, h1, h2⟩ := h d (by simp)
    have hp : x.parts = [x] := by cases x <;> first | rfl | exact h2.elim
    unfold valuesOf
    rw [List.flatMap_cons, h1]
    change (x.parts ++ valuesOf name docs)[m]? = _
    rw [hp]
    cases m with
    | zero => simp [h1]
    | succ m => simpa using ih (fun d hd => h d (List.mem_cons_of_mem _ hd)) m

/-- **C116, violated (documents).** In particular no document has such values of two fields, if both
have one value in each document; with the same weights, the two choose the same position in all
documents. -/
theorem C116_documents_violated {V : Ref → Val → Prop} (str : Val → List Char) {w : World R}
    {fields : Dict Ref} {a b : String} {f e f' e' : Ref} {items items' : List Val} {wa wb : List K}
    (ha : DrawnField w fields a f e items wa) (hb : DrawnField w fields b f' e' items' wb)
    (hna : items.Nodup) (hnb : items'.Nodup) (ht : TypedOn V (fun _ => True) w) (s : Int) (fuel : Nat)
    (hok : (World.seedFields fuel (some s) fields w).1 = .ok ()) (fuel' n : Nat) (docs : List (Dict Val))
    (hd : World.documents str fuel' fields n (World.seedFields fuel (some s) fields w).2 = docs.map .ok)
    (ho : OneEach a docs) (ho' : OneEach b docs) {i j : Nat} {x y : Val} (hi : items[i]? = some x)
    (hj : items'[j]? = some y) {d : Dict Val} (hm : d ∈ docs) (hx : d.get? a = some x)
    (hy : d.get? b = some y) : ¬ SharesApart wa i wb j ∧ (wa = wb → i = j) := by
  obtain ⟨m, hm⟩ := List.mem_iff_getElem?.1 hm
  exact C116_violated str ha hb hna hnb ht s fuel hok fuel' n docs hd (m := m)
    (by rw [ho.getElem, hm]; exact hx) hi (by rw [ho'.getElem, hm]; exact hy) hj

end

theorem withGen_typed [IsStrictOrderedRing K] {V : Ref → Val → Prop} {w : World R} {r : Ref} (g : R.G)
    (h : AllTyped V w) : AllTyped V (w.withGen r g) := by
  rw [allTyped_iff] at h ⊢
  intro x
  rw [withGen_obj]
  split
  · rename_i hx
    subst hx
    have hr := h x
    unfold Attrs.Typed at hr ⊢
    exact hr
  · exact h x
end Fauxdoc

namespace Fauxdoc
open MeasureTheory World
variable {R : Rng ℝ}

/-- **C116, partial.** If the generators of the choices of two fields are independently in random states
with uniform draws, and both fields have one value in each document, then in any number of documents the
two are filled independently of each other and of the other documents, each item with the share of its
weight.  (Missing: choices that were seeded alike, as `seed_fields` does.) -/
theorem C116_probability_partial [MeasurableSpace R.G] (μ ν : Measure R.G) [SFinite μ] [SFinite ν]
    {V : Ref → Val → Prop} (str : Val → List Char) {w : World R} {fields : Dict Ref} {a b : String}
    {f e f' e' : Ref} {items items' : List Val} {wa wb : List ℝ}
    (ha : DrawnField w fields a f e items wa) (hb : DrawnField w fields b f' e' items' wb) (he : e ≠ e')
    (hna : items.Nodup) (hnb : items'.Nodup) (hwa : ∀ x ∈ wa, 0 ≤ x) (hwb : ∀ x ∈ wb, 0 ≤ x)
    (ht : TypedOn V (fun _ => True) w) (fuel n : Nat) (hU : UniformDraws R μ n) (hV : UniformDraws R ν n)
    (hok : ∀ x y, ∃ docs : List (Dict Val),
      World.documents str fuel fields n ((w.withGen e x).withGen e' y) = docs.map .ok ∧
        OneEach a docs ∧ OneEach b docs)
    (is : Fin n → Fin items.length) (js : Fin n → Fin items'.length) :
    (μ.prod ν) {xy | ∀ m : Fin n, ∃ d,
        (World.documents str fuel fields n ((w.withGen e xy.1).withGen e' xy.2))[(m : Nat)]? = some (.ok d) ∧
        d.get? a = some items[is m] ∧ d.get? b = some items'[js m]} =
      (∏ m, ENNReal.ofReal (wa.getD (is m) 0 / wa.sum)) *
        ∏ m, ENNReal.ofReal (wb.getD (js m) 0 / wb.sum) := by
  have hnem : ∀ {l : List ℝ}, 0 < l.sum → l ≠ [] := by
    rintro l hl rfl
    simp at hl
  rw [← picks_pattern μ hU (hnem ha.picks.total) hwa ha.picks.total (fun m => is m)
      (fun m => by rw [ha.picks.same]; exact (is m).2),
    ← picks_pattern ν hV (hnem hb.picks.total) hwb hb.picks.total (fun m => js m)
      (fun m => by rw [hb.picks.same]; exact (js m).2), ← Measure.prod_prod]
  congr 1
  ext ⟨x, y⟩
  simp only [Set.mem_ofPred_eq, Set.mem_prod]
  obtain ⟨k, hk⟩ := ha.picks.node
  obtain ⟨k', hk'⟩ := hb.picks.node
  have al : World.Alike w ((w.withGen e x).withGen e' y) :=
    World.withGen_alike (World.withGen_alike (fun _ => rfl) hk x)
      (by rw [World.withGen_obj, if_neg (Ne.symm he)]; exact hk') y
  have hx : (((w.withGen e x).withGen e' y).obj e).choice.rng = x := by
    rw [World.withGen_obj, if_neg he, World.withGen_obj, if_pos rfl]
  have hy : (((w.withGen e x).withGen e' y).obj e').choice.rng = y := by
    rw [World.withGen_obj, if_pos rfl]
  obtain ⟨docs, hdocs, o1, o2⟩ := hok x y
  have hlen : docs.length = n := by
    have := World.documents_length str fuel fields n ((w.withGen e x).withGen e' y)
    rwa [hdocs, List.length_map] at this
  have ht' := withGen_typed (r := e') y (withGen_typed (r := e) x ht)
  have value : ∀ {c : String} {q p : Ref} {its : List Val} {ws : List ℝ} {g : R.G},
      DrawnField ((w.withGen e x).withGen e' y) fields c q p its ws → its.Nodup →
      (((w.withGen e x).withGen e' y).obj p).choice.rng = g → OneEach c docs →
      ∀ (m : Fin n) (i : Fin its.length), (docs[(m : Nat)]'(by omega)).get? c = some its[i] ↔
        choicesPick (accumulate ws) ws.sum (R.nthDraw m g) = i := by
    intro c q p its ws g hf hnd hg ho m i
    have hv := C116_values str hf ht' fuel n docs hdocs
    rw [hg] at hv
    have hm := ho.getElem (m : Nat)
    rw [List.getElem?_eq_getElem (by omega : (m : Nat) < docs.length)] at hm
    change _ = (docs[(m : Nat)]).get? c at hm
    obtain ⟨v, hv1, _⟩ := ho _ (List.getElem_mem (by omega : (m : Nat) < docs.length))
    rw [hv1] at hm
    obtain ⟨m0, _⟩ := List.getElem?_eq_some_iff.1 hm
    have e1 := ((pickedBy_getElem (R := R) hf.picks.same hf.picks.total (valuesOf c docs).length g).2 m m0).2
    rw [← hv, hm] at e1
    rw [hv1]
    constructor
    · intro h
      rw [h] at e1
      exact nodup_index hnd e1.symm (List.getElem?_eq_getElem i.2)
    · intro h
      rw [e1, h]
      exact List.getElem?_eq_getElem i.2
  rw [hdocs, ← forall_and]
  refine forall_congr' fun m => ?_
  rw [← value (ha.congr al) hna hx o1 m (is m), ← value (hb.congr al) hnb hy o2 m (js m), List.getElem?_map,
    List.getElem?_eq_getElem (by omega : (m : Nat) < docs.length)]
  constructor
  · rintro ⟨d, hd, h⟩
    cases hd
    exact h
  · exact fun h => ⟨_, rfl, h⟩

/-! ### An example -/

section
variable {K : Type} [Field K] [LinearOrder K] [FloorRing K]

/-- `Field('color', Choice(['red', 'blue'], weights=[1, 1]))` (3) and `Field('size', Choice(['S', 'M',
'L'], weights=[2, 1, 1]))` (7). -/
def shirtWorld (R : Rng K) : World R where
  obj
    | 0 => coin R [.str ['r', 'e', 'd'], .str ['b', 'l', 'u', 'e']] [1, 1]
    | 1 => fixed R .none | 2 => fixed R (.bool true) | 3 => gated R "color" 0 1 2
    | 4 => coin R [.str ['S'], .str ['M'], .str ['L']] [2, 1, 1]
    | 5 => fixed R .none | 6 => fixed R (.bool true) | 7 => gated R "size" 4 5 6
    | _ => World.blank
  next := 8
  entropy := 0

/-- The schema. -/
def shirtFields : Dict Ref := [("color", 3), ("size", 7)]

variable [IsStrictOrderedRing K] {R : Rng K}

theorem shirt_leaf (r : Ref) (hr : Node.childRefs ((shirtWorld R).obj r).node = []) {x : Ref}
    (h : Below (shirtWorld R) r x) : x = r := by
  have := h.mem [r] (fun y hy c hc => by
    simp only [List.mem_cons, List.not_mem_nil, or_false] at hy
    subst hy
    unfold Attrs.children at hc
    rw [hr] at hc
    cases hc) (by simp)
  simpa using this

theorem shirt_below3 {x : Ref} (h : Below (shirtWorld R) 3 x) : x ∈ [0, 1, 2, 3] :=
  h.mem [0, 1, 2, 3] (by
    intro y hy
    simp only [List.mem_cons, List.not_mem_nil, or_false] at hy
    rcases hy with rfl | rfl | rfl | rfl <;>
      simp [shirtWorld, coin, fixed, gated, Attrs.children, Node.childRefs]) (by decide)

theorem shirt_below7 {x : Ref} (h : Below (shirtWorld R) 7 x) : x ∈ [4, 5, 6, 7] :=
  h.mem [4, 5, 6, 7] (by
    intro y hy
    simp only [List.mem_cons, List.not_mem_nil, or_false] at hy
    rcases hy with rfl | rfl | rfl | rfl <;>
      simp [shirtWorld, coin, fixed, gated, Attrs.children, Node.childRefs]) (by decide)

theorem shirt_color : DrawnField (shirtWorld R) shirtFields "color" 3 0
    [.str ['r', 'e', 'd'], .str ['b', 'l', 'u', 'e']] [1, 1] where
  keys := by decide
  user := ⟨by decide, ⟨_, 1, 2, false, rfl, fun h => absurd (shirt_leaf 1 rfl h) (by decide),
    fun h => absurd (shirt_leaf 2 rfl h) (by decide)⟩, fun kf hk hne h => by
      simp only [shirtFields, List.mem_cons, List.not_mem_nil, or_false] at hk
      rcases hk with rfl | rfl
      · exact hne rfl
      · exact absurd (shirt_below7 h) (by decide)⟩
  visible := rfl
  picks := ⟨⟨_, rfl⟩, rfl, rfl, rfl, rfl, rfl, by decide, by norm_num⟩
  roac := rfl
  plain x hx := by
    simp only [List.mem_cons, List.not_mem_nil, or_false] at hx
    rcases hx with rfl | rfl <;> trivial

theorem shirt_size : DrawnField (shirtWorld R) shirtFields "size" 7 4
    [.str ['S'], .str ['M'], .str ['L']] [2, 1, 1] where
  keys := by decide
  user := ⟨by decide, ⟨_, 5, 6, false, rfl, fun h => absurd (shirt_leaf 5 rfl h) (by decide),
    fun h => absurd (shirt_leaf 6 rfl h) (by decide)⟩, fun kf hk hne h => by
      simp only [shirtFields, List.mem_cons, List.not_mem_nil, or_false] at hk
      rcases hk with rfl | rfl
      · exact absurd (shirt_below3 h) (by decide)
      · exact hne rfl⟩
  visible := rfl
  picks := ⟨⟨_, rfl⟩, rfl, rfl, rfl, rfl, rfl, by decide, by norm_num⟩
  roac := rfl
  plain x hx := by
    simp only [List.mem_cons, List.not_mem_nil, or_false] at hx
    rcases hx with rfl | rfl | rfl <;> trivial

/-- Only the repeats are declared. -/
def shirtV (r : Ref) (v : Val) : Prop := r = 1 ∨ r = 5 → v = .none

theorem shirt_typed : TypedOn shirtV (fun _ => True) (shirtWorld R) := by
  have hc : ∀ {r : Ref} {items : List Val} {ws : List K}, r ≠ 1 → r ≠ 5 → items ≠ [] →
      ws.length = items.length → (coin R items ws).Typed shirtV r := by
    intro r items ws h1 h5 hne hl
    have hi : (coin R items ws).choice.Intact := by
      refine ⟨hne, .inr ⟨ws, rfl, rfl, hl⟩, ?_, ?_, ?_⟩
      · intro h; cases h
      · intro _; rfl
      · intro h; cases h
    refine ⟨hi, ?_⟩
    rintro x - (h | h)
    · exact absurd h h1
    · exact absurd h h5
  have hf : ∀ {r rp : Ref} {n : String} {e g : Ref}, r ≠ 1 → r ≠ 5 → (rp = 1 ∨ rp = 5) →
      (gated R n e rp g).Typed shirtV r := by
    intro r rp n e g h1 h5 hrp
    refine ⟨?_, fun v hv i hi => ?_⟩
    · rintro x (h | h)
      · exact absurd h h1
      · exact absurd h h5
    · rw [hv hrp] at hi
      cases hi
  refine allTyped_iff.2 fun r => ?_
  match r with
  | 0 => exact hc (by decide) (by decide) (by simp) rfl
  | 1 => exact fun _ => rfl
  | 2 => exact fun h => absurd h (by decide)
  | 3 => exact hf (by decide) (by decide) (.inl rfl)
  | 4 => exact hc (by decide) (by decide) (by simp) rfl
  | 5 => exact fun _ => rfl
  | 6 => exact fun h => absurd h (by decide)
  | 7 => exact hf (by decide) (by decide) (.inr rfl)
  | _ + 8 => exact trivial
end

/-- A field without gate and repeat can be called and gets one of the items. -/
theorem plain_field {K : Type} [Field K] [LinearOrder K] [FloorRing K] [IsStrictOrderedRing K] {R : Rng K}
    (str : Val → List Char) {w : World R} {f e rp g : Ref} {n : String} {hd : Bool} {items : List Val}
    {ws : List K} (hn : (w.obj f).node = some (.field n e rp g hd)) (hp : Picks items ws (w.obj e))
    (hr : w.obj rp = fixed R .none) (hg : w.obj g = fixed R (.bool true)) (fuel : Nat) :
    ∃ v w', World.call str (fuel + 2) f none w = (.ok v, w') ∧ v ∈ items := by
  have st : ∀ {r : Ref} {v : Val} {u : World R}, u.obj r = fixed R v →
      World.call str (fuel + 1) r none u = (.ok v, u) := by
    intro r v u hv
    have := call_static str fuel (r := r) (w := u) (by rw [hv]; rfl)
    rwa [hv] at this
  obtain ⟨v, hv, h⟩ := picks_call hp str fuel (some .none) (.inr rfl)
  exact ⟨v, _, (C46_store str (fuel + 1) hn v _).2 ⟨_, _, st hg, .inr ⟨rfl, _, _, _, st hr, h, rfl⟩⟩,
    List.mem_of_getElem? hv⟩

theorem shirt_fixed {K : Type} [Field K] [LinearOrder K] [FloorRing K] [IsStrictOrderedRing K] {R : Rng K}
    {w : World R} (ha : World.Alike (shirtWorld R) w) {r : Ref} {v : Val}
    (hv : (shirtWorld R).obj r = fixed R v) : w.obj r = fixed R v := by
  have hn : (w.obj r).node = some .static := by rw [World.node_of_shape (ha r), hv]; rfl
  have := ha r
  unfold Attrs.shape at this
  rw [hv, hn] at this
  exact this

/-- The schema always gives a document, with one value for each field. -/
theorem shirt_document {K : Type} [Field K] [LinearOrder K] [FloorRing K] [IsStrictOrderedRing K] {R : Rng K}
    (str : Val → List Char) {w : World R} (ha : World.Alike (shirtWorld R) w) (fuel : Nat) :
    ∃ v1 v2 w', World.document str (fuel + 2) shirtFields w = (.ok [("color", v1), ("size", v2)], w') ∧
      v1.Plain ∧ v2.Plain := by
  have col := shirt_color (R := R)
  have siz := shirt_size (R := R)
  obtain ⟨v1, w1, h1, m1⟩ := plain_field str (w := w) (f := 3) (e := 0) (rp := 1) (g := 2)
    (World.node_of_shape (ha 3)) (col.congr ha).picks (shirt_fixed ha rfl) (shirt_fixed ha rfl) fuel
  have ha1 := World.alike_after ha h1
  obtain ⟨v2, w2, h2, m2⟩ := plain_field str (w := w1) (f := 7) (e := 4) (rp := 5) (g := 6)
    (World.node_of_shape (ha1 7)) (siz.congr ha1).picks (shirt_fixed ha1 rfl) (shirt_fixed ha1 rfl) fuel
  refine ⟨v1, v2, w2, ?_, col.plain _ m1, siz.plain _ m2⟩
  unfold World.document Schema.call
  rw [PyM.run_get_bind]
  unfold shirtFields
  have l2 : ∀ doc, Schema.loop (fun r => (w.obj r).hide) (fun r => World.call str (fuel + 2) r none) doc
      [("size", 7)] w1 = (.ok (doc.set "size" v2), w2) := by
    intro doc
    unfold Schema.loop
    rw [PyM.bind_ok h2, if_neg (by rw [(siz.congr ha).visible]; decide)]
    rfl
  unfold Schema.loop
  rw [PyM.bind_ok h1, if_neg (by rw [(col.congr ha).visible]; decide), l2]
  rfl

theorem shirt_documents {K : Type} [Field K] [LinearOrder K] [FloorRing K] [IsStrictOrderedRing K] {R : Rng K}
    (str : Val → List Char) (fuel n : Nat) : ∀ {w : World R} (_ : World.Alike (shirtWorld R) w),
    ∃ docs : List (Dict Val), World.documents str (fuel + 2) shirtFields n w = docs.map .ok ∧
      OneEach "color" docs ∧ OneEach "size" docs := by
  induction n with
  | zero =>
    have h : ∀ name, OneEach name [] := fun name d hd => by cases hd
    intro w _
    exact ⟨[], rfl, h _, h _⟩
  | succ n ih =>
    intro w ha
    obtain ⟨v1, v2, w', h, p1, p2⟩ := shirt_document str ha fuel
    have ha' : World.Alike (shirtWorld R) w' := by
      have := World.loop_alike str (shirtWorld R) (fuel + 2) (fun r => (w.obj r).hide) shirtFields [] w ha
      unfold World.document Schema.call at h
      rw [PyM.run_get_bind] at h
      rw [h] at this
      exact this
    obtain ⟨docs, hd, o1, o2⟩ := ih ha'
    refine ⟨[("color", v1), ("size", v2)] :: docs, ?_, ?_, ?_⟩
    · unfold World.documents
      rw [h, List.map_cons, hd]
    · intro d hm
      rcases List.mem_cons.1 hm with rfl | hm
      · exact ⟨v1, rfl, p1⟩
      · exact o1 d hm
    · intro d hm
      rcases List.mem_cons.1 hm with rfl | hm
      · exact ⟨v2, rfl, p2⟩
      · exact o2 d hm

/-- Whatever the seed and the number of documents, no shirt is both blue and S. -/
example (s : Int) (n : Nat)
    (hok : (World.seedFields 5 (some s) shirtFields (shirtWorld demoRng)).1 = .ok ()) :
    ∃ docs : List (Dict Val), World.documents demoStr 5 shirtFields n
      (World.seedFields 5 (some s) shirtFields (shirtWorld demoRng)).2 = docs.map .ok ∧
    ∀ d ∈ docs, d.get? "color" = some (.str ['b', 'l', 'u', 'e']) → d.get? "size" ≠ some (.str ['S']) := by
  obtain ⟨docs, h, h1, h2⟩ := shirt_documents demoStr 3 n
    (World.seedFields_shape 5 (some s) shirtFields (shirtWorld demoRng))
  refine ⟨docs, h, fun d hd hx hy => ?_⟩
  exact (C116_documents_violated demoStr shirt_color shirt_size (by decide) (by decide) shirt_typed s 5 hok 5 n
    docs h h1 h2 (i := 1) (j := 0) rfl rfl hd hx hy).1 (.inr (by norm_num))

example : (World.seedFields 5 (some 0) shirtFields (shirtWorld demoRng)).1 = .ok () := by decide +kernel

/-- With independent generators two blue shirts in S have the probability 1/16. -/
example : (replayMeasure.prod replayMeasure) {xy | ∀ m : Fin 2, ∃ d,
      (World.documents demoStr 5 shirtFields 2
        (((shirtWorld replayRng).withGen 0 xy.1).withGen 4 xy.2))[(m : Nat)]? = some (.ok d) ∧
      d.get? "color" = some (.str ['b', 'l', 'u', 'e']) ∧ d.get? "size" = some (.str ['S'])} =
    (ENNReal.ofReal (1 / 2) * ENNReal.ofReal (1 / 2)) * (ENNReal.ofReal (1 / 2) * ENNReal.ofReal (1 / 2)) := by
  have := C116_probability_partial replayMeasure replayMeasure demoStr shirt_color shirt_size (by decide)
    (by decide) (by decide) (by norm_num) (by norm_num) shirt_typed 5 2 (replayRng_uniform 2)
    (replayRng_uniform 2) (fun x y => shirt_documents demoStr 3 2
      (World.withGen_alike (World.withGen_alike (w := shirtWorld replayRng) (fun _ => rfl) (k := .list) rfl x)
        (k := .list) rfl y)) (fun _ => ⟨1, by decide⟩) (fun _ => ⟨0, by decide⟩)
  have h2 : (1 : ℝ) / (1 + 1) = 1 / 2 := by norm_num
  have h3 : (2 : ℝ) / (2 + (1 + 1)) = 1 / 2 := by norm_num
  simpa [h2, h3, Fin.prod_univ_two, sq] using this

end Fauxdoc
