import Verif.Spec.DocSet
import Verif.Props.Heap2
import Verif.Props.Seeds
import Verif.Props.Assign
import Verif.Props.Contract
import Verif.Props.Fixed
namespace Fauxdoc
variable {K : Type} [Field K] [LinearOrder K] [IsStrictOrderedRing K] [FloorRing K]
  {R : Rng K}
open World

/-- Calls of the object `e` continue one stream of values; `I` relates its attributes to the part of
the stream that has been emitted. -/
def Streams (str : Val → List Char) (e : Ref) (I : Attrs R → List Val → Prop) : Prop :=
  ∀ fuel arg, ArgOK arg → ∀ (w : World R) E, I (w.obj e) E →
    ∃ b, I ((World.call str fuel e arg w).2.obj e) (E ++ b) ∧
      ∀ v, (World.call str fuel e arg w).1 = .ok v → Block v b

/-- A field with nothing but its data emitter over `e` goes on in the stream of `e`. -/
theorem field_streams {V : Ref → Val → Prop} {str : Val → List Char} {e f : Ref}
    {I : Attrs R → List Val → Prop} (hI : Streams str e I) (hef : e ≠ f) {w : World R}
    {n : String} {rp g : Ref} {hd : Bool} (hn : (w.obj f).node = some (.field n e rp g hd))
    (hrp : ¬ Below w rp e) (hg : ¬ Below w g e) (ht : TypedOn V (fun _ => True) w) (fuel : Nat)
    {E : List Val} (hE : I (w.obj e) E) :
    ∃ b, I ((World.call str fuel f none w).2.obj e) (E ++ b) ∧
      ∀ v, (World.call str fuel f none w).1 = .ok v → Block v b := by
  cases fuel with
  | zero => exact ⟨[], by rw [List.append_nil]; exact hE, fun v h => by cases h⟩
  | succ fuel =>
    have hat : ∀ v, V rp v → v.AtLeast 0 := by
      have := (ht f trivial).1
      unfold Attrs.Typed at this
      rw [hn] at this
      exact this.2
    rw [call_field str fuel hn]
    unfold Field.call
    have hge := C57_only_below str fuel g e none w hg
    have hgt := (call_typed str fuel g trivial none trivial w ht).1
    have hgn := fun x => call_node (arg := none) (str := str) (r := g) fuel x w
    rw [PyM.bind_apply]
    revert hge hgt hgn
    rcases World.call str fuel g none w with ⟨x | gv, w1⟩
    · intro hge hgt hgn
      exact ⟨[], by dsimp only; rw [List.append_nil, hge]; exact hE, fun v h => by cases h⟩
    · intro hge hgt hgn
      dsimp only at hge hgt hgn ⊢
      by_cases hv : gv.truthy = true
      · rw [if_pos hv]
        have hre := C57_only_below str fuel rp e none w1 (fun h => hrp ((Below.congr hgn).1 h))
        have hrt := call_typed str fuel rp trivial none trivial w1 hgt
        rw [PyM.bind_apply]
        revert hre hrt
        unfold PyM.EnsuresAt
        rcases World.call str fuel rp none w1 with ⟨x | rv, w2⟩
        · intro hre _
          exact ⟨[], by dsimp only at hre ⊢; rw [List.append_nil, hre, hge]; exact hE, fun v h => by cases h⟩
        · intro hre hrt
          dsimp only at hre hrt ⊢
          have ha : ArgOK (some rv) := hat rv (hrt.2 rv rfl)
          obtain ⟨b, h1, h2⟩ := hI fuel (some rv) ha w2 E (by rw [hre, hge]; exact hE)
          refine ⟨b, ?_⟩
          rw [PyM.bind_apply]
          revert h1 h2
          rcases World.call str fuel e (some rv) w2 with ⟨x | v, w3⟩
          · intro h1 _
            exact ⟨h1, fun v h => by cases h⟩
          · intro h1 h2
            refine ⟨?_, fun v' h => ?_⟩
            · change I ((w3.upd f fun a => { a with cache := v }).obj e) _
              rw [show (w3.upd f fun a => { a with cache := v }).obj e = w3.obj e from if_neg hef]
              exact h1
            · cases h
              exact h2 v rfl
      · rw [if_neg hv]
        refine ⟨[], ?_, fun v h => ?_⟩
        · change I ((w1.upd f fun a => { a with cache := .none }).obj e) _
          rw [show (w1.upd f _).obj e = w1.obj e from if_neg hef, hge, List.append_nil]
          exact hE
        · cases h
          exact .closed

omit [IsStrictOrderedRing K] in
/-- Fields that are not above an object leave it alone. -/
theorem loop_apart {str : Val → List Char} (fuel : Nat) (hide : Ref → Bool) (fs : Dict Ref) :
    ∀ (doc : Dict Val) (w : World R) (x : Ref), (∀ kf ∈ fs, ¬ Below w kf.2 x) →
      (Schema.loop hide (fun r => World.call str fuel r none) doc fs w).2.obj x = w.obj x := by
  induction fs with
  | nil => intro doc w x _; rfl
  | cons kf fs ih =>
    obtain ⟨k, f⟩ := kf
    intro doc w x h
    unfold Schema.loop
    rw [PyM.bind_apply]
    have h1 := C57_only_below str fuel f x none w (h _ (List.mem_cons_self ..))
    have hn := fun y => call_node (arg := none) (str := str) (r := f) fuel y w
    revert h1 hn
    rcases World.call str fuel f none w with ⟨e | v, w1⟩
    · intro h1 _; exact h1
    · intro h1 hn
      dsimp only at h1 hn ⊢
      have hb : ∀ kf ∈ fs, ¬ Below w1 kf.2 x := fun kf hk hb =>
        h kf (List.mem_cons_of_mem _ hk) ((Below.congr hn).1 hb)
      split <;> exact (ih _ w1 x hb).trans h1

/-- Fields with other names leave an entry of the document alone. -/
theorem loop_get {σ ι : Type} (hide : ι → Bool) (call : ι → PyM σ Val) (fs : Dict ι) :
    ∀ (doc doc' : Dict Val) (s t : σ) (name : String), name ∉ Dict.keys fs →
      Schema.loop hide call doc fs s = (.ok doc', t) → doc'.get? name = doc.get? name := by
  induction fs with
  | nil => intro doc doc' s t name _ h; cases h; rfl
  | cons kf fs ih =>
    obtain ⟨k, f⟩ := kf
    intro doc doc' s t name hk h
    have hk1 : k ≠ name := fun h => hk (by simp [Dict.keys, h])
    have hk2 : name ∉ Dict.keys fs := fun h => hk (by
      unfold Dict.keys at h ⊢
      exact List.mem_cons_of_mem _ h)
    unfold Schema.loop at h
    obtain ⟨v, s1, h1, h2⟩ := PyM.bind_eq_ok h
    split at h2
    · exact ih _ _ _ _ _ hk2 h2
    · rw [ih _ _ _ _ _ hk2 h2, Dict.get?_set, if_neg hk1]

theorem loop_streams {V : Ref → Val → Prop} {str : Val → List Char} {e f : Ref} {name : String}
    {I : Attrs R → List Val → Prop} (hI : Streams str e I) (hef : e ≠ f) (fuel : Nat)
    (hide : Ref → Bool) (fs : Dict Ref) :
    ∀ (doc : Dict Val) (w : World R) {n : String} {rp g : Ref} {hd : Bool}
      (_ : (w.obj f).node = some (.field n e rp g hd)) (_ : ¬ Below w rp e) (_ : ¬ Below w g e)
      (_ : TypedOn V (fun _ => True) w) (_ : fs.keys.Nodup)
      (_ : ∀ kg ∈ fs, kg.1 ≠ name → ¬ Below w kg.2 e) (_ : (name, f) ∈ fs) (E : List Val)
      (_ : I (w.obj e) E),
      let p := Schema.loop hide (fun r => World.call str fuel r none) doc fs w
      ∃ b, I (p.2.obj e) (E ++ b) ∧ Shows name (hide f) (p.1, (p.2.obj f).cache) b := by
  induction fs with
  | nil => intro doc w n rp g hd _ _ _ _ _ _ h; cases h
  | cons kf fs ih =>
    obtain ⟨k, f'⟩ := kf
    intro doc w n rp g hd hn hrp hg ht hk ho hf E hE
    have hbf : Below w f e := .step (by unfold Attrs.children; rw [hn]; simp [Node.childRefs]) (.self e)
    have hk1 : k ∉ Dict.keys fs := by
      unfold Dict.keys at hk ⊢
      exact (List.nodup_cons.1 hk).1
    have hk2 : (Dict.keys fs).Nodup := by
      unfold Dict.keys at hk ⊢
      exact (List.nodup_cons.1 hk).2
    dsimp only
    unfold Schema.loop
    rw [PyM.bind_apply]
    have hnode := fun y => call_node (arg := none) (str := str) (r := f') fuel y w
    have htyped := (call_typed str fuel f' trivial none trivial w ht).1
    by_cases hkn : k = name
    · subst hkn
      have : f' = f := by
        rcases List.mem_cons.1 hf with h | h
        · exact ((Prod.mk.inj h).2).symm
        · exact absurd (List.mem_map_of_mem h) hk1
      subst this
      obtain ⟨b, h1, h2⟩ := field_streams hI hef hn hrp hg ht fuel hE
      have hc := fun v w' => call_field_cache str fuel f' w w' v hn
      refine ⟨b, ?_⟩
      revert h1 h2 hnode hc
      rcases World.call str fuel f' none w with ⟨x | v, w1⟩
      · intro hnode h1 h2 hc
        exact ⟨h1, fun doc h => by cases h⟩
      · intro hnode h1 h2 hc
        dsimp only at h1 h2 hnode ⊢
        have hout : ∀ kg ∈ fs, ¬ Below w1 kg.2 e := fun kg hm hb =>
          ho kg (List.mem_cons_of_mem _ hm) (fun h => hk1 (by
            rw [← h]; exact List.mem_map_of_mem hm)) ((Below.congr hnode).1 hb)
        have houtf : ∀ kg ∈ fs, ¬ Below w1 kg.2 f' := fun kg hm hb =>
          hout kg hm (hb.trans ((Below.congr hnode).2 hbf))
        have hcv : (w1.obj f').cache = v := hc v w1 rfl
        split
        · rename_i hh
          rw [loop_apart fuel hide fs doc w1 e hout, loop_apart fuel hide fs doc w1 f' houtf]
          refine ⟨h1, fun doc' h => ⟨by dsimp only; rw [hcv]; exact h2 v rfl, fun hf => ?_⟩⟩
          rw [hh] at hf; cases hf
        · rw [loop_apart fuel hide fs _ w1 e hout, loop_apart fuel hide fs _ w1 f' houtf]
          refine ⟨h1, fun doc' h => ⟨by dsimp only; rw [hcv]; exact h2 v rfl, fun _ => ?_⟩⟩
          dsimp only at h ⊢
          have hp := loop_get hide (fun r => World.call str fuel r none) fs (doc.set k v) doc' w1
            (Schema.loop hide (fun r => World.call str fuel r none) (doc.set k v) fs w1).2 k hk1
            (Prod.ext h rfl)
          rw [hp, Dict.get?_set, if_pos rfl, hcv]
    · have hfs : (name, f) ∈ fs := by
        rcases List.mem_cons.1 hf with h | h
        · exact absurd (Prod.mk.inj h).1.symm hkn
        · exact h
      have he := C57_only_below str fuel f' e none w (ho _ (List.mem_cons_self ..) hkn)
      revert he hnode htyped
      rcases World.call str fuel f' none w with ⟨x | v, w1⟩
      · intro hnode htyped he
        dsimp only at he
        refine ⟨[], ?_, fun doc h => by cases h⟩
        dsimp only
        rw [he, List.append_nil]
        exact hE
      · intro hnode htyped he
        dsimp only at he hnode htyped ⊢
        have hc := fun {r} => (Below.congr (r := r) (x := e) hnode)
        have ih' := fun doc => ih doc w1 ((hnode f).trans hn) (fun h => hrp (hc.1 h))
          (fun h => hg (hc.1 h)) htyped hk2
          (fun kg hm hne h => ho kg (List.mem_cons_of_mem _ hm) hne (hc.1 h)) hfs E
          (by rw [he]; exact hE)
        split <;> exact ih' _

/-- One document. -/
theorem document_streams {V : Ref → Val → Prop} {str : Val → List Char} {e f : Ref} {name : String}
    {I : Attrs R → List Val → Prop} (hI : Streams str e I) (hef : e ≠ f) (fuel : Nat)
    (fields : Dict Ref) (hk : fields.keys.Nodup) (w : World R) (hu : OnlyUser w fields name f e)
    (ht : TypedOn V (fun _ => True) w) (E : List Val) (hE : I (w.obj e) E) :
    let p := World.document str fuel fields w
    ∃ b, I (p.2.obj e) (E ++ b) ∧ Shows name (w.obj f).hide (p.1, (p.2.obj f).cache) b := by
  obtain ⟨n, rp, g, hd, hn, hrp, hg⟩ := hu.node
  unfold World.document
  rw [PyM.run_get_bind]
  exact loop_streams hI hef fuel _ fields [] w hn hrp hg ht hk hu.others hu.field E hE

omit [IsStrictOrderedRing K] in
theorem OnlyUser.congr {w v : World R} {fields : Dict Ref} {name : String} {f e : Ref}
    (h : OnlyUser w fields name f e) (hn : ∀ x, (v.obj x).node = (w.obj x).node) :
    OnlyUser v fields name f e := by
  obtain ⟨n, rp, g, hd, h1, h2, h3⟩ := h.node
  exact ⟨h.field, ⟨n, rp, g, hd, (hn f).trans h1, fun h => h2 ((Below.congr hn).1 h),
    fun h => h3 ((Below.congr hn).1 h)⟩, fun kg hm hne hb => h.others kg hm hne ((Below.congr hn).1 hb)⟩

omit [IsStrictOrderedRing K] [FloorRing K] in
theorem hide_of_node {a b : Attrs R} (h : b.node = a.node) : b.hide = a.hide := by
  unfold Attrs.hide; rw [h]

/-- Any number of documents, with other uses of objects in between. -/
theorem docHist_streams {V : Ref → Val → Prop} {str : Val → List Char} {e f : Ref} {name : String}
    {I : Attrs R → List Val → Prop} (hI : Streams str e I) (hef : e ≠ f)
    (fields : Dict Ref) (hk : fields.keys.Nodup) {w w' : World R}
    {ds : List (Except Err (Dict Val) × Val)} (h : DocHist str fields f e w ds w') :
    ∀ (_ : OnlyUser w fields name f e) (_ : Built V str w) (E : List Val) (_ : I (w.obj e) E),
    ∃ bs, I (w'.obj e) (E ++ bs.flatten) ∧ List.Forall₂ (Shows name (w.obj f).hide) ds bs := by
  induction h with
  | nil w => intro hu hb E hE; exact ⟨[], by simpa using hE, .nil⟩
  | @doc w ds w' fuel h ih =>
    intro hu hb E hE
    obtain ⟨b, h1, h2⟩ := document_streams hI hef fuel fields hk w hu (built_typed hb) E hE
    have hn : ∀ x, ((World.document str fuel fields w).2.obj x).node = (w.obj x).node :=
      fun x => (World.document_frame str fuel fields (fun _ => True) w (fun _ _ _ _ => trivial)
        fun _ _ => trivial).node x
    obtain ⟨bs, h3, h4⟩ := ih (hu.congr hn) (.document hb fuel fields) _ h1
    rw [hide_of_node (hn f)] at h4
    exact ⟨b :: bs, by rw [List.flatten_cons, ← List.append_assoc]; exact h3, .cons h2 h4⟩
  | @call w ds w' fuel r arg ha hr h ih =>
    intro hu hb E hE
    have hn := fun x => call_node (arg := arg) (str := str) (r := r) fuel x w
    obtain ⟨bs, h3, h4⟩ := ih (hu.congr hn) (.call hb fuel r arg ha) E
      (by rw [C57_only_below str fuel r e arg w hr]; exact hE)
    rw [hide_of_node (hn f)] at h4
    exact ⟨bs, h3, h4⟩
  | @reset w ds w' fuel r hr h ih =>
    intro hu hb E hE
    have hfr := World.reset_frame fuel r (Below w r) w (fun _ h1 _ h2 => h1.child h2) (.self r)
    have hn : ∀ x, ((World.reset fuel r w).2.obj x).node = (w.obj x).node := fun x => hfr.node x
    obtain ⟨bs, h3, h4⟩ := ih (hu.congr hn) (.reset hb fuel r) E (by rw [hfr.frame e hr]; exact hE)
    rw [hide_of_node (hn f)] at h4
    exact ⟨bs, h3, h4⟩
  | @seed w ds w' fuel r s hr h ih =>
    intro hu hb E hE
    have hfr := Fauxdoc.seed_frame fuel r s (Below w r) w (fun _ h1 _ h2 => h1.child h2) (.self r)
    have hn : ∀ x, ((World.seed fuel r s w).2.obj x).node = (w.obj x).node := fun x => hfr.node x
    obtain ⟨bs, h3, h4⟩ := ih (hu.congr hn) (.seed hb fuel r s) E (by rw [hfr.frame e hr]; exact hE)
    rw [hide_of_node (hn f)] at h4
    exact ⟨bs, h3, h4⟩

/-! ### The emitters that go on from call to call -/

/-- A call without a number or with one, in terms of the list of values. -/
theorem emitterCallOr_call {σ : Type} (bad : Val → PyM σ Val) (emit : PyM σ Val)
    (emitMany : Int → PyM σ (List Val)) (call : Option Int → PyM σ (List Val))
    (h1 : call none = emit >>= fun a => pure [a])
    (h2 : ∀ n, call (some n) = if n = 1 then emit >>= fun a => pure [a] else emitMany n)
    (arg : Option Val) (ha : ArgOK arg) (s : σ) :
    (∃ (m : Option Nat) (g : List Val → Val), (∀ l, l.length = m.getD 1 → Block (g l) l) ∧
      emitterCallOr bad emit emitMany arg s = match call (m.map Int.ofNat) s with
        | (.ok l, t) => (.ok (g l), t)
        | (.error x, t) => (.error x, t)) ∨
    ∃ v, emitterCallOr bad emit emitMany arg s = bad v s := by
  have hnone : ∃ (m : Option Nat) (g : List Val → Val), (∀ l, l.length = m.getD 1 → Block (g l) l) ∧
      emit s = match call (m.map Int.ofNat) s with
        | (.ok l, t) => (.ok (g l), t)
        | (.error x, t) => (.error x, t) := by
    refine ⟨none, fun l => l.headD .none, ?_, ?_⟩
    · intro l hl
      obtain ⟨a, rfl⟩ := List.length_eq_one_iff.1 hl
      exact .one a
    · rw [show call (Option.map Int.ofNat none) = call none from rfl, h1, PyM.bind_apply]
      rcases emit s with ⟨x | a, t⟩ <;> rfl
  have hsome : ∀ v, emitterCallOr bad emit emitMany (some v) s = emit s ∨ (v.asInt = none ∧
      emitterCallOr bad emit emitMany (some v) s = bad v s) ∨ ∃ n, v.asInt = some n ∧
      emitterCallOr bad emit emitMany (some v) s =
        (if n = 1 then do return .list [← emit] else do return .list (← emitMany n) : PyM σ Val) s := by
    intro v
    cases v with
    | none => exact .inl rfl
    | int n => exact .inr (.inr ⟨n, rfl, rfl⟩)
    | bool b => cases b <;> exact .inr (.inr ⟨_, rfl, rfl⟩)
    | _ => exact .inr (.inl ⟨rfl, rfl⟩)
  rcases arg with _ | v
  · exact .inl hnone
  · rcases hsome v with h | ⟨_, h⟩ | ⟨n, hv, h⟩
    · rw [h]; exact .inl hnone
    · exact .inr ⟨v, h⟩
    · have h0 : 0 ≤ n := ha n hv
      obtain ⟨k, rfl⟩ := Int.eq_ofNat_of_zero_le h0
      refine .inl ⟨some k, .list, fun l _ => .many l, ?_⟩
      rw [h, show call (Option.map Int.ofNat (some k)) = call (some (k : Int)) from rfl, h2]
      by_cases hk : (k : Int) = 1
      · rw [if_pos hk, if_pos hk, PyM.bind_apply, PyM.bind_apply]
        rcases emit s with ⟨x | a, t⟩ <;> rfl
      · rw [if_neg hk, if_neg hk, PyM.bind_apply]
        rcases emitMany k s with ⟨x | a, t⟩ <;> rfl

/-- A `Choice` without replacement that goes through the permutation `p`. -/
def GoingThrough (items p : List Val) (a : Attrs R) (E : List Val) : Prop :=
  (∃ k, a.node = some (.choice k)) ∧ a.choice.replace = false ∧ a.choice.shuffled = p ∧
    Choice.Good items a.choice E

omit [IsStrictOrderedRing K] in
theorem streams_choice (str : Val → List Char) (e : Ref) (items p : List Val) :
    Streams (R := R) str e (GoingThrough items p) := by
  rintro fuel arg ha w E ⟨⟨k, hk⟩, hr, hs, hg⟩
  cases fuel with
  | zero => exact ⟨[], by rw [List.append_nil]; exact ⟨⟨k, hk⟩, hr, hs, hg⟩, fun v h => by cases h⟩
  | succ fuel =>
    have hcall : World.call str (fuel + 1) e arg w = onChoice e (Choice.child arg) w := by
      conv_lhs => unfold World.call
      rw [PyM.run_get_bind, hk]
    rw [hcall]
    unfold onChoice
    have hc := emitterCallOr_call (Choice.emitBad (R := R)) Choice.emit Choice.emitMany Choice.call rfl
      (fun n => rfl) arg ha ((w.obj e).choice, w.entropy)
    change (∃ (m : Option Nat) (g : List Val → Val), (∀ l, l.length = m.getD 1 → Block (g l) l) ∧
      Choice.child arg _ = _) ∨ ∃ v, Choice.child arg _ = _ at hc
    rcases hc with ⟨m, g, hb, hm⟩ | ⟨v, hm⟩
    · rw [hm, Choice.call_norepl m _ hg hr]
      obtain ⟨hp, hle, hE, hi, hn⟩ := hg.norepl hr
      by_cases hx : E.length + wanted m ≤ items.length
      · rw [if_pos hx]
        dsimp only
        have hlen : ((w.obj e).choice.shuffled.drop E.length |>.take (wanted m)).length = wanted m := by
          rw [List.length_take, List.length_drop, hp.length_eq]; omega
        refine ⟨((w.obj e).choice.shuffled.drop E.length).take (wanted m), ?_, fun v h => ?_⟩
        rotate_left
        · cases h
          exact hb _ hlen
        · simp only [World.upd, if_true]
          refine ⟨⟨k, hk⟩, hr, hs, fun _ => ?_, fun h => by rw [hr] at h; cases h⟩
          refine ⟨hp, ?_, ?_, ?_, ?_⟩
          · rw [List.length_append, hlen]; exact hx
          · dsimp only
            rw [List.length_append, hlen, List.take_add, ← hE]
          · dsimp only; rw [List.length_append, hlen]; rfl
          · dsimp only; rw [List.length_append, hlen, hn]; push_cast; ring
      · rw [if_neg hx]
        refine ⟨[], ?_, fun v h => by cases h⟩
        simp only [World.upd, if_true, List.append_nil]
        exact ⟨⟨k, hk⟩, hr, hs, hg⟩
    · have hbad : Choice.emitBad v ((w.obj e).choice, w.entropy) =
          (.error .typeError, ((w.obj e).choice, w.entropy)) := by
        unfold Choice.emitBad
        refine (PyM.bind_ok (m := Choice.self) rfl).trans ?_
        dsimp only
        rw [hr]
        rfl
      rw [hm, hbad]
      refine ⟨[], ?_, fun v h => by cases h⟩
      simp only [World.upd, if_true, List.append_nil]
      exact ⟨⟨k, hk⟩, hr, hs, hg⟩

/-- An `Iterative` or `Sequential` without `reset_after_call`, from position `k0` of the endless
repetition of its source on. -/
def GoingOn (src : Src Val) (k0 : Nat) (it : IterSt Val) (E : List Val) : Prop :=
  it.resetAfterCall = false ∧ AtPos it src (k0 + E.length) ∧ IsCyclicFrom src k0 E

theorem IsCyclicFrom.append {src : Src Val} {k : Nat} {E F : List Val} (h : IsCyclicFrom src k E)
    (h' : IsCyclicFrom src (k + E.length) F) : IsCyclicFrom src k (E ++ F) := by
  intro i hi
  rcases Nat.lt_or_ge i E.length with hlt | hge
  · rw [List.getElem?_append_left hlt]; exact h i hlt
  · rw [List.getElem?_append_right hge]
    rw [List.length_append] at hi
    rw [h' (i - E.length) (by omega)]
    congr 1
    omega

theorem goingOn_call {src : Src Val} {k0 : Nat} {it : IterSt Val} {E : List Val}
    (h : GoingOn src k0 it E) (m : Option Nat) :
    ∃ vs r, Iterative.call (m.map Int.ofNat) it = (.ok vs, { it with cur := r }) ∧
      vs.length = m.getD 1 ∧ GoingOn src k0 { it with cur := r } (E ++ vs) := by
  obtain ⟨h1, h2, h3⟩ := h
  obtain ⟨vs, r, g1, g2, g3, g4⟩ := call_atPos (m.map Int.ofNat) h2 (by
    cases m <;> simp [asked])
  refine ⟨vs, r, g1, ?_, h1, ?_, h3.append g3⟩
  · rw [g2]; cases m <;> simp [asked]
  · rw [h1] at g4
    rw [List.length_append, ← Nat.add_assoc]
    exact g4

omit [Field K] [LinearOrder K] [IsStrictOrderedRing K] [FloorRing K] in
theorem Attr.run_map {σ G α β : Type} (L : Attr σ G) (m : PyM G α) (h : α → β) :
    L.run (m >>= fun a => pure (h a)) = L.run m >>= fun a => pure (h a) := by
  funext s
  rw [PyM.bind_apply]
  unfold Attr.run
  rw [PyM.bind_apply]
  rcases m (L.get s) with ⟨x | a, t⟩ <;> rfl

omit [IsStrictOrderedRing K] in
theorem streams_iterative (str : Val → List Char) (e : Ref) (src : Src Val) (k0 : Nat) :
    Streams (R := R) str e fun a E => a.node = some .iterative ∧ GoingOn src k0 a.iter E := by
  rintro fuel arg ha w E ⟨hk, hg⟩
  cases fuel with
  | zero => exact ⟨[], by rw [List.append_nil]; exact ⟨hk, hg⟩, fun v h => by cases h⟩
  | succ fuel =>
    have hcall : World.call str (fuel + 1) e arg w = World.iterChild e arg w := by
      conv_lhs => unfold World.call
      rw [PyM.run_get_bind, hk]
    rw [hcall]
    have hc := emitterCallOr_call (fun _ => PyM.raise .valueError) ((iterAttr (R := R) e).run Iterative.emit)
      (fun n => (iterAttr e).run (Iterative.emitMany n)) (fun n => (iterAttr e).run (Iterative.call n)) ?_
      (fun n => ?_) arg ha w
    · rcases hc with ⟨m, g, hb, hm⟩ | ⟨v, hm⟩
      · obtain ⟨vs, r, g1, g2, g3⟩ := goingOn_call hg m
        refine ⟨vs, ?_⟩
        have : (iterAttr (R := R) e).run (Iterative.call (m.map Int.ofNat)) w =
            (.ok vs, w.upd e fun a => { a with iter := { a.iter with cur := r } }) := by
          unfold Attr.run
          rw [show (iterAttr (R := R) e).get w = (w.obj e).iter from rfl, g1]
          simp only [iterAttr, World.attr, World.upd]
        unfold World.iterChild
        rw [hm, this]
        dsimp only
        refine ⟨?_, fun v h => ?_⟩
        · simp only [World.upd, if_true]
          exact ⟨hk, g3⟩
        · cases h; exact hb _ g2
      · unfold World.iterChild
        rw [hm]
        exact ⟨[], by rw [List.append_nil]; exact ⟨hk, hg⟩, fun v h => by cases h⟩
    · exact Attr.run_map _ _ _
    · by_cases h : n = 1
      · rw [if_pos h, show Iterative.call (α := Val) n = Iterative.emit >>= fun a => pure [a] from if_pos h]
        exact Attr.run_map _ _ _
      · rw [if_neg h, show Iterative.call (α := Val) n = Iterative.emitMany n from if_neg h]

theorem Sequential.onIt_map {α β γ : Type} (m : PyM (IterSt α) β) (h : β → γ) :
    Sequential.onIt (m >>= fun a => pure (h a)) = Sequential.onIt m >>= fun a => pure (h a) := by
  funext s
  rw [PyM.bind_apply]
  unfold Sequential.onIt
  rw [PyM.bind_apply]
  rcases m s.it with ⟨x | a, t⟩ <;> rfl

omit [IsStrictOrderedRing K] in
theorem streams_sequential (str : Val → List Char) (e : Ref) (k : ItemsKind) (src : Src Val) (k0 : Nat) :
    Streams (R := R) str e fun a E => a.node = some (.sequential k) ∧ GoingOn src k0 a.seq.it E := by
  rintro fuel arg ha w E ⟨hk, hg⟩
  cases fuel with
  | zero => exact ⟨[], by rw [List.append_nil]; exact ⟨hk, hg⟩, fun v h => by cases h⟩
  | succ fuel =>
    have hcall : World.call str (fuel + 1) e arg w = World.seqChild e arg w := by
      conv_lhs => unfold World.call
      rw [PyM.run_get_bind, hk]
    rw [hcall]
    have hc := emitterCallOr_call (fun _ => PyM.raise .valueError)
      ((seqAttr (R := R) e).run (Sequential.onIt Iterative.emit))
      (fun n => (seqAttr e).run (Sequential.onIt (Iterative.emitMany n)))
      (fun n => (seqAttr e).run (Sequential.call n)) ?_ (fun n => ?_) arg ha w
    · rcases hc with ⟨m, g, hb, hm⟩ | ⟨v, hm⟩
      · obtain ⟨vs, r, g1, g2, g3⟩ := goingOn_call hg m
        refine ⟨vs, ?_⟩
        have : (seqAttr (R := R) e).run (Sequential.call (m.map Int.ofNat)) w =
            (.ok vs, w.upd e fun a => { a with seq := { a.seq with it := { a.seq.it with cur := r } } }) := by
          unfold Attr.run Sequential.call Sequential.onIt
          rw [show (seqAttr (R := R) e).get w = (w.obj e).seq from rfl, g1]
          simp only [seqAttr, World.attr, World.upd]
        unfold World.seqChild
        rw [hm, this]
        dsimp only
        refine ⟨?_, fun v h => ?_⟩
        · simp only [World.upd, if_true]
          exact ⟨hk, g3⟩
        · cases h; exact hb _ g2
      · unfold World.seqChild
        rw [hm]
        exact ⟨[], by rw [List.append_nil]; exact ⟨hk, hg⟩, fun v h => by cases h⟩
    · rw [← Attr.run_map]
      congr 1
      exact Sequential.onIt_map _ _
    · by_cases h : n = 1
      · rw [if_pos h, ← Attr.run_map]
        congr 1
        unfold Sequential.call
        rw [show Iterative.call (α := Val) n = Iterative.emit >>= fun a => pure [a] from if_pos h]
        exact Sequential.onIt_map _ _
      · rw [if_neg h]
        unfold Sequential.call
        rw [show Iterative.call (α := Val) n = Iterative.emitMany n from if_neg h]

/-! ### What the documents show -/

theorem Block.parts_eq {v : Val} {b : List Val} (h : Block v b) (hp : ∀ x ∈ b, x.Plain) :
    v.parts = b := by
  cases h with
  | closed => rfl
  | one =>
    have := hp v (by simp)
    cases v <;> first | rfl | exact this.elim
  | many => rfl

theorem made_sublist {name : String} {hide : Bool} {ds : List (Except Err (Dict Val) × Val)}
    {bs : List (List Val)} (h : List.Forall₂ (Shows name hide) ds bs)
    (hp : ∀ x ∈ bs.flatten, x.Plain) : (made ds).Sublist bs.flatten := by
  induction h with
  | nil => exact .slnil
  | @cons d b ds bs h1 _ ih =>
    unfold made
    rw [List.flatMap_cons, List.flatten_cons]
    refine List.Sublist.append ?_ (ih fun x hx => hp x (by
      rw [List.flatten_cons]; exact List.mem_append_right _ hx))
    rcases hd : d.1 with x | doc
    · exact List.nil_sublist _
    · rw [(h1 doc hd).1.parts_eq fun x hx => hp x (by
        rw [List.flatten_cons]; exact List.mem_append_left _ hx)]

theorem made_eq {name : String} {hide : Bool} {ds : List (Except Err (Dict Val) × Val)}
    {bs : List (List Val)} (h : List.Forall₂ (Shows name hide) ds bs) (ha : AllMade ds)
    (hp : ∀ x ∈ bs.flatten, x.Plain) : made ds = bs.flatten := by
  induction h with
  | nil => rfl
  | @cons d b ds bs h1 _ ih =>
    unfold made
    rw [List.flatMap_cons, List.flatten_cons]
    congr 1
    · obtain ⟨doc, hd⟩ := ha d (by simp)
      rw [hd]
      exact (h1 doc hd).1.parts_eq fun x hx => hp x (by
        rw [List.flatten_cons]; exact List.mem_append_left _ hx)
    · exact ih (fun d hd => ha d (List.mem_cons_of_mem _ hd)) fun x hx => hp x (by
        rw [List.flatten_cons]; exact List.mem_append_right _ hx)

omit [IsStrictOrderedRing K] [FloorRing K] in
theorem OnlyUser.ne {w : World R} {fields : Dict Ref} {name : String} {f e : Ref}
    (h : OnlyUser w fields name f e) {x : Node} (hx : (w.obj e).node = some x)
    (hf : ∀ n a b c d, x ≠ .field n a b c d) : e ≠ f := by
  rintro rfl
  obtain ⟨n, rp, g, hd, h1, _, _⟩ := h.node
  rw [hx] at h1
  cases h1
  exact hf _ _ _ _ _ rfl

/-- **C85.** If a `Choice` without replacement is used by one field only, and only for its values,
then across any number of documents, whatever happens to other objects in between and whichever
documents fail, the values taken from it are consecutive values of one permutation of its items; each
document that is made shows its part of them; and the counter goes down by as many. -/
theorem C85_permutation (V : Ref → Val → Prop) (str : Val → List Char) {fields : Dict Ref}
    (hk : fields.keys.Nodup) {name : String} {f e : Ref} {w w' : World R}
    {ds : List (Except Err (Dict Val) × Val)} (hb : Built V str w)
    (hu : OnlyUser w fields name f e) {k : ItemsKind} (hc : (w.obj e).node = some (.choice k))
    (hr : (w.obj e).choice.replace = false) (h : DocHist str fields f e w ds w') :
    ∃ p E bs, p.Perm (w.obj e).choice.items ∧ E ++ bs.flatten <+: p ∧
      List.Forall₂ (Shows name (w.obj f).hide) ds bs ∧
      (w.obj e).choice.numUniqueItems = (w.obj e).choice.items.length - E.length ∧
      (w'.obj e).choice.numUniqueItems = (w.obj e).choice.numUniqueItems - bs.flatten.length := by
  obtain ⟨_, E, hE⟩ := (Choice.intact_iff _).1 (C60_intact V str hb e k hc)
  have hef : e ≠ f := hu.ne hc (by intros; simp)
  obtain ⟨bs, h1, h2⟩ := docHist_streams (streams_choice str e (w.obj e).choice.items
    (w.obj e).choice.shuffled) hef fields hk h hu hb E ⟨⟨k, hc⟩, hr, rfl, hE⟩
  obtain ⟨_, hr', hs, hg⟩ := h1
  obtain ⟨hp, _, hE', _, hn'⟩ := hg.norepl hr'
  obtain ⟨_, _, _, _, hn⟩ := hE.norepl hr
  rw [hs] at hp hE'
  refine ⟨_, E, bs, hp, ?_, h2, hn, ?_⟩
  · rw [hE']; exact List.take_prefix _ _
  · rw [hn', hn, List.length_append]; push_cast; ring

/-- **C85.** In particular no item comes twice in a set of documents, and the documents use no more
values than the `Choice` had left. -/
theorem C85_never_twice (V : Ref → Val → Prop) (str : Val → List Char) {fields : Dict Ref}
    (hk : fields.keys.Nodup) {name : String} {f e : Ref} {w w' : World R}
    {ds : List (Except Err (Dict Val) × Val)} (hb : Built V str w)
    (hu : OnlyUser w fields name f e) {k : ItemsKind} (hc : (w.obj e).node = some (.choice k))
    (hr : (w.obj e).choice.replace = false) (h : DocHist str fields f e w ds w')
    (hi : (w.obj e).choice.items.Nodup) (hp : ∀ x ∈ (w.obj e).choice.items, x.Plain) :
    (made ds).Nodup ∧ (∀ x ∈ made ds, x ∈ (w.obj e).choice.items) ∧
      ((made ds).length : Int) ≤ (w.obj e).choice.numUniqueItems ∧
      (AllMade ds → ((made ds).length : Int) =
        (w.obj e).choice.numUniqueItems - (w'.obj e).choice.numUniqueItems) := by
  obtain ⟨p, E, bs, h1, h2, h3, h4, h5⟩ := C85_permutation V str hk hb hu hc hr h
  have hsub : bs.flatten.Sublist p := (List.sublist_append_right _ _).trans h2.sublist
  have hmem : ∀ x ∈ bs.flatten, x ∈ (w.obj e).choice.items := fun x hx => h1.mem_iff.1 (hsub.subset hx)
  have hm := made_sublist h3 fun x hx => hp x (hmem x hx)
  refine ⟨(hm.trans hsub).nodup (h1.nodup_iff.2 hi), fun x hx => hmem x (hm.subset hx), ?_, fun ha => ?_⟩
  · have := h2.length_le
    rw [List.length_append, h1.length_eq] at this
    have := hm.length_le
    rw [h4]; omega
  · rw [made_eq h3 ha fun x hx => hp x (hmem x hx), h5]; ring

/-- **C85.** If an `Iterative` that is not reset after each call is used by one field only, and only for
its values, then across any number of documents its values are consecutive values of the endless
repetition of its iterator, from where it was. -/
theorem C85_iterative (V : Ref → Val → Prop) (str : Val → List Char) {fields : Dict Ref}
    (hk : fields.keys.Nodup) {name : String} {f e : Ref} {w w' : World R}
    {ds : List (Except Err (Dict Val) × Val)} (hb : Built V str w)
    (hu : OnlyUser w fields name f e) (hc : (w.obj e).node = some .iterative)
    {src : Src Val} {E : List Val} (hit : IterRun (w.obj e).iter src E)
    (hr : (w.obj e).iter.resetAfterCall = false) (h : DocHist str fields f e w ds w') :
    ∃ bs, List.Forall₂ (Shows name (w.obj f).hide) ds bs ∧
      IsCyclicFrom src E.length bs.flatten ∧
      ((∀ x ∈ bs.flatten, x.Plain) → AllMade ds → IsCyclicFrom src E.length (made ds)) := by
  have hef : e ≠ f := hu.ne hc (by intros; simp)
  obtain ⟨bs, ⟨_, h1⟩, h2⟩ := docHist_streams (streams_iterative str e src E.length) hef fields hk h hu hb
    [] ⟨hc, hr, iterRun_atPos hit, fun i hi => by cases hi⟩
  exact ⟨bs, h2, h1.2.2, fun hp ha => by rw [made_eq h2 ha hp]; exact h1.2.2⟩

/-- **C85.** The same for a `Sequential`. -/
theorem C85_sequential (V : Ref → Val → Prop) (str : Val → List Char) {fields : Dict Ref}
    (hk : fields.keys.Nodup) {name : String} {f e : Ref} {w w' : World R}
    {ds : List (Except Err (Dict Val) × Val)} (hb : Built V str w)
    (hu : OnlyUser w fields name f e) {k : ItemsKind} (hc : (w.obj e).node = some (.sequential k))
    {src : Src Val} {E : List Val} (hit : SeqRun (w.obj e).seq src E)
    (hr : (w.obj e).seq.it.resetAfterCall = false) (h : DocHist str fields f e w ds w') :
    ∃ bs, List.Forall₂ (Shows name (w.obj f).hide) ds bs ∧
      IsCyclicFrom src E.length bs.flatten ∧
      ((∀ x ∈ bs.flatten, x.Plain) → AllMade ds → IsCyclicFrom src E.length (made ds)) := by
  have hef : e ≠ f := hu.ne hc (by intros; simp)
  obtain ⟨bs, ⟨_, h1⟩, h2⟩ := docHist_streams (streams_sequential str e k src E.length) hef fields hk h hu hb
    [] ⟨hc, hr, (seqRun_atPos hit).1, fun i hi => by cases hi⟩
  exact ⟨bs, h2, h1.2.2, fun hp ha => by rw [made_eq h2 ha hp]; exact h1.2.2⟩

/-! ### Example: a schema with numbers and unique codes -/

/-- The fields: `Field('id', Iterative(lambda: itertools.count(1)), rng_seed=3)` and `Field('code',
Choice(['a', 'b', 'c'], replace=False, rng_seed=1), repeat=Sequential([1, 2]), rng_seed=4)`. -/
def idsFields : Dict Ref := [("id", 3), ("code", 7)]

/-- The store after each constructor. -/
def ids1 : World demoRng := (World.newIterative ⟨.inf fun k => .int (k + 1), false⟩ false emptyWorld).2
def ids2 : World demoRng := (World.newStatic (.bool true) (World.newStatic .none ids1).2).2
def ids3 : World demoRng := (World.newField 5 "id" 0 (some 1) (some 2) false (some 3) ids2).2
def ids4 : World demoRng :=
  (World.newChoice .list [.str ['a'], .str ['b'], .str ['c']] none false false (some 1) none ids3).2
def ids5 : World demoRng := (World.newSequential .list [.int 1, .int 2] false ids4).2
def ids6 : World demoRng := (World.newStatic (.bool true) ids5).2
def idsWorld : World demoRng := (World.newField 5 "code" 4 (some 5) (some 6) false (some 4) ids6).2

/-- The declared values: nothing for the repeat of `id`, one or two for that of `code`. -/
def idsV (r : Ref) (v : Val) : Prop :=
  match r with
  | 1 => v = .none
  | 5 => v = .int 1 ∨ v = .int 2
  | _ => True

theorem ids_built : Built idsV demoStr idsWorld := by
  have h1 : Built idsV demoStr ids1 := .newIterative (.empty emptyWorld fun _ => rfl) _ _ (by
    rw [show emptyWorld.next = 0 from rfl]; intro k; trivial)
  have h2 : Built idsV demoStr ids2 := .newStatic (.newStatic h1 _ (by
    rw [show ids1.next = 1 by decide +kernel]; rfl)) _ (by
    rw [show (World.newStatic .none ids1).2.next = 2 by decide +kernel]; trivial)
  have h3 : Built idsV demoStr ids3 := .newField h2 _ _ _ _ _ _ _ (by
    rintro v (rfl : v = .none) i hi; cases hi) (by
    rw [show ids2.next = 3 by decide +kernel]; intro v; trivial)
  have h4 : Built idsV demoStr ids4 := .newChoice h3 _ _ _ _ _ _ _ (by
    rw [show ids3.next = 4 by decide +kernel]; intro _ x _; trivial)
  have h5 : Built idsV demoStr ids5 := .newSequential h4 _ _ _ (by
    rw [show ids4.next = 5 by decide +kernel]
    intro x hx
    simpa [idsV] using hx)
  have h6 : Built idsV demoStr ids6 := .newStatic h5 _ (by
    rw [show ids5.next = 6 by decide +kernel]; trivial)
  exact .newField h6 _ _ _ _ _ _ _ (by
    rintro v (rfl | rfl) i hi <;> cases hi <;> decide) (by
    rw [show ids6.next = 7 by decide +kernel]; intro v; trivial)

theorem ids_below3 {x : Ref} (h : Below idsWorld 3 x) : x ∈ [0, 1, 2, 3] :=
  h.mem [0, 1, 2, 3] (by decide +kernel) (by decide)
theorem ids_below7 {x : Ref} (h : Below idsWorld 7 x) : x ∈ [4, 5, 6, 7] :=
  h.mem [4, 5, 6, 7] (by decide +kernel) (by decide)
theorem ids_leaf {r x : Ref} (hr : (idsWorld.obj r).children = []) (h : Below idsWorld r x) : x = r := by
  have := h.mem [r] (by intro y hy; rw [List.mem_singleton] at hy; rw [hy, hr]; simp) (by simp)
  simpa using this

/-- The numbers are only for `id` ... -/
theorem ids_onlyId : OnlyUser idsWorld idsFields "id" 3 0 where
  field := by decide
  node := ⟨"id", 1, 2, false, by decide +kernel,
    fun h => absurd (ids_leaf (by decide +kernel) h) (by decide),
    fun h => absurd (ids_leaf (by decide +kernel) h) (by decide)⟩
  others kg hm hne h := by
    simp only [idsFields, List.mem_cons, List.not_mem_nil, or_false] at hm
    rcases hm with rfl | rfl
    · exact hne rfl
    · exact absurd (ids_below7 h) (by decide)

/-- ... and the codes only for `code`. -/
theorem ids_onlyCode : OnlyUser idsWorld idsFields "code" 7 4 where
  field := by decide
  node := ⟨"code", 5, 6, false, by decide +kernel,
    fun h => absurd (ids_leaf (by decide +kernel) h) (by decide),
    fun h => absurd (ids_leaf (by decide +kernel) h) (by decide)⟩
  others kg hm hne h := by
    simp only [idsFields, List.mem_cons, List.not_mem_nil, or_false] at hm
    rcases hm with rfl | rfl
    · exact absurd (ids_below3 h) (by decide)
    · exact hne rfl

/-- The stores after the first documents and after a reset of `code`. -/
def idsDoc1 := World.document demoStr 5 idsFields idsWorld
def idsDoc2 := World.document demoStr 5 idsFields idsDoc1.2
def idsDoc3 := World.document demoStr 5 idsFields idsDoc2.2
def idsReset := World.reset 5 7 idsDoc3.2
def idsDoc4 := World.document demoStr 5 idsFields idsReset.2

/-- The codes in the first two documents are all different, and the third cannot be made. -/
example : idsDoc1.1 = .ok [("id", .int 1), ("code", .list [.str ['a']])] ∧
    idsDoc2.1 = .ok [("id", .int 2), ("code", .list [.str ['b'], .str ['c']])] ∧
    idsDoc3.1 = .error .valueError := by decide +kernel

/-- The theorem applies to these documents. -/
example (w' : World demoRng) (ds : List (Except Err (Dict Val) × Val))
    (h : DocHist demoStr idsFields 7 4 idsWorld ds w') :
    (made ds).Nodup ∧ (made ds).length ≤ 3 := by
  have := C85_never_twice idsV demoStr (by decide) ids_built ids_onlyCode
    (k := .list) (by decide +kernel) (by decide +kernel) h (by decide +kernel) (by
      rw [show (idsWorld.obj 4).choice.items = [.str ['a'], .str ['b'], .str ['c']] by decide +kernel]
      intro x hx
      simp only [List.mem_cons, List.not_mem_nil, or_false] at hx
      rcases hx with rfl | rfl | rfl <;> trivial)
  refine ⟨this.1, ?_⟩
  have h3 := this.2.2.1
  rw [show (idsWorld.obj 4).choice.numUniqueItems = 3 by decide +kernel] at h3
  omega

example : ∃ w', DocHist demoStr idsFields 7 4 idsWorld
    [(idsDoc1.1, (idsDoc1.2.obj 7).cache), (idsDoc2.1, (idsDoc2.2.obj 7).cache),
      (idsDoc3.1, (idsDoc3.2.obj 7).cache)] w' :=
  ⟨_, .doc 5 <| .doc 5 <| .doc 5 <| .nil _⟩

/-- The documents numbered by `id`, with a reset of `code` in between. -/
theorem ids_hist : DocHist demoStr idsFields 3 0 idsWorld
    [(idsDoc1.1, (idsDoc1.2.obj 3).cache), (idsDoc2.1, (idsDoc2.2.obj 3).cache),
      (idsDoc3.1, (idsDoc3.2.obj 3).cache), (idsDoc4.1, (idsDoc4.2.obj 3).cache)] idsDoc4.2 := by
  refine .doc 5 <| .doc 5 <| .doc 5 <| .reset 5 7 (fun h => ?_) <| .doc 5 <| .nil _
  have := h.mem [4, 5, 6, 7] (by decide +kernel) (by decide)
  exact absurd this (by decide)

/-- **C85 (finding).** A document that cannot be made uses up a number all the same. -/
theorem C85_gap : made [(idsDoc1.1, (idsDoc1.2.obj 3).cache), (idsDoc2.1, (idsDoc2.2.obj 3).cache),
      (idsDoc3.1, (idsDoc3.2.obj 3).cache), (idsDoc4.1, (idsDoc4.2.obj 3).cache)] =
    [.int 1, .int 2, .int 4] := by decide +kernel

/-- If none fails the numbers are 1, 2, 3, ... -/
theorem ids_numbers (w' : World demoRng) (ds : List (Except Err (Dict Val) × Val))
    (h : DocHist demoStr idsFields 3 0 idsWorld ds w') (ha : AllMade ds) (i : Nat)
    (hi : i < (made ds).length) : (made ds)[i]? = some (.int (i + 1)) := by
  have hit : IterRun (idsWorld.obj 0).iter (.inf fun k => Val.int (k + 1)) [] := .init
    ⟨.inf fun k => Val.int (k + 1), false⟩ false _ (by with_unfolding_all rfl)
  obtain ⟨bs, h1, h2, h3⟩ := C85_iterative idsV demoStr (by decide) ids_built ids_onlyId
    (by decide +kernel) hit (by decide +kernel) h
  have hp : ∀ x ∈ bs.flatten, x.Plain := by
    intro x hx
    obtain ⟨j, hj, rfl⟩ := List.getElem_of_mem hx
    have := h2 j hj
    rw [List.getElem?_eq_getElem hj] at this
    rw [Option.some.inj this]
    trivial
  have := h3 hp ha i hi
  simpa [Src.cycle] using this

end Fauxdoc
