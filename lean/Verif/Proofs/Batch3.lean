import Verif.Proofs.Batch
import Verif.Proofs.Batch2
import Verif.Props.Heap2
/-
Batches in the store, class by class.
-/
set_option linter.unusedSectionVars false
namespace Fauxdoc
open PyM World
variable {K : Type} [Field K] [LinearOrder K] [FloorRing K] {R : Rng K}

namespace World

/-! ### Composing steps -/

section
variable {w0 : World R} {P D : Ref → Prop} {α β : Type}

theorem Acts.mono {m : PyM (World R) α} (h : Acts w0 P D m) {P' D' : Ref → Prop}
    (hP : ∀ x, P x → P' x) (hD : ∀ x, D x → D' x) (hPD : ∀ x, P' x → D' x) : Acts w0 P' D' m where
  sub := hPD
  like := h.like
  frame w hw x hx := h.frame w hw x fun hy => hx (hP x hy)
  next := h.next
  entropy := h.entropy
  look w v hw hv hs := by
    obtain ⟨h1, h2⟩ := h.look w v hw hv fun x hx => hs x (hD x hx)
    refine ⟨h1, fun x hx => ?_⟩
    by_cases hd : D x
    · exact h2 x hd
    · rw [h.frame w hw x fun hp => hd (h.sub x hp), h.frame v hv x fun hp => hd (h.sub x hp), hs x hx]

theorem Acts.lift (hPD : ∀ x, P x → D x) (p : Py α) : Acts w0 P D (PyM.lift p) where
  sub := hPD
  like _ hw := hw
  frame _ _ _ _ := rfl
  next _ _ := rfl
  entropy _ _ := rfl
  look _ _ _ _ hs := ⟨rfl, hs⟩

theorem Acts.bind {m : PyM (World R) α} {k : α → PyM (World R) β} (h : Acts w0 P D m)
    (hk : ∀ a, Acts w0 P D (k a)) : Acts w0 P D (m >>= k) where
  sub := h.sub
  like w hw := by
    have h1 := h.like w hw
    rw [bind_apply]
    rcases hm : m w with ⟨_ | a, w1⟩
    · rw [hm] at h1; exact h1
    · rw [hm] at h1; exact (hk a).like w1 h1
  frame w hw x hx := by
    have h1 := h.like w hw
    have h2 := h.frame w hw x hx
    rw [bind_apply]
    rcases hm : m w with ⟨_ | a, w1⟩
    · rw [hm] at h2; exact h2
    · rw [hm] at h1 h2; exact ((hk a).frame w1 h1 x hx).trans h2
  next w hw := by
    have h1 := h.like w hw
    have h2 := h.next w hw
    rw [bind_apply]
    rcases hm : m w with ⟨_ | a, w1⟩
    · rw [hm] at h2; exact h2
    · rw [hm] at h1 h2; exact ((hk a).next w1 h1).trans h2
  entropy w hw := by
    have h1 := h.like w hw
    have h2 := h.entropy w hw
    rw [bind_apply]
    rcases hm : m w with ⟨_ | a, w1⟩
    · rw [hm] at h2; exact h2
    · rw [hm] at h1 h2; exact ((hk a).entropy w1 h1).trans h2
  look w v hw hv hs := by
    have h1 := h.like w hw
    have h1' := h.like v hv
    obtain ⟨h2, h3⟩ := h.look w v hw hv hs
    rw [bind_apply, bind_apply]
    rcases hm : m w with ⟨x | a, w1⟩ <;> rcases hm' : m v with ⟨y | b, v1⟩ <;>
      rw [hm] at h1 h2 h3 <;> rw [hm'] at h1' h2 h3
    · dsimp only at h2; cases h2; exact ⟨rfl, h3⟩
    · cases h2
    · cases h2
    · cases h2
      exact (hk a).look w1 v1 h1 h1' h3

theorem Acts.mapPyM {f : α → PyM (World R) β} (hPD : ∀ x, P x → D x) :
    ∀ l : List α, (∀ a ∈ l, Acts w0 P D (f a)) → Acts w0 P D (Fauxdoc.mapPyM f l) := by
  intro l
  induction l with
  | nil => intro _; exact Acts.lift hPD (.ok [])
  | cons a l ih =>
    intro h
    exact (h a (by simp)).bind fun b => (ih fun x hx => h x (by simp [hx])).bind fun bs =>
      Acts.lift hPD (.ok (b :: bs))

theorem Acts.callback (r : Ref) (cb : Callback R.G) (args : List Val) (kwargs : Dict Val) :
    Acts w0 (· = r) (· = r) (cb.call (rngAttr r) args kwargs) := by
  unfold Callback.call
  by_cases h1 : "self" ∈ kwargs.keys
  · rw [if_pos h1]; exact Acts.lift (fun _ h => h) (.error .typeError)
  · rw [if_neg h1]
    by_cases h2 : cb.wantsRng = true
    · rw [if_pos h2]
      have hs : ∀ w : World R, ((rngAttr r).run (cb.invokeRng args kwargs) w).2 =
          w.upd r fun a => { a with rng := (cb.invokeRng args kwargs (w.obj r).rng).2 } := fun w =>
        ((rngAttr r).run_state _ w).2
      have ho : ∀ (w : World R) (g : R.G) x,
          ((w.upd r fun a => { a with rng := g }).obj x) =
            if x = r then { w.obj r with rng := g } else w.obj x := fun _ _ _ => rfl
      refine ⟨fun _ h => h, fun w hw => ?_, fun w hw x hx => ?_, fun w _ => ?_, fun w _ => ?_,
        fun w v _ _ hv => ⟨?_, ?_⟩⟩
      · rw [hs]
        have key : ∀ {β : Type} (p : Attrs R → β), (∀ (a : Attrs R) g, p { a with rng := g } = p a) →
            ∀ x, p ((w.upd r fun a =>
              { a with rng := (cb.invokeRng args kwargs (w.obj r).rng).2 }).obj x) = p (w.obj x) := by
          intro β p hp x
          rw [ho]
          by_cases hx : x = r
          · subst hx; rw [if_pos rfl, hp]
          · rw [if_neg hx]
        exact ⟨fun x => (key (·.node) (fun _ _ => rfl) x).trans (hw.node x),
          fun x => (key (·.wrapper) (fun _ _ => rfl) x).trans (hw.wrapper x),
          fun x => (key (·.choice.roac) (fun _ _ => rfl) x).trans (hw.roac x),
          fun x => (key (·.choice.replace) (fun _ _ => rfl) x).trans (hw.replace x),
          fun x => (key (·.choice.weights) (fun _ _ => rfl) x).trans (hw.weights x),
          fun x => (key (·.choice.items) (fun _ _ => rfl) x).trans (hw.items x),
          fun x => (key (·.iter.resetAfterCall) (fun _ _ => rfl) x).trans (hw.iter x),
          fun x => (key (·.seq.it.resetAfterCall) (fun _ _ => rfl) x).trans (hw.seq x)⟩
      · rw [hs, ho, if_neg hx]
      · rw [hs]; rfl
      · rw [hs]; rfl
      · rw [((rngAttr r).run_state _ w).1, ((rngAttr r).run_state _ v).1]
        have : (rngAttr r).get w = (rngAttr r).get v := congrArg Attrs.rng (hv r rfl)
        rw [this]
      · intro x hx
        rw [hs, hs, ho, ho, if_pos hx, if_pos hx, hv r rfl]
    · rw [if_neg h2]; exact Acts.lift (fun _ h => h) _

end

/-! ### Objects without children -/

section
variable (str : Val → List Char) (fuel : Nat) {r : Ref} {w : World R}

theorem splits_static (hn : (w.obj r).node = some .static) :
    SplitsAt (call str (fuel + 1) r) w := by
  have key : ∀ (n : Nat), call str (fuel + 1) r (some (.int n)) w =
      (.ok (.list (List.replicate n (w.obj r).static.value)), w) := by
    intro n
    unfold call
    rw [run_get_bind, hn]
    change (if (n : Int) = 1 then (do return Val.list [← (staticAttr r).run Static.emit])
      else (do return Val.list (← (staticAttr r).run (Static.emitMany n))) : PyM _ Val) w = _
    have hset : (staticAttr r).set (w.obj r).static w = w := (staticAttr r).set_get w
    by_cases h1 : (n : Int) = 1
    · obtain rfl : n = 1 := by omega
      rw [if_pos h1, bind_apply]
      unfold Attr.run
      change (Except.ok (Val.list [(w.obj r).static.value]), (staticAttr r).set (w.obj r).static w) = _
      rw [hset]; rfl
    · rw [if_neg h1, bind_apply]
      unfold Attr.run
      change (Except.ok (Val.list (List.replicate (n : Int).toNat (w.obj r).static.value)),
        (staticAttr r).set (w.obj r).static w) = _
      rw [hset, Int.toNat_natCast]
  intro a b l w2
  rw [key]
  constructor
  · intro h
    cases h
    exact ⟨_, _, w, key a, key b, List.replicate_add ..⟩
  · rintro ⟨la, lb, w1, h1, h2, rfl⟩
    rw [key] at h1
    cases h1
    rw [key] at h2
    cases h2
    rw [List.replicate_add]

theorem splits_attr {β : Type} {L : Attr (World R) β} {c : Child (World R)}
    {m : Nat → PyM β (List Val)} {J : World R → Prop}
    (hc : ∀ w n l w', J w → (c (some (.int (n : Nat))) w = (.ok (.list l), w') ↔
      L.run (m n) w = (.ok l, w')))
    (hJ : ∀ w n l g, J w → m n (L.get w) = (.ok l, g) → J (L.set g w))
    (hm : ∀ w, J w → ∀ a b l s2, m (a + b) (L.get w) = (.ok l, s2) ↔ ∃ la lb s1,
      m a (L.get w) = (.ok la, s1) ∧ m b s1 = (.ok lb, s2) ∧ l = la ++ lb)
    (w : World R) (hw : J w) : SplitsAt c w := by
  intro a b l w2
  rw [hc w (a + b) l w2 hw, Attr.run_ok]
  constructor
  · rintro ⟨g, h1, rfl⟩
    obtain ⟨la, lb, s1, h2, h3, rfl⟩ := (hm _ hw a b l g).1 h1
    have hJ1 := hJ w a la s1 hw h2
    refine ⟨la, lb, L.set s1 w, (hc w a la _ hw).2 (Attr.run_ok.2 ⟨s1, h2, rfl⟩),
      (hc _ b lb _ hJ1).2 (Attr.run_ok.2 ⟨g, by rwa [L.get_set], ?_⟩), rfl⟩
    rw [L.set_set]
  · rintro ⟨la, lb, w1, h1, h2, rfl⟩
    obtain ⟨s1, h3, rfl⟩ := Attr.run_ok.1 ((hc w a la w1 hw).1 h1)
    have hJ1 := hJ w a la s1 hw h3
    obtain ⟨g, h4, rfl⟩ := Attr.run_ok.1 ((hc _ b lb w2 hJ1).1 h2)
    rw [L.get_set] at h4
    exact ⟨g, (hm _ hw a b _ g).2 ⟨la, lb, s1, h3, h4, rfl⟩, by rw [L.set_set]⟩

theorem emitterCall_run {σ β : Type} (L : Attr σ β) (b : Val → PyM σ Val) (e : PyM β Val)
    (f : Int → PyM β (List Val)) (n : Int) (s : σ) (l : List Val) (s' : σ) :
    emitterCallOr b (L.run e) (fun n => L.run (f n)) (some (.int n)) s = (.ok (.list l), s') ↔
      L.run (if n = 1 then do return [← e] else f n) s = (.ok l, s') := by
  change (if n = 1 then (do return Val.list [← L.run e])
    else (do return Val.list (← L.run (f n))) : PyM _ Val) s = _ ↔ _
  by_cases h : n = 1
  · rw [if_pos h, if_pos h, bind_apply]
    unfold Attr.run
    rw [bind_apply]
    rcases e (L.get s) with ⟨_ | _, _⟩ <;>
      simp [pure_apply]
  · rw [if_neg h, if_neg h, bind_apply]
    unfold Attr.run
    rcases f n (L.get s) with ⟨_ | _, _⟩ <;>
      simp [pure_apply]

theorem splits_iterative (hn : (w.obj r).node = some .iterative)
    (hr : (w.obj r).iter.resetAfterCall = false) : SplitsAt (call str (fuel + 1) r) w := by
  refine splits_attr (L := iterAttr r) (m := Iterative.takeItems)
    (J := fun w => (w.obj r).node = some .iterative ∧ (w.obj r).iter.resetAfterCall = false) ?_ ?_
    (fun w _ a b l s2 => Iterative.takeItems_add a b _ l s2) w ⟨hn, hr⟩
  · rintro w n l w' ⟨h1, h2⟩
    unfold call
    rw [run_get_bind, h1]
    change iterChild r (some (.int n)) w = _ ↔ _
    unfold iterChild
    rw [emitterCall_run, Attr.run_ok, Attr.run_ok]
    exact exists_congr fun g => and_congr_left fun _ => Iterative.many_run h2 n l g
  · rintro w n l g ⟨h1, h2⟩ h
    have e : ((iterAttr r).set g w).obj r = { w.obj r with iter := g } := if_pos rfl
    rw [e]
    refine ⟨h1, ?_⟩
    have := Iterative.takeItems_reset n ((iterAttr r).get w)
    rw [h] at this
    exact this.trans h2

theorem splits_sequential {k : ItemsKind} (hn : (w.obj r).node = some (.sequential k))
    (hr : (w.obj r).seq.it.resetAfterCall = false) : SplitsAt (call str (fuel + 1) r) w := by
  have hon : ∀ (n : Nat) (s : SeqSt Val) l g, Sequential.onIt (Iterative.takeItems n) s = (.ok l, g) ↔
      ∃ i, Iterative.takeItems n s.it = (.ok l, i) ∧ g = { s with it := i } := by
    intro n s l g
    unfold Sequential.onIt
    rcases Iterative.takeItems n s.it with ⟨_ | _, i⟩ <;> simp
    exact fun _ => eq_comm
  refine splits_attr (L := seqAttr r) (m := fun n => Sequential.onIt (Iterative.takeItems n))
    (J := fun w => (w.obj r).node = some (.sequential k) ∧
      (w.obj r).seq.it.resetAfterCall = false) ?_ ?_
    (fun w _ a b l s2 => ?_) w ⟨hn, hr⟩
  · rintro w n l w' ⟨h1, h2⟩
    unfold call
    rw [run_get_bind, h1]
    change seqChild r (some (.int n)) w = _ ↔ _
    unfold seqChild
    rw [emitterCall_run, Attr.run_ok, Attr.run_ok]
    refine exists_congr fun g => and_congr_left fun _ => ?_
    rw [hon]
    have key := Iterative.many_run h2 n l
    have e : (if (n : Int) = 1 then do return [← Sequential.onIt Iterative.emit]
        else Sequential.onIt (Iterative.emitMany n) : PyM (SeqSt Val) (List Val)) =
        Sequential.onIt (Iterative.call (some (n : Int))) := by
      funext s
      unfold Iterative.call
      by_cases h1 : (n : Int) = 1
      · rw [if_pos h1]
        dsimp only
        rw [if_pos h1]
        rw [bind_apply]
        unfold Sequential.onIt
        rw [bind_apply]
        rcases Iterative.emit s.it with ⟨_ | _, i⟩ <;> rfl
      · rw [if_neg h1]
        dsimp only
        rw [if_neg h1]
    rw [e]
    have : ∀ i, Iterative.takeItems n ((seqAttr r).get w).it = (.ok l, i) ↔
        Iterative.call (some (n : Int)) ((seqAttr r).get w).it = (.ok l, i) := fun i => (key i).symm
    simp only [this]
    unfold Sequential.onIt
    rcases Iterative.call (some (n : Int)) ((seqAttr r).get w).it with ⟨_ | _, i⟩ <;> simp
    exact fun _ => eq_comm
  · rintro w n l g ⟨h1, h2⟩ h
    obtain ⟨i, h3, rfl⟩ := (hon _ _ _ _).1 h
    have e : ((seqAttr r).set { (seqAttr r).get w with it := i } w).obj r =
        { w.obj r with seq := { (w.obj r).seq with it := i } } := if_pos rfl
    rw [e]
    refine ⟨h1, ?_⟩
    have := Iterative.takeItems_reset n ((seqAttr r).get w).it
    rw [h3] at this
    exact this.trans h2
  · simp only [hon, Iterative.takeItems_add]
    constructor
    · rintro ⟨i, ⟨la, lb, i1, h1, h2, rfl⟩, rfl⟩
      exact ⟨la, lb, _, ⟨i1, h1, rfl⟩, ⟨i, h2, rfl⟩, rfl⟩
    · rintro ⟨la, lb, _, ⟨i1, h1, rfl⟩, ⟨i, h2, rfl⟩, rfl⟩
      exact ⟨i, ⟨la, lb, i1, h1, h2, rfl⟩, rfl⟩

/-- The attributes of the `Choice` object `r` together with the entropy source. -/
def choiceAttr (r : Ref) : Attr (World R) (ChoiceSt Val R × Nat) where
  get w := ((w.obj r).choice, w.entropy)
  set s w := { w.upd r (fun a => { a with choice := s.1 }) with entropy := s.2 }
  get_set s w := by
    unfold upd
    simp
  set_get w := by
    obtain ⟨o, n, e⟩ := w
    unfold upd
    simp only [World.mk.injEq, and_true]
    funext x
    by_cases hx : x = r
    · subst hx; rw [if_pos rfl]
    · rw [if_neg hx]
  set_set s t w := by
    unfold upd
    simp only [World.mk.injEq, and_true]
    funext x
    by_cases hx : x = r
    · subst hx; simp
    · simp [hx]

theorem splits_choice [IsStrictOrderedRing K] {k : ItemsKind} {V : Ref → Val → Prop}
    (hn : (w.obj r).node = some (.choice k)) (hb : (w.obj r).choice.Batchable)
    (ht : AllTyped V w) : SplitsAt (call str (fuel + 1) r) w := by
  have hcl : ∀ (w : World R) (n : Nat), (w.obj r).node = some (.choice k) →
      call str (fuel + 1) r (some (.int n)) w = (choiceAttr r).run (Choice.child (some (.int n))) w := by
    intro w n h1
    unfold call
    rw [run_get_bind, h1]; rfl
  refine splits_attr (L := choiceAttr r) (m := fun n => Choice.call (some (n : Int)))
    (J := fun w => (w.obj r).node = some (.choice k) ∧ (w.obj r).choice.Batchable ∧ AllTyped V w)
    ?_ ?_ ?_ w ⟨hn, hb, ht⟩
  · rintro w n l w' ⟨h1, h2, h3⟩
    rw [hcl w n h1]
    unfold Attr.run
    rw [choice_child_call]
    rcases Choice.call (some (n : Int)) ((choiceAttr r).get w) with ⟨_ | _, _⟩ <;> simp
  · rintro w n l g ⟨h1, h2, h3⟩ h
    have hc : call str (fuel + 1) r (some (.int n)) w = (.ok (.list l), (choiceAttr r).set g w) := by
      rw [hcl w n h1]
      unfold Attr.run
      rw [choice_child_call, h]
    have hL := (Like.refl w).call str (fuel + 1) r (some (.int n))
    rw [hc] at hL
    refine ⟨(hL.node r).trans h1, ?_, ?_⟩
    · unfold ChoiceSt.Batchable at h2 ⊢
      rw [hL.roac, hL.replace, hL.weights, hL.items]
      exact h2
    · exact ((call_typed str (fuel + 1) r trivial).emitterOf.many n _ _ _ h3 hc).2
  · rintro w ⟨h1, h2, h3⟩ a b l s2
    refine Choice.call_add ?_ h2 a b l s2
    have := ((allTyped_iff).1 h3 r)
    unfold Attrs.Typed at this
    rw [h1] at this
    exact this.1

end

/-! ### Splitting lists of words, texts and rows -/

theorem wordsOf_append {na nb : List Nat} {ca cb wa wb : List (List Char)} (ha : WordsOf na ca wa)
    (hb : WordsOf nb cb wb) : WordsOf (na ++ nb) (ca ++ cb) (wa ++ wb) := by
  induction ha with
  | nil => exact hb
  | cons _ ih =>
    rw [List.append_assoc]
    exact .cons ih

theorem textsOf_append {na nb : List Nat} {ca cb sa sb ta tb : List (List Char)}
    (ha : TextsOf na ca sa ta) (hb : TextsOf nb cb sb tb) :
    TextsOf (na ++ nb) (ca ++ cb) (sa ++ sb) (ta ++ tb) := by
  induction ha with
  | nil => exact hb
  | cons h _ ih =>
    rw [List.append_assoc, List.append_assoc]
    exact .cons h ih

theorem textOf_seps {ws ss : List (List Char)} {t : List Char} (h : TextOf ws ss t) :
    ws.length = ss.length + 1 := by
  induction h with
  | one => rfl
  | more _ _ _ ih => simp [ih]

theorem textOf_unique {ws ss : List (List Char)} {t t' : List Char} (h : TextOf ws ss t)
    (h' : TextOf ws ss t') : t' = t := by
  induction h generalizing t' with
  | one => cases h'; rfl
  | more w s _ ih =>
    cases h' with
    | more _ _ h2 => rw [ih h2]

theorem textsOf_unique {ns : List Nat} {ws ss ts ts' : List (List Char)} (h : TextsOf ns ws ss ts)
    (h' : TextsOf ns ws ss ts') : ts' = ts := by
  induction h generalizing ts' with
  | nil => cases h'; rfl
  | @cons ns ws ss ws' ss' ts t h hs ih =>
    generalize hk : ws.length = k at h'
    generalize hc : ws ++ ws' = d at h'
    generalize hd : ss ++ ss' = e at h'
    cases h' with
    | @cons _ vs rs vs' rs' ts2 t2 h2 hs2 =>
      obtain ⟨rfl, rfl⟩ := List.append_inj hc hk
      have e1 := textOf_seps h
      have e2 := textOf_seps h2
      obtain ⟨rfl, rfl⟩ := List.append_inj hd (by omega)
      rw [ih hs2, textOf_unique h h2]

theorem textOf_exists : ∀ ws ss : List (List Char), ws.length = ss.length + 1 → ∃ t, TextOf ws ss t
  | [], _, h => by simp at h
  | [w], [], _ => ⟨w, .one w⟩
  | [_], _ :: _, h => by simp at h
  | _ :: _ :: _, [], h => by simp at h
  | w :: w' :: ws, s :: ss, h => by
    obtain ⟨t, ht⟩ := textOf_exists (w' :: ws) ss (by simpa using h)
    exact ⟨_, .more w s ht⟩

theorem textsOf_exists (ns : List Nat) (ws ss : List (List Char)) (hp : ∀ m ∈ ns, 1 ≤ m)
    (hw : ws.length = ns.sum) (hs : ss.length + ns.length = ns.sum) : ∃ ts, TextsOf ns ws ss ts := by
  induction ns generalizing ws ss with
  | nil =>
    obtain rfl := List.length_eq_zero_iff.1 hw
    obtain rfl : ss = [] := List.length_eq_zero_iff.1 (by simpa using hs)
    exact ⟨[], .nil⟩
  | cons m ns ih =>
    have hm := hp m (by simp)
    have hle : ns.length ≤ ns.sum := by
      have : ∀ l : List Nat, (∀ m ∈ l, 1 ≤ m) → l.length ≤ l.sum := by
        intro l
        induction l with
        | nil => simp
        | cons a l ih =>
          intro h
          have := ih fun m hm => h m (by simp [hm])
          have := h a (by simp)
          simp only [List.length_cons, List.sum_cons]
          omega
      exact this ns fun m hm => hp m (by simp [hm])
    simp only [List.sum_cons, List.length_cons] at hw hs
    obtain ⟨ts, h1⟩ := ih (ws.drop m) (ss.drop (m - 1)) (fun m hm => hp m (by simp [hm]))
      (by rw [List.length_drop]; omega) (by rw [List.length_drop]; omega)
    obtain ⟨t, h2⟩ := textOf_exists (ws.take m) (ss.take (m - 1))
      (by rw [List.length_take, List.length_take]; omega)
    have := TextsOf.cons h2 h1
    rw [List.take_append_drop, List.take_append_drop, List.length_take, Nat.min_eq_left (by omega)] at this
    exact ⟨_, this⟩

theorem runs_append {σ α β : Type} {f : α → PyM σ β} {la lb : List α} {s t : σ} {r : List β} :
    Runs f (la ++ lb) s r t ↔ ∃ ra rb s1, Runs f la s ra s1 ∧ Runs f lb s1 rb t ∧ r = ra ++ rb := by
  induction la generalizing s r with
  | nil =>
    constructor
    · intro h; exact ⟨[], r, s, .nil s, h, rfl⟩
    · rintro ⟨ra, rb, s1, h1, h2, rfl⟩
      cases h1
      exact h2
  | cons a la ih =>
    constructor
    · intro h
      cases h with
      | cons h1 h2 =>
        obtain ⟨ra, rb, s1, h3, h4, rfl⟩ := ih.1 h2
        exact ⟨_ :: ra, rb, s1, .cons h1 h3, h4, rfl⟩
    · rintro ⟨ra, rb, s1, h1, h2, rfl⟩
      cases h1 with
      | cons h3 h4 => exact .cons h3 (ih.2 ⟨_, _, _, h4, h2, rfl⟩)

/-! ### Words -/

variable {V : Ref → Val → Prop} (str : Val → List Char)

theorem many_ok {w w' : World R} [IsStrictOrderedRing K] {fuel : Nat} {r : Ref} {n : Nat} {v : Val}
    (ht : AllTyped V w)
    (h : call str fuel r (some (.int n)) w = (.ok v, w')) :
    (∃ l, v = .list l ∧ l.length = n ∧ ∀ x ∈ l, V r x) ∧ AllTyped V w' :=
  (call_typed str fuel r trivial).emitterOf.many _ _ _ _ ht h

theorem nats_of {l : List Val} (h : ∀ v ∈ l, ∃ k : Nat, v = .int k) :
    ∃ ns : List Nat, l = ns.map fun (k : Nat) => Val.int k := by
  induction l with
  | nil => exact ⟨[], rfl⟩
  | cons v l ih =>
    obtain ⟨ns, rfl⟩ := ih fun v hv => h v (by simp [hv])
    obtain ⟨k, rfl⟩ := h v (by simp)
    exact ⟨k :: ns, rfl⟩

theorem strs_of {l : List Val} (h : ∀ v ∈ l, ∃ c, v = .str c) :
    ∃ cs : List (List Char), l = cs.map Val.str := by
  induction l with
  | nil => exact ⟨[], rfl⟩
  | cons v l ih =>
    obtain ⟨ns, rfl⟩ := ih fun v hv => h v (by simp [hv])
    obtain ⟨k, rfl⟩ := h v (by simp)
    exact ⟨k :: ns, rfl⟩

theorem counts_map {ns ms : List Nat} (h : AreCounts (ns.map fun (k : Nat) => Val.int k) ms) :
    ms = ns := by
  unfold AreCounts at h
  rw [List.map_map] at h
  have : (ns.map fun (n : Nat) => some (n : Int)) = ms.map fun (n : Nat) => some (n : Int) := h
  exact (List.map_injective_iff.2 (fun a b hab => by simpa using hab) this).symm

theorem areCounts_map (ns : List Nat) : AreCounts (ns.map fun (k : Nat) => Val.int k) ns := by
  unfold AreCounts
  rw [List.map_map]; rfl

theorem _root_.Fauxdoc.Batchable.not_field {w : World R} {r : Ref} (h : Batchable V w r) :
    (w.obj r).isField = false := by
  unfold Attrs.isField
  cases h <;> simp_all

theorem Like.not_field {w0 w : World R} (hw : Like w0 w) {r : Ref} (h : Batchable V w0 r) :
    (w.obj r).isField = false := by
  have := h.not_field
  unfold Attrs.isField at this ⊢
  rw [hw.node]
  exact this

theorem asOne_eq {x : Except Err Val × World R} {v : Val} {w' : World R} :
    asOne x = (.ok v, w') ↔ ∃ u, x = (.ok u, w') ∧ v = .list [u] := by
  rcases x with ⟨_ | u, t⟩
  · simp [asOne]
  · constructor
    · intro h; cases h; exact ⟨u, rfl, rfl⟩
    · rintro ⟨u, h, rfl⟩; cases h; rfl

section
variable [IsStrictOrderedRing K]

theorem word_many {fuel : Nat} {r l c : Ref} {w : World R} (ht : AllTyped V w)
    (hn : (w.obj r).node = some (.word l c)) (hlf : (w.obj l).isField = false)
    (hlen : ∀ v, V l v → ∃ k : Nat, v = .int k)
    (hchar : ∀ v, V c v → ∃ c, v = .str c) (n : Nat) (xs : List Val) (w' : World R) :
    call str (fuel + 1) r (some (.int n)) w = (.ok (.list xs), w') ↔
      ∃ (ns : List Nat) (w1 : World R) (cs ws : List (List Char)),
        call str fuel l (some (.int n)) w = (.ok (.list (ns.map fun (k : Nat) => Val.int k)), w1) ∧
        ns.length = n ∧ call str fuel c (some (.int (ns.sum : Nat))) w1 = (.ok (.list (cs.map Val.str)), w') ∧
        cs.length = ns.sum ∧ WordsOf ns cs ws ∧ xs = ws.map Val.str := by
  by_cases h1 : n = 1
  · subst h1
    have hf : (w.obj r).isField = false := by unfold Attrs.isField; rw [hn]
    have hl1 : call str fuel l (some (.int (1 : Nat))) w = asOne (call str fuel l none w) :=
      call_one str fuel hlf
    change call str (fuel + 1) r (some (.int 1)) w = _ ↔ _
    rw [call_one str (fuel + 1) hf, asOne_eq]
    simp only [C30_store_one str fuel hn, hl1, asOne_eq]
    constructor
    · rintro ⟨u, ⟨k, w1, cv, cs, h1, h2, h3, rfl⟩, h4⟩
      cases h4
      have hm : call str fuel l (some (.int (1 : Nat))) w = (.ok (.list [k]), w1) := by
        rw [hl1, h1]; rfl
      obtain ⟨⟨_, e, _, hV⟩, ht1⟩ := many_ok str ht hm
      cases e
      obtain ⟨k, rfl⟩ := hlen k (hV k (by simp))
      obtain ⟨⟨q, rfl, hq, _⟩, _⟩ := many_ok str ht1 h2
      cases h3
      refine ⟨[k], w1, cs, [cs.flatten], ⟨_, h1, rfl⟩, rfl, by simpa using h2, by simpa using hq, ?_, rfl⟩
      have := WordsOf.cons (cs := cs) WordsOf.nil
      rw [List.append_nil] at this
      rwa [show cs.length = k by simpa using hq] at this
    · rintro ⟨ns, w1, cs, ws, ⟨u, h1, h2⟩, h3, h4, h5, h6, rfl⟩
      obtain ⟨k, rfl⟩ := List.length_eq_one_iff.1 h3
      cases h2
      refine ⟨.str cs.flatten, ⟨_, w1, _, cs, h1, by simpa using h4, rfl, rfl⟩, ?_⟩
      have := WordsOf.cons (cs := cs) WordsOf.nil
      rw [List.append_nil, show cs.length = k by simpa using h5] at this
      rw [this.unique h6]; rfl
  · rw [C30_store_many str fuel ht trivial hn hchar n h1]
    constructor
    · rintro ⟨lens, ns, w1, cs, ws, e1, e2, e3, e4, e5, e6, e7⟩
      obtain ⟨⟨_, e, _, hV⟩, ht1⟩ := many_ok str ht e1
      cases e
      obtain ⟨ms, rfl⟩ := nats_of fun v hv => hlen v (hV v hv)
      obtain rfl := counts_map e2
      cases e7
      exact ⟨_, w1, cs, ws, e1, e3, e4, e5, e6, rfl⟩
    · rintro ⟨ns, w1, cs, ws, e1, e3, e4, e5, e6, rfl⟩
      exact ⟨_, ns, w1, cs, ws, e1, areCounts_map ns, e3, e4, e5, e6, rfl⟩

theorem splits_word {w0 w : World R} (hw : Like w0 w) (ht : AllTyped V w) {fuel : Nat} {r l c : Ref}
    (hn : (w0.obj r).node = some (.word l c)) (hl : Batchable V w0 l)
    (hc : Batchable V w0 c) (hlc : Apart w0 l c) (hlen : ∀ v, V l v → ∃ k : Nat, v = .int k)
    (hchar : ∀ v, V c v → ∃ c, v = .str c)
    (ihl : ∀ w, Like w0 w → AllTyped V w → SplitsAt (call str fuel l) w)
    (ihc : ∀ w, Like w0 w → AllTyped V w → SplitsAt (call str fuel c) w) :
    SplitsAt (call str (fuel + 1) r) w := by
  have key := fun {w : World R} (hw : Like w0 w) (ht : AllTyped V w) => word_many str (fuel := fuel) ht
    ((hw.node r).trans hn) (hw.not_field hl) hlen hchar
  have hlike : ∀ {w w' : World R} {x : Ref} {n : Nat} {v : Except Err Val}, Like w0 w →
      call str fuel x (some (.int n)) w = (v, w') → Like w0 w' := by
    intro w w' x n v hw h
    have := hw.call str fuel x (some (.int n))
    rwa [h] at this
  intro a b xs w2
  rw [key hw ht]
  constructor
  · rintro ⟨ns, w1, cs, ws, h1, h2, h3, h4, h5, rfl⟩
    obtain ⟨la, lb, u1, g1, g2, g3⟩ := (ihl w hw ht a b _ _).1 h1
    obtain ⟨na, nb, rfl, rfl, rfl⟩ := List.map_eq_append_iff.1 g3
    obtain ⟨⟨_, e, hla, _⟩, htu⟩ := many_ok str ht g1
    cases e
    obtain ⟨⟨_, e, hlb, _⟩, htw1⟩ := many_ok str htu g2
    cases e
    rw [List.length_map] at hla hlb
    have hu1 := hlike hw g1
    have hw1 := hlike hu1 g2
    rw [List.sum_append] at h3 h4
    obtain ⟨ka, kb, u2, g4, g5, g6⟩ := (ihc w1 hw1 htw1 _ _ _ _).1 h3
    obtain ⟨ca, cb, rfl, rfl, rfl⟩ := List.map_eq_append_iff.1 g6
    obtain ⟨⟨_, e, hca, _⟩, htu2⟩ := many_ok str htw1 g4
    cases e
    obtain ⟨⟨_, e, hcb, _⟩, _⟩ := many_ok str htu2 g5
    cases e
    rw [List.length_map] at hca hcb
    obtain ⟨x, g7, g8⟩ := (hl.acts str fuel _).swap (hc.acts str fuel _) hlc.1 hlc.2 hu1 g2 g4
    obtain ⟨wa, _, i1⟩ := partition_spec ca na 0 (by omega)
    obtain ⟨wb, _, i2⟩ := partition_spec cb nb 0 (by omega)
    rw [List.drop_zero] at i1 i2
    rw [(wordsOf_append i1 i2).unique h5, List.map_append]
    have htx : AllTyped V x := (many_ok str htu g7).2
    exact ⟨_, _, x, (key hw ht a _ _).2 ⟨na, u1, ca, wa, g1, hla, g7, hca, i1, rfl⟩,
      (key (hlike hu1 g7) htx b _ _).2 ⟨nb, u2, cb, wb, g8, hlb, g5, hcb, i2, rfl⟩, rfl⟩
  · rintro ⟨xa, xb, x, h1, h2, rfl⟩
    obtain ⟨na, u1, ca, wa, g1, hla, g7, hca, i1, rfl⟩ := (key hw ht a _ _).1 h1
    have hu1 := hlike hw g1
    have htu := (many_ok str ht g1).2
    have hx := hlike hu1 g7
    have htx : AllTyped V x := (many_ok str htu g7).2
    obtain ⟨nb, u2, cb, wb, g8, hlb, g5, hcb, i2, rfl⟩ := (key hx htx b _ _).1 h2
    obtain ⟨w1, g2, g4⟩ := (hc.acts str fuel _).swap (hl.acts str fuel _) hlc.2 hlc.1 hu1 g7 g8
    refine ⟨na ++ nb, w1, ca ++ cb, wa ++ wb, ?_, by simp [hla, hlb], ?_, by simp [hca, hcb],
      wordsOf_append i1 i2, by simp⟩
    · exact (ihl w hw ht a b _ _).2 ⟨_, _, u1, g1, g2, by simp⟩
    · rw [List.sum_append]
      exact (ihc w1 (hlike hu1 g2) (many_ok str htu g2).2 _ _ _ _).2 ⟨_, _, u2, g4, g5, by simp⟩

/-! ### Texts -/

theorem roacInfo_none {w0 w : World R} (hw : Like w0 w) {wd : Ref} (h : Batchable V w0 wd) :
    roacInfo wd w = (.ok none, w) := by
  unfold roacInfo
  rw [run_get_bind]
  rcases hn : (w.obj wd).node with _ | node
  · rfl
  · cases node with
    | choice k =>
      have hr : (w.obj wd).choice.roac = false :=
        (hw.roac wd).trans (h.roac ((hw.node wd).symm.trans hn))
      change onChoice wd Choice.roacInfo w = _
      unfold onChoice
      rw [Choice.roacInfo_of_not hr]
      have := (choiceAttr wd).set_get w
      exact congrArg _ this
    | _ => rfl

theorem text_of_emitMany {σ : Type} {numwords sep : Child σ} {word : Text.WordChild σ}
    {k : Nat} {s t : σ} {l : List Val} (hl : l.length = k)
    (h : Text.emitMany numwords word sep k s = (.ok l, t)) :
    Text.call numwords word sep (some (.int k)) s = (.ok (.list l), t) := by
  change (if (k : Int) = 1 then (do return Val.list [← Text.emit _ _ _])
    else (do return Val.list (← Text.emitMany _ _ _ k)) : PyM _ Val) s = _
  by_cases hk : (k : Int) = 1
  · rw [if_pos hk]
    obtain rfl : k = 1 := by omega
    obtain ⟨x, rfl⟩ := List.length_eq_one_iff.1 hl
    unfold Text.emit
    have h' : Text.emitMany numwords word sep 1 s = (.ok [x], t) := h
    rw [bind_apply, bind_ok h']
    rfl
  · rw [if_neg hk, bind_ok h]; rfl

theorem text_many {fuel : Nat} {r n wd s : Ref} {w0 w : World R} (hw : Like w0 w) (ht : AllTyped V w)
    (hn : (w0.obj r).node = some (.text n wd s)) (hwd : Batchable V w0 wd)
    (hpos : ∀ v, V n v → ∃ k : Nat, 1 ≤ k ∧ v = .int k) (hword : ∀ v, V wd v → ∃ c, v = .str c)
    (hsep : ∀ v, V s v → ∃ c, v = .str c) (k : Nat) (xs : List Val) (w' : World R) :
    call str (fuel + 1) r (some (.int k)) w = (.ok (.list xs), w') ↔
      ∃ (ns : List Nat) (d : Nat) (w1 w2 : World R) (ws ss ts : List (List Char)),
        call str fuel n (some (.int k)) w = (.ok (.list (ns.map fun (k : Nat) => Val.int k)), w1) ∧
        ns.length = k ∧ d + k = ns.sum ∧
        call str fuel wd (some (.int (ns.sum : Nat))) w1 = (.ok (.list (ws.map Val.str)), w2) ∧
        call str fuel s (some (.int d)) w2 = (.ok (.list (ss.map Val.str)), w') ∧
        TextsOf ns ws ss ts ∧ xs = ts.map Val.str := by
  have hn' := (hw.node r).trans hn
  have hlike : ∀ {w w' : World R} {x : Ref} {n : Nat} {v : Except Err Val}, Like w0 w →
      call str fuel x (some (.int n)) w = (v, w') → Like w0 w' := by
    intro w w' x n v hw h
    have := hw.call str fuel x (some (.int n))
    rwa [h] at this
  have hsum : ∀ ns : List Nat, (∀ m ∈ ns, 1 ≤ m) → ns.length ≤ ns.sum := by
    intro ns
    induction ns with
    | nil => intro _; simp
    | cons m ns ih =>
      intro h
      have := ih fun m hm => h m (by simp [hm])
      have := h m (by simp)
      simp only [List.length_cons, List.sum_cons]
      omega
  have hms : ∀ {ns : List Nat}, (∀ v ∈ ns.map fun (k : Nat) => Val.int k, V n v) → ∀ m ∈ ns, 1 ≤ m := by
    intro ns hV m hm
    obtain ⟨q, hq, e⟩ := hpos (.int m) (hV _ (List.mem_map.2 ⟨m, hm, rfl⟩))
    cases e
    exact hq
  constructor
  · intro h
    obtain ⟨cnts, w1, ns, ws, ss, ts, e1, e2, e3, e4, e5, e6⟩ :=
      C32_store_many str fuel ht trivial hn' hpos hword hsep k _ _ h
    obtain ⟨⟨_, e, _, hV⟩, ht1⟩ := many_ok str ht e1
    cases e
    obtain ⟨ms, rfl⟩ := nats_of fun v hv => let ⟨k, _, h⟩ := hpos v (hV v hv); ⟨k, h⟩
    obtain rfl := counts_map e2
    have hsm := hsum _ (hms hV)
    have hw1 := hlike hw e1
    have hr0 := roacInfo_none (V := V) hw1 hwd
    cases e6
    cases e4 with
    | atOnce hr hD hwc hwe hs hse hl =>
      change roacInfo wd _ = _ at hr
      rw [hr0] at hr
      cases hr
      change call str fuel wd _ _ = _ at hwc
      obtain ⟨⟨q, rfl, hq, _⟩, ht2⟩ := many_ok str ht1 hwc
      cases hwe
      have hd : ((ns.sum : Nat) : Int) - (k : Int) = ((ns.sum - k : Nat) : Int) := by omega
      rw [hd] at hs
      obtain ⟨⟨q, rfl, hq, _⟩, _⟩ := many_ok str ht2 hs
      cases hse
      exact ⟨ns, ns.sum - k, w1, _, ws, ss, ts, e1, e3, by omega, hwc, hs, e5, rfl⟩
    | inBlocks hr =>
      change roacInfo wd _ = _ at hr
      rw [hr0] at hr
      cases hr
  · rintro ⟨ns, d, w1, w2, ws, ss, ts, e1, e3, ed, e4, e5, e6, rfl⟩
    obtain ⟨⟨_, e, _, hV⟩, ht1⟩ := many_ok str ht e1
    cases e
    have hw1 := hlike hw e1
    have hr0 := roacInfo_none (V := V) hw1 hwd
    obtain ⟨⟨_, e, hq, _⟩, ht2⟩ := many_ok str ht1 e4
    cases e
    obtain ⟨⟨_, e, hq2, _⟩, _⟩ := many_ok str ht2 e5
    cases e
    rw [List.length_map] at hq hq2
    have hd : ((ns.sum : Nat) : Int) - (k : Int) = (d : Int) := by omega
    obtain ⟨ts', h1, h2, h3⟩ := C32_emit_many (call str fuel n) (wordsOf str fuel wd) (call str fuel s) k
      e1 rfl (areCounts_map ns) e3 (hms hV) (ws := ws) (ss := ss) (s2 := w')
      (.atOnce (r := none) hr0 (fun D hD => by cases hD) e4 rfl (by rw [hd]; exact e5) rfl hq) (by omega)
    rw [call_text str fuel _ hn', textsOf_unique h2 e6]
    exact text_of_emitMany (by simp [h3]) h1

theorem splits_text {w0 w : World R} (hw : Like w0 w) (ht : AllTyped V w) {fuel : Nat} {r n wd s : Ref}
    (hn : (w0.obj r).node = some (.text n wd s)) (hcnt : Batchable V w0 n)
    (hwd : Batchable V w0 wd) (hs : Batchable V w0 s) (hnw : Apart w0 n wd) (hns : Apart w0 n s)
    (hws : Apart w0 wd s) (hpos : ∀ v, V n v → ∃ k : Nat, 1 ≤ k ∧ v = .int k)
    (hword : ∀ v, V wd v → ∃ c, v = .str c) (hsep : ∀ v, V s v → ∃ c, v = .str c)
    (ihn : ∀ w, Like w0 w → AllTyped V w → SplitsAt (call str fuel n) w)
    (ihw : ∀ w, Like w0 w → AllTyped V w → SplitsAt (call str fuel wd) w)
    (ihs : ∀ w, Like w0 w → AllTyped V w → SplitsAt (call str fuel s) w) :
    SplitsAt (call str (fuel + 1) r) w := by
  have key := fun {w : World R} (hw : Like w0 w) (ht : AllTyped V w) => text_many str (fuel := fuel) hw ht
    hn hwd hpos hword hsep
  have hlike : ∀ {w w' : World R} {x : Ref} {n : Nat} {v : Except Err Val}, Like w0 w →
      call str fuel x (some (.int n)) w = (v, w') → Like w0 w' := by
    intro w w' x n v hw h
    have := hw.call str fuel x (some (.int n))
    rwa [h] at this
  have hsum : ∀ ns : List Nat, (∀ v ∈ ns.map fun (k : Nat) => Val.int k, V n v) →
      ns.length ≤ ns.sum := by
    intro ns
    induction ns with
    | nil => intro _; simp
    | cons m ns ih =>
      intro h
      have := ih fun v hv => h v (by simp [hv])
      obtain ⟨q, hq, e⟩ := hpos (.int m) (h _ (by simp))
      cases e
      simp only [List.length_cons, List.sum_cons]
      omega
  intro a b xs w3
  rw [key hw ht]
  constructor
  · rintro ⟨ns, d, w1, w2, ws, ss, ts, h1, h2, hd, h3, h4, h5, rfl⟩
    -- n(a) n(b) wd(A) wd(B) s(da) s(db)
    obtain ⟨la, lb, u1, g1, g2, g3⟩ := (ihn w hw ht a b _ _).1 h1
    obtain ⟨na, nb, rfl, rfl, rfl⟩ := List.map_eq_append_iff.1 g3
    obtain ⟨⟨_, e, hla, hVa⟩, htu⟩ := many_ok str ht g1
    cases e
    obtain ⟨⟨_, e, hlb, hVb⟩, htw1⟩ := many_ok str htu g2
    cases e
    rw [List.length_map] at hla hlb
    have hsa := hsum na hVa
    have hsb := hsum nb hVb
    have hu1 := hlike hw g1
    have hw1 := hlike hu1 g2
    rw [List.sum_append] at h3 hd
    obtain ⟨ka, kb, u2, g4, g5, g6⟩ := (ihw w1 hw1 htw1 _ _ _ _).1 h3
    obtain ⟨wa, wb, rfl, rfl, rfl⟩ := List.map_eq_append_iff.1 g6
    obtain ⟨⟨_, e, hwa, _⟩, htu2⟩ := many_ok str htw1 g4
    cases e
    obtain ⟨⟨_, e, hwb, _⟩, htw2⟩ := many_ok str htu2 g5
    cases e
    rw [List.length_map] at hwa hwb
    have hu2 := hlike hw1 g4
    have hw2 := hlike hu2 g5
    obtain rfl : d = (na.sum - a) + (nb.sum - b) := by omega
    obtain ⟨ja, jb, u3, g7, g8, g9⟩ := (ihs w2 hw2 htw2 _ _ _ _).1 h4
    obtain ⟨sa, sb, rfl, rfl, rfl⟩ := List.map_eq_append_iff.1 g9
    -- n(b) past wd(A)
    obtain ⟨x1, k1, k2⟩ := (hcnt.acts str fuel _).swap (hwd.acts str fuel _) hnw.1 hnw.2 hu1 g2 g4
    -- wd(B) past s(da)
    obtain ⟨x2, k3, k4⟩ := (hwd.acts str fuel _).swap (hs.acts str fuel _) hws.1 hws.2 hu2 g5 g7
    -- n(b) past s(da)
    have hx1 := hlike hu1 k1
    have htx1 := (many_ok str htu k1).2
    obtain ⟨x3, k5, k6⟩ := (hcnt.acts str fuel _).swap (hs.acts str fuel _) hns.1 hns.2 hx1 k2 k3
    have hx3 := hlike hx1 k5
    have htx3 := (many_ok str htx1 k5).2
    obtain ⟨⟨_, e, hja, _⟩, _⟩ := many_ok str htx1 k5
    cases e
    have htx2 := (many_ok str htx3 k6).2
    have htu3 := (many_ok str htx2 k4).2
    obtain ⟨⟨_, e, hjb, _⟩, _⟩ := many_ok str htu3 g8
    cases e
    rw [List.length_map] at hja hjb
    have hposl : ∀ ns : List Nat, (∀ v ∈ ns.map fun (k : Nat) => Val.int k, V n v) → ∀ m ∈ ns, 1 ≤ m := by
      intro ns hV m hm
      obtain ⟨q, hq, e⟩ := hpos (.int m) (hV _ (List.mem_map.2 ⟨m, hm, rfl⟩))
      cases e
      exact hq
    obtain ⟨ta, i1⟩ := textsOf_exists na wa sa (hposl na hVa) hwa (by omega)
    obtain ⟨tb, i2⟩ := textsOf_exists nb wb sb (hposl nb hVb) hwb (by omega)
    rw [textsOf_unique (textsOf_append i1 i2) h5, List.map_append]
    exact ⟨_, _, x3, (key hw ht a _ _).2
        ⟨na, na.sum - a, u1, x1, wa, sa, ta, g1, hla, by omega, k1, k5, i1, rfl⟩,
      (key hx3 htx3 b _ _).2
        ⟨nb, nb.sum - b, x2, u3, wb, sb, tb, k6, hlb, by omega, k4, g8, i2, rfl⟩, rfl⟩
  · rintro ⟨xa, xb, x3, h1, h2, rfl⟩
    obtain ⟨na, da, u1, x1, wa, sa, ta, g1, hla, hda, k1, k5, i1, rfl⟩ := (key hw ht a _ _).1 h1
    have hu1 := hlike hw g1
    have htu := (many_ok str ht g1).2
    have hx1 := hlike hu1 k1
    have htx1 := (many_ok str htu k1).2
    have hx3 := hlike hx1 k5
    have htx3 := (many_ok str htx1 k5).2
    obtain ⟨nb, db, x2, u3, wb, sb, tb, k6, hlb, hdb, k4, g8, i2, rfl⟩ := (key hx3 htx3 b _ _).1 h2
    -- s(da) past n(b)
    obtain ⟨u2, k2, k3⟩ := (hs.acts str fuel _).swap (hcnt.acts str fuel _) hns.2 hns.1 hx1 k5 k6
    obtain ⟨w1, g2, g4⟩ := (hwd.acts str fuel _).swap (hcnt.acts str fuel _) hnw.2 hnw.1 hu1 k1 k2
    have hw1 := hlike hu1 g2
    have htw1 := (many_ok str htu g2).2
    have hu2 := hlike hw1 g4
    have htu2 := (many_ok str htw1 g4).2
    obtain ⟨w2, g5, g7⟩ := (hs.acts str fuel _).swap (hwd.acts str fuel _) hws.2 hws.1 hu2 k3 k4
    have hw2 := hlike hu2 g5
    have htw2 := (many_ok str htu2 g5).2
    refine ⟨na ++ nb, da + db, w1, w2, wa ++ wb, sa ++ sb, ta ++ tb, ?_, by simp [hla, hlb],
      by rw [List.sum_append]; omega, ?_, ?_, textsOf_append i1 i2, by simp⟩
    · exact (ihn w hw ht a b _ _).2 ⟨_, _, u1, g1, g2, by simp⟩
    · rw [List.sum_append]
      exact (ihw w1 hw1 htw1 _ _ _ _).2 ⟨_, _, u2, g4, g5, by simp⟩
    · exact (ihs w2 hw2 htw2 _ _ _ _).2 ⟨_, _, u3, g7, g8, by simp⟩

end

end World
end Fauxdoc
