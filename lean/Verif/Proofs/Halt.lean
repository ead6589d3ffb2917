import Verif.Spec.Halt
import Verif.Proofs.Contract3
/-
The classes come to an end if their children do.
-/
set_option linter.unusedSectionVars false
namespace Fauxdoc

theorem ordinary_of {e : Err} (h1 : e ≠ .diverges := by decide) (h2 : e ≠ .recursion := by decide) :
    e.Ordinary := ⟨h1, h2⟩

namespace Ended
variable {α β : Type}

theorem ok (a : α) : Ended (.ok a : Except Err α) := fun _ h => by cases h
theorem error {e : Err} (h : e.Ordinary) : Ended (.error e : Except Err α) := fun _ h' => by
  cases h'; exact h
theorem bind {x : Except Err α} {f : α → Except Err β} (hx : Ended x) (hf : ∀ a, Ended (f a)) :
    Ended (x >>= f) := by
  cases x with
  | ok a => exact hf a
  | error e => exact error (hx e rfl)
theorem ite {c : Prop} [Decidable c] {x y : Except Err α} (hx : Ended x) (hy : Ended y) :
    Ended (if c then x else y) := by split <;> assumption

theorem mapPy {f : α → Py β} (h : ∀ a, Ended (f a)) : ∀ l, Ended (mapPy f l)
  | [] => ok _
  | a :: as => bind (h a) fun _ => bind (mapPy h as) fun _ => ok _

end Ended

theorem elems_ended (v : Val) : Ended v.elems := by
  cases v <;> first | exact Ended.ok _ | exact Ended.error ordinary_of

theorem toInt_ended (v : Val) : Ended v.toInt := by
  unfold Val.toInt
  split
  · exact Ended.ok _
  · exact Ended.error ordinary_of

theorem sumInts_ended (l : List Val) : Ended (sumInts l) :=
  Ended.bind (Ended.mapPy toInt_ended l) fun _ => Ended.ok _

theorem pyListGet_ended {α : Type} (l : List α) (i : Int) : Ended (pyListGet l i) := by
  unfold pyListGet
  dsimp only
  repeat' split
  all_goals first | exact Ended.ok _ | exact Ended.error ordinary_of

theorem joinEmpty_ended (l : List Val) : Ended (joinEmpty l) := by
  unfold joinEmpty
  refine Ended.bind (Ended.mapPy (fun v => ?_) l) fun _ => Ended.ok _
  cases v <;> first | exact Ended.ok _ | exact Ended.error ordinary_of

theorem partition_ended (chars : List Val) : ∀ (ns : List Int) (ci : Int),
    Ended (Word.partition chars ci ns)
  | [], _ => Ended.ok _
  | n :: ns, ci => Ended.bind (joinEmpty_ended _) fun _ =>
      Ended.bind (partition_ended chars ns (ci + n)) fun _ => Ended.ok _

theorem getItem_ended (v : Val) (i : Int) : Ended (v.getItem i) := by
  cases v <;> first
    | exact pyListGet_ended _ _
    | exact Ended.bind (pyListGet_ended _ _) fun _ => Ended.ok _
    | exact Ended.error ordinary_of

theorem row_ended (d : Dict Val) (i : Int) : Ended (WrapMany.row d i) :=
  Ended.mapPy (α := String × Val) (f := fun kv => kv.2.getItem i >>= fun v => pure (kv.1, v))
    (fun kv => Ended.bind (getItem_ended kv.2 i) fun _ => Ended.ok _) d

namespace PyM
variable {σ α β : Type} {I : σ → Prop}

/-- `m` ends, from every state satisfying `I`. -/
def Halts (I : σ → Prop) (m : PyM σ α) : Prop := ∀ s, I s → Ended (m s).1

theorem Halts.pure (a : α) : Halts I (Pure.pure a : PyM σ α) := fun _ _ => Ended.ok a
theorem Halts.raise {e : Err} (h : e.Ordinary) : Halts I (PyM.raise e : PyM σ α) :=
  fun _ _ => Ended.error h
theorem Halts.lift {x : Except Err α} (h : Ended x) : Halts I (PyM.lift x : PyM σ α) := fun _ _ => h
theorem Halts.modify (f : σ → σ) : Halts I (PyM.modify f) := fun _ _ => Ended.ok _

theorem Halts.bind {Q : α → Prop} {m : PyM σ α} {k : α → PyM σ β} (hm : Halts I m)
    (he : Ensures I m Q) (hk : ∀ a, Q a → Halts I (k a)) : Halts I (m >>= k) := by
  intro s hs
  rw [bind_apply]
  have h1 := hm s hs
  obtain ⟨h2, h3⟩ := he s hs
  rcases hms : m s with ⟨e | a, s'⟩
  · rw [hms] at h1; exact Ended.error (h1 e rfl)
  · rw [hms] at h2 h3; exact hk a (h3 a rfl) s' h2

theorem Halts.bind' {m : PyM σ α} {k : α → PyM σ β} (hm : Halts I m) (he : Keeps I m)
    (hk : ∀ a, Halts I (k a)) : Halts I (m >>= k) := hm.bind he.ensures fun a _ => hk a

theorem Halts.lift_bind {x : Except Err α} {k : α → PyM σ β} (h : Ended x)
    (hk : ∀ a, x = .ok a → Halts I (k a)) : Halts I (PyM.lift x >>= k) :=
  (Halts.lift h).bind (Q := fun a => x = .ok a) (Ensures.lift fun _ h => h) hk

theorem Halts.ite {c : Prop} [Decidable c] {m n : PyM σ α} (hm : c → Halts I m)
    (hn : ¬ c → Halts I n) : Halts I (if c then m else n) := by
  by_cases h : c
  · rw [if_pos h]; exact hm h
  · rw [if_neg h]; exact hn h

theorem Halts.forEach {l : List β} {f : β → PyM σ PUnit} (h : ∀ b ∈ l, Halts I (f b))
    (hk : ∀ b ∈ l, Keeps I (f b)) : Halts I (PyM.forEach l f) := by
  induction l with
  | nil => exact Halts.pure _
  | cons b bs ih =>
    exact (h b (by simp)).bind' (hk b (by simp)) fun _ =>
      ih (fun x hx => h x (by simp [hx])) fun x hx => hk x (by simp [hx])

theorem Halts.ignoring {e : Err} {m : PyM σ PUnit} (hm : Halts I m) :
    Halts I (PyM.ignoring e m) := by
  intro s hs
  have := hm s hs
  unfold PyM.ignoring
  rcases hms : m s with ⟨e' | a, s'⟩
  · rw [hms] at this
    dsimp only
    split
    · exact Ended.ok _
    · exact Ended.error (this e' rfl)
  · exact Ended.ok _

theorem mapPyM_halts {Q : β → Prop} {f : α → PyM σ β} {l : List α} (h : ∀ a ∈ l, Halts I (f a))
    (hk : ∀ a ∈ l, Ensures I (f a) Q) : Halts I (mapPyM f l) := by
  induction l with
  | nil => exact Halts.pure _
  | cons a as ih =>
    refine (h a (by simp)).bind (hk a (by simp)) fun b _ => ?_
    exact (ih (fun x hx => h x (by simp [hx])) fun x hx => hk x (by simp [hx])).bind
      (mapPyM_ensures fun x hx => hk x (by simp [hx])) fun _ _ => Halts.pure _

end PyM

open PyM
variable {σ G : Type} {I : σ → Prop}

/-- `c`, called with an admissible argument, answers as it should and ends. -/
structure HaltsAs (I : σ → Prop) (c : Child σ) (P : Val → Prop) : Prop where
  contract : Contract I c P
  halts : ∀ arg, ArgOK arg → Halts I (c arg)

theorem emitterCallOr_halts {bad : Val → PyM σ Val} {emit : PyM σ Val}
    {emitMany : Int → PyM σ (List Val)} (hb : ∀ v : Val, v ≠ .none → v.asInt = none → Halts I (bad v))
    (h1 : Halts I emit) (h2 : ∀ n : Int, 0 ≤ n → n ≠ 1 → Halts I (emitMany n))
    {arg : Option Val} (ha : ArgOK arg) : Halts I (emitterCallOr bad emit emitMany arg) := by
  have hp : ∀ {α β : Type} {m : PyM σ α} (f : α → β), Halts I m →
      Halts I (m >>= fun a => Pure.pure (f a)) := by
    intro α β m f hm s hs
    rw [bind_apply]
    have := hm s hs
    rcases hms : m s with ⟨e | a, s'⟩
    · rw [hms] at this; exact Ended.error (this e rfl)
    · exact Ended.ok _
  have key : ∀ v : Val, v ≠ .none → v.AtLeast 0 → Halts I (match v.asInt with
      | none => bad v
      | some n => if n = 1 then (do return Val.list [← emit]) else (do return Val.list (← emitMany n)) :
        PyM σ Val) := by
    intro v hv' hv
    rcases hi : v.asInt with _ | n
    · exact hb v hv' hi
    · exact Halts.ite (fun _ => hp _ h1) fun hn => hp _ (h2 n (hv n hi) hn)
  rcases arg with _ | v
  · exact h1
  · cases v with
    | none => exact h1
    | _ => exact key _ (by simp) ha

theorem emitterCall_halts {emit : PyM σ Val} {emitMany : Int → PyM σ (List Val)}
    (h1 : Halts I emit) (h2 : ∀ n : Int, 0 ≤ n → n ≠ 1 → Halts I (emitMany n))
    {arg : Option Val} (ha : ArgOK arg) : Halts I (emitterCall emit emitMany arg) :=
  emitterCallOr_halts (fun _ _ _ => Halts.raise ordinary_of) h1 h2 ha

theorem Word.emitBad_halts {c : Child σ} {L : Val → Prop} (hc : HaltsAs I c L) (v : Val)
    (_ : v ≠ .none) (h : v.asInt = none) : Halts I (Word.emitBad c v) :=
  (hc.halts (some v) (argOK_bad h)).bind (hc.contract (some v) (argOK_bad h)) fun _ _ =>
    Halts.raise ordinary_of

/-! ### Word -/

theorem Word.halts {length alphabet : Child σ} {L A : Val → Prop} (hl : HaltsAs I length L)
    (ha : HaltsAs I alphabet A) (hL : ∀ v, L v → v.AtLeast 0) {arg : Option Val} (h : ArgOK arg) :
    Halts I (Word.call length alphabet arg) := by
  refine emitterCallOr_halts (Word.emitBad_halts hl) ?_ (fun n h0 _ => ?_) h
  · refine (hl.halts none trivial).bind (hl.contract none trivial) fun k hk => ?_
    refine (ha.halts (some k) (hL k hk)).bind (ha.contract (some k) (hL k hk)) fun cs _ => ?_
    exact Halts.lift_bind (elems_ended _) fun _ _ =>
      Halts.lift_bind (joinEmpty_ended _) fun _ _ => Halts.pure _
  · refine (hl.halts _ (argOK_int h0)).bind (hl.contract _ (argOK_int h0)) fun ls hls => ?_
    obtain ⟨l, rfl, hlen, hall⟩ := answers_int hls
    refine Halts.lift_bind (elems_ended _) fun l' e => ?_
    cases e
    refine Halts.lift_bind (sumInts_ended _) fun nt e => ?_
    obtain ⟨ns, t⟩ := nt
    obtain ⟨hf, rfl⟩ := sumInts_ok e
    have ht : 0 ≤ ns.sum := by
      have := (sum_atLeast hL hf hall).2.1
      simpa using this
    refine (ha.halts _ (argOK_int ht)).bind (ha.contract _ (argOK_int ht)) fun cs _ => ?_
    exact Halts.lift_bind (elems_ended _) fun _ _ => Halts.lift (partition_ended _ _ _)

/-! ### Text -/

/-- The same for a word emitter. -/
structure WordHalts (I : σ → Prop) (w : Text.WordChild σ) (P : Val → Prop) : Prop where
  contract : WordContract I w P
  call : ∀ arg, ArgOK arg → Halts I (w.call arg)
  reset : Halts I w.reset
  roac : Halts I w.roac

namespace Text
variable {word : WordChild σ} {P : Val → Prop}

/-- Blocks have at least one word. -/
def WordsIter.Pos : WordsIter → Prop
  | .drawn _ => True
  | .blocks nu _ _ _ => 1 ≤ nu

theorem getWordsIterator_pos (hw : WordContract I word P) {total : Int} (ht : 0 ≤ total) :
    Ensures I (getWordsIterator word total) WordsIter.Pos := by
  unfold getWordsIterator
  have hall : Ensures I (do
      let ws ← word.call (some (.int total))
      return .drawn (← PyM.lift ws.elems) : PyM σ WordsIter) WordsIter.Pos :=
    Ensures.bind (hw.call _ (argOK_int ht)) fun ws hws =>
      Ensures.bind (Q := fun _ => True) (Ensures.lift fun _ _ => trivial) fun _ _ =>
        Ensures.pure trivial
  refine Ensures.bind hw.roac fun r hr => ?_
  rcases r with _ | D
  · exact hall
  · refine Ensures.ite (fun h => Ensures.pure ?_) fun h => hall
    have := hr D rfl
    change 1 ≤ D
    omega

theorem getWordsIterator_halts (hw : WordHalts I word P) {total : Int} (ht : 0 ≤ total) :
    Halts I (getWordsIterator word total) := by
  unfold getWordsIterator
  have hall : Halts I (do
      let ws ← word.call (some (.int total))
      return .drawn (← PyM.lift ws.elems) : PyM σ WordsIter) :=
    (hw.call _ (argOK_int ht)).bind (hw.contract.call _ (argOK_int ht)) fun ws _ =>
      Halts.lift_bind (elems_ended _) fun _ _ => Halts.pure _
  refine hw.roac.bind hw.contract.roac fun r _ => ?_
  rcases r with _ | D
  · exact hall
  · exact Halts.ite (fun _ => Halts.pure _) fun _ => hall

theorem nextBlock_pos (hw : WordContract I word P) {nu : Int} (hnu : 1 ≤ nu) (fuel : Nat) :
    ∀ rem, Ensures I (nextBlock word nu fuel rem) fun p => p.2.Pos := by
  induction fuel with
  | zero => intro rem; exact Ensures.raise _
  | succ fuel ih =>
    intro rem
    unfold nextBlock
    refine Ensures.ite (fun h => ?_) fun h => Ensures.raise _
    have hneed : 0 ≤ clamp nu none (some rem) := by
      unfold clamp
      simp only
      split <;> omega
    dsimp only
    refine Ensures.bind (hw.call _ (argOK_int hneed)) fun ws hws => ?_
    refine Ensures.bind (Q := fun _ => True) (Ensures.lift fun _ _ => trivial) fun y _ => ?_
    cases y with
    | nil => exact Ensures.bind hw.reset.ensures fun _ _ => ih _
    | cons v rest => exact Ensures.pure hnu

theorem nextWord_pos (hw : WordContract I word P) {wi : WordsIter} (h : wi.Pos) :
    Ensures I (nextWord word wi) fun p => p.2.Pos := by
  rcases wi with (_ | ⟨v, l⟩) | ⟨nu, rem, needed, _ | ⟨v, l⟩⟩
  · exact Ensures.raise _
  · exact Ensures.pure trivial
  · unfold nextWord
    refine Ensures.ite (fun _ => nextBlock_pos hw h _ _) fun _ => ?_
    exact Ensures.bind hw.reset.ensures fun _ _ => nextBlock_pos hw h _ _
  · exact Ensures.pure h

theorem nextBlock_halts (hw : WordHalts I word P) {nu : Int} (hnu : 1 ≤ nu) (fuel : Nat) :
    ∀ rem : Int, rem.toNat < fuel → Halts I (nextBlock word nu fuel rem) := by
  induction fuel with
  | zero => intro rem h; omega
  | succ fuel ih =>
    intro rem hf
    unfold nextBlock
    refine Halts.ite (fun h => ?_) fun h => Halts.raise ordinary_of
    have hneed : 1 ≤ clamp nu none (some rem) := by
      unfold clamp
      simp only
      split <;> omega
    dsimp only
    refine (hw.call _ (argOK_int (by omega))).bind (hw.contract.call _ (argOK_int (by omega)))
      fun ws _ => ?_
    refine Halts.lift_bind (elems_ended _) fun y _ => ?_
    cases y with
    | nil => exact hw.reset.bind' hw.contract.reset fun _ => ih _ (by omega)
    | cons v rest => exact Halts.pure _

theorem nextWord_halts (hw : WordHalts I word P) {wi : WordsIter} (h : wi.Pos) :
    Halts I (nextWord word wi) := by
  rcases wi with (_ | ⟨v, l⟩) | ⟨nu, rem, needed, _ | ⟨v, l⟩⟩
  · exact Halts.raise ordinary_of
  · exact Halts.pure _
  · unfold nextWord
    refine Halts.ite (fun _ => nextBlock_halts hw h _ _ (by omega)) fun _ => ?_
    exact hw.reset.bind' hw.contract.reset fun _ => nextBlock_halts hw h _ _ (by omega)
  · exact Halts.pure _

theorem renderRest_pos (hw : WordContract I word P) : ∀ (k : Nat) {wi : WordsIter} (seps : List Val),
    wi.Pos → Ensures I (renderRest word k wi seps) fun p => p.2.1.Pos
  | 0, _, _, h => Ensures.pure h
  | k + 1, _, seps, h => by
    refine Ensures.bind (nextWord_pos hw h) fun p hp => ?_
    exact Ensures.bind (renderRest_pos hw k _ hp) fun q hq => Ensures.pure hq

theorem renderRest_halts (hw : WordHalts I word P) : ∀ (k : Nat) {wi : WordsIter} (seps : List Val),
    wi.Pos → Halts I (renderRest word k wi seps)
  | 0, _, _, _ => Halts.pure _
  | k + 1, _, seps, h => by
    refine (nextWord_halts hw h).bind (nextWord_pos hw.contract h) fun p hp => ?_
    exact (renderRest_halts hw k _ hp).bind (renderRest_pos hw.contract k _ hp) fun q _ => Halts.pure _

theorem renderAll_pair (hw : WordHalts I word P) : ∀ (ns : List Int) {wi : WordsIter}
    (seps : List Val), wi.Pos → Halts I (renderAll word ns wi seps) ∧
      Keeps I (renderAll word ns wi seps)
  | [], _, _, _ => ⟨Halts.pure _, Keeps.pure _ _⟩
  | n :: ns, wi, seps, h => by
    unfold renderAll
    by_cases hn : n = 0
    · rw [if_pos hn]; exact renderAll_pair hw ns seps h
    · rw [if_neg hn]
      constructor
      · refine (nextWord_halts hw h).bind (nextWord_pos hw.contract h) fun p hp => ?_
        refine (renderRest_halts hw _ _ hp).bind (renderRest_pos hw.contract _ _ hp) fun q hq => ?_
        refine Halts.lift_bind (joinEmpty_ended _) fun t _ => ?_
        exact (renderAll_pair hw ns _ hq).1.bind' (renderAll_pair hw ns _ hq).2 fun _ => Halts.pure _
      · refine (Ensures.bind (T := fun _ => True) (nextWord_pos hw.contract h) fun p hp => ?_).keeps
        refine Ensures.bind (renderRest_pos hw.contract _ _ hp) fun q hq => ?_
        refine Ensures.bind (Q := fun _ => True) (Ensures.lift fun _ _ => trivial) fun t _ => ?_
        exact Ensures.bind (renderAll_pair hw ns _ hq).2.ensures fun _ _ => Ensures.pure trivial

theorem emitMany_halts {numwords sep : Child σ} {N S : Val → Prop} (hn : HaltsAs I numwords N)
    (hw : WordHalts I word P) (hs : HaltsAs I sep S) (hN : ∀ v, N v → v.AtLeast 1) {n : Int}
    (h0 : 0 ≤ n) : Halts I (emitMany numwords word sep n) := by
  refine (hn.halts _ (argOK_int h0)).bind (hn.contract _ (argOK_int h0)) fun ls hls => ?_
  obtain ⟨l, rfl, hlen, hall⟩ := answers_int hls
  refine Halts.lift_bind (elems_ended _) fun l' e => ?_
  cases e
  refine Halts.lift_bind (sumInts_ended _) fun nt e => ?_
  obtain ⟨ns, t⟩ := nt
  obtain ⟨hf, rfl⟩ := sumInts_ok e
  have ht := (sum_atLeast hN hf hall).2.1
  have h1 : 0 ≤ ns.sum := by omega
  have h2 : 0 ≤ ns.sum - n := by omega
  refine (getWordsIterator_halts hw h1).bind (getWordsIterator_pos hw.contract h1) fun wi hwi => ?_
  refine (hs.halts _ (argOK_int h2)).bind (hs.contract _ (argOK_int h2)) fun ss _ => ?_
  exact Halts.lift_bind (elems_ended _) fun _ _ => (renderAll_pair hw ns _ hwi).1

theorem halts {numwords sep : Child σ} {N S : Val → Prop} (hn : HaltsAs I numwords N)
    (hw : WordHalts I word P) (hs : HaltsAs I sep S) (hN : ∀ v, N v → v.AtLeast 1)
    {arg : Option Val} (h : ArgOK arg) : Halts I (Text.call numwords word sep arg) := by
  refine emitterCallOr_halts (Word.emitBad_halts hn) ?_ (fun n h0 _ => emitMany_halts hn hw hs hN h0) h
  exact (emitMany_halts hn hw hs hN (by omega)).bind
    (emitMany_ensures hn.contract hw.contract hs.contract hN (Q := fun _ => True)
      (fun _ _ => trivial) 1 (by omega)) fun l _ => Halts.lift (pyListGet_ended _ _)

end Text

/-! ### Wrappers -/

theorem Callback.call_halts {L : Attr σ G} {cb : Callback G} (h : cb.Ends) (args : List Val)
    (kwargs : Dict Val) : Halts I (cb.call L args kwargs) := by
  unfold Callback.call
  refine Halts.ite (fun _ => Halts.raise ordinary_of) fun _ => ?_
  refine Halts.ite (fun _ => ?_) fun _ => ?_
  · intro s hs
    unfold Attr.run Callback.invokeRng
    dsimp only
    by_cases h1 : "rng" ∈ kwargs.keys
    · rw [if_pos h1]; exact Ended.error ordinary_of
    · rw [if_neg h1]
      by_cases h2 : cb.accepts args.length (kwargs.keys ++ ["rng"]) = true
      · rw [if_pos h2]; exact h.2 _ _ _
      · rw [if_neg h2]; exact Ended.error ordinary_of
  · unfold Callback.invoke
    exact Halts.lift (Ended.ite (h.1 _ _) (Ended.error ordinary_of))

theorem Callback.call_keeps {L : Attr σ G} (hL : ∀ s g, I s → I (L.set g s)) (cb : Callback G)
    (args : List Val) (kwargs : Dict Val) : Ensures I (cb.call L args kwargs) fun _ => True :=
  cb.call_ensures hL ⟨fun _ _ => trivial, fun _ _ _ => trivial⟩

theorem WrapOne.halts {L : Attr σ G} (hL : ∀ s g, I s → I (L.set g s)) {src : Child σ}
    {cb : Callback G} {S : Val → Prop} (hs : HaltsAs I src S) (hcb : cb.Ends) {arg : Option Val}
    (h : ArgOK arg) : Halts I (WrapOne.call L src cb arg) := by
  refine emitterCallOr_halts (Word.emitBad_halts hs) ?_ (fun n h0 _ => ?_) h
  · exact (hs.halts none trivial).bind (hs.contract none trivial) fun v _ =>
      Callback.call_halts hcb _ _
  · refine (hs.halts _ (argOK_int h0)).bind (hs.contract _ (argOK_int h0)) fun vs _ => ?_
    exact Halts.lift_bind (elems_ended _) fun _ _ => mapPyM_halts
      (fun v _ => Callback.call_halts hcb _ _) fun v _ => cb.call_keeps hL _ _

theorem WrapMany.halts {L : Attr σ G} (hL : ∀ s g, I s → I (L.set g s)) {srcs : Dict (Child σ)}
    {cb : Callback G} (hs : ∀ kc ∈ srcs, ∃ S, HaltsAs I kc.2 S) (hcb : cb.Ends) {arg : Option Val}
    (h : ArgOK arg) : Halts I (WrapMany.call L srcs cb arg) := by
  have hd : ∀ arg, ArgOK arg → Halts I (WrapMany.draw srcs arg) ∧
      Ensures I (WrapMany.draw srcs arg) fun _ => True := by
    intro arg ha
    have he : ∀ kc ∈ srcs, Ensures I (do return (kc.1, ← kc.2 arg) : PyM σ (String × Val))
        fun _ => True := fun kc hkc => by
      obtain ⟨S, hS⟩ := hs kc hkc
      exact Ensures.bind (hS.contract arg ha) fun _ _ => Ensures.pure trivial
    refine ⟨mapPyM_halts (fun kc hkc => ?_) he, (mapPyM_ensures he).mono fun _ _ => trivial⟩
    obtain ⟨S, hS⟩ := hs kc hkc
    exact (hS.halts arg ha).bind (hS.contract arg ha) fun _ _ => Halts.pure _
  refine emitterCallOr_halts (fun v _ hv => (hd _ (argOK_bad hv)).1.bind (hd _ (argOK_bad hv)).2
    fun _ _ => Halts.raise ordinary_of) ?_ (fun n h0 _ => ?_) h
  · exact (hd none trivial).1.bind (hd none trivial).2 fun _ _ => Callback.call_halts hcb _ _
  · refine (hd _ (argOK_int h0)).1.bind (hd _ (argOK_int h0)).2 fun _ _ => ?_
    refine mapPyM_halts (Q := fun _ => True) (fun i _ => Halts.lift_bind (row_ended _ _) fun _ _ =>
      Callback.call_halts hcb _ _) fun i _ => ?_
    exact Ensures.bind (Q := fun _ => True) (Ensures.lift fun _ _ => trivial) fun _ _ =>
      cb.call_keeps hL _ _

/-! ### Emitters based on fields -/

theorem CopyFields.halts (str : Val → List Char) (g : SourceGroup σ) (sep : Option (List Char))
    {arg : Option Val} (h : ArgOK arg) : Halts I (CopyFields.call str g sep arg) := by
  have h1 : Halts I (CopyFields.emit str g sep) := by
    intro s hs
    unfold CopyFields.emit
    rw [run_get_bind]
    by_cases hv : g.singleValued s = true
    · rw [if_pos hv]
      rcases g.fields with _ | ⟨f, fs⟩
      · exact Ended.error ordinary_of
      · exact Ended.ok _
    · rw [if_neg hv]
      rcases sep with _ | sp
      · exact Halts.ite (fun _ => Halts.pure _) (fun _ => Halts.pure _) s hs
      · exact Ended.ok _
  have h2 : Ensures I (CopyFields.emit str g sep) fun _ => True := by
    have := CopyFields.contract (I := I) str g sep (P := fun _ => True) (fun _ => trivial) none trivial
    exact this
  exact emitterCallOr_halts (fun _ _ _ => h1.bind h2 fun _ _ => Halts.raise ordinary_of) h1
    (fun n h0 _ => h1.bind h2 fun _ _ => Halts.pure _) h

theorem BasedOnFields.halts {L : Attr σ G} (hL : ∀ s g, I s → I (L.set g s)) (g : SourceGroup σ)
    {cb : Callback G} (hcb : cb.Ends) {arg : Option Val} (h : ArgOK arg) :
    Halts I (BasedOnFields.call L g cb arg) := by
  have h1 : Halts I (BasedOnFields.emit L g cb) := by
    intro s hs
    unfold BasedOnFields.emit
    rw [run_get_bind]
    rcases g.fields with _ | ⟨f, _ | ⟨f', fs⟩⟩ <;> exact Callback.call_halts hcb _ _ s hs
  have h2 : Ensures I (BasedOnFields.emit L g cb) fun _ => True := by
    have := BasedOnFields.contract (I := I) hL g (cb := cb) (P := fun _ => True)
      (fun _ _ => ⟨fun _ _ => trivial, fun _ _ _ => trivial⟩) none trivial
    exact this
  exact emitterCallOr_halts (fun _ _ _ => h1.bind h2 fun _ _ => Halts.raise ordinary_of) h1
    (fun n h0 _ => h1.bind h2 fun _ _ => Halts.pure _) h

theorem Field.halts {cache : Attr σ Val} {emitter rep gate : Child σ} {E N T : Val → Prop}
    (he : HaltsAs I emitter E) (hr : HaltsAs I rep N) (hg : HaltsAs I gate T)
    (hN : ∀ v, N v → v.AtLeast 0) : Halts I (Field.call cache emitter rep gate) := by
  have hset : ∀ v w, Halts I (PyM.modify (cache.set v) >>= fun _ => pure w : PyM σ Val) :=
    fun v w s hs => Ended.ok _
  refine (hg.halts none trivial).bind (hg.contract none trivial) fun t _ => ?_
  refine Halts.ite (fun _ => ?_) fun _ => hset _ _
  refine (hr.halts none trivial).bind (hr.contract none trivial) fun n hn => ?_
  exact (he.halts (some n) (hN n hn)).bind (he.contract (some n) (hN n hn)) fun v _ => hset _ _

/-! ### Fixed values -/

namespace Iterative
variable {α : Type}

/-- There is something to iterate over. -/
def FedSt (s : IterSt α) : Prop := s.factory.src.Some

theorem nextItem_fed : Keeps (FedSt (α := α)) nextItem := by
  intro s hs
  unfold nextItem
  rcases s.cur.next with _ | ⟨a, r⟩
  · dsimp only
    rcases s.factory.src.next with _ | ⟨a, r⟩
    · exact hs
    · exact hs
  · exact hs

theorem nextItem_halts : Halts (FedSt (α := α)) nextItem := by
  intro s hs
  unfold nextItem
  rcases s.cur.next with _ | ⟨a, r⟩
  · dsimp only
    rcases h : s.factory.src with (_ | ⟨x, l⟩) | f
    · exact absurd (show (Src.fin [] : Src α).Some from h ▸ hs) (by simp [Src.Some])
    · exact Ended.ok _
    · exact Ended.ok _
  · exact Ended.ok _

theorem takeItems_fed : ∀ n, Keeps (FedSt (α := α)) (takeItems n)
  | 0 => Keeps.pure _ _
  | n + 1 => nextItem_fed.bind fun _ => (takeItems_fed n).bind fun _ => Keeps.pure _ _

theorem takeItems_halts : ∀ n, Halts (FedSt (α := α)) (takeItems n)
  | 0 => Halts.pure _
  | n + 1 => nextItem_halts.bind' nextItem_fed fun _ =>
      (takeItems_halts n).bind' (takeItems_fed n) fun _ => Halts.pure _

theorem afterCall_halts {β : Type} (b : β) :
    Halts (FedSt (α := α)) (afterCall >>= fun _ => pure b) := by
  intro s hs
  unfold afterCall
  rw [bind_apply, run_get_bind]
  by_cases h : s.resetAfterCall = true
  · rw [if_pos h]; exact Ended.ok _
  · rw [if_neg h]; exact Ended.ok _

theorem emit_halts : Halts (FedSt (α := α)) emit :=
  nextItem_halts.bind' nextItem_fed fun _ => afterCall_halts _

theorem emitMany_halts (n : Int) : Halts (FedSt (α := α)) (emitMany n) :=
  Halts.ite (fun _ => Halts.raise ordinary_of) fun _ =>
    (takeItems_halts _).bind' (takeItems_fed _) fun _ => afterCall_halts _

end Iterative

theorem attr_halts {I : σ → Prop} {J : G → Prop} {L : Attr σ G} (hJ : ∀ s, I s → J (L.get s))
    {bad : Val → PyM σ Val} {emit : PyM G Val} {emitMany : Int → PyM G (List Val)}
    (hb : ∀ v, Halts I (bad v)) (h1 : Halts J emit)
    (h2 : ∀ n, Halts J (emitMany n)) {arg : Option Val} (h : ArgOK arg) :
    Halts I (emitterCallOr bad (L.run emit) (fun n => L.run (emitMany n)) arg) :=
  emitterCallOr_halts (fun v _ _ => hb v) (fun s hs => h1 (L.get s) (hJ s hs))
    (fun n _ _ s hs => h2 n (L.get s) (hJ s hs)) h

end Fauxdoc
