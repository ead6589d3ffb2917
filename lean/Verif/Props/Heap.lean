import Verif.Props.Contract
import Verif.Props.Text3
import Verif.Props.Seeds3
/-
Words and texts whose children are objects of the store: C30, C32 and C35 for every emitter graph.
-/
set_option linter.unusedSectionVars false
namespace Fauxdoc
open PyM World
variable {K : Type} [Field K] [LinearOrder K] [FloorRing K] {R : Rng K}

/-! ### Children and sources -/

/-- `c` is a child emitter of an object of this class: the constructor's emitter arguments. -/
inductive ChildOf : Node → Ref → Prop
  | wordLength (l c : Ref) : ChildOf (.word l c) l
  | wordAlphabet (l c : Ref) : ChildOf (.word l c) c
  | textCounts (n w s : Ref) : ChildOf (.text n w s) n
  | textWords (n w s : Ref) : ChildOf (.text n w s) w
  | textSeps (n w s : Ref) : ChildOf (.text n w s) s
  | wrapped (s : Ref) : ChildOf (.wrapOne s) s
  | oneOf {ss : Dict Ref} {k : String} {c : Ref} (h : (k, c) ∈ ss) : ChildOf (.wrapMany ss) c
  | fieldData (n : String) (e r g : Ref) (h : Bool) : ChildOf (.field n e r g h) e
  | fieldRepeat (n : String) (e r g : Ref) (h : Bool) : ChildOf (.field n e r g h) r
  | fieldGate (n : String) (e r g : Ref) (h : Bool) : ChildOf (.field n e r g h) g

theorem children_iff (a : Attrs R) (c : Ref) :
    c ∈ a.children ↔ ∃ n, a.node = some n ∧ ChildOf n c := by
  unfold Attrs.children
  constructor
  · intro h
    rcases hn : a.node with _ | node
    · rw [hn] at h; cases h
    · rw [hn] at h
      refine ⟨node, rfl, ?_⟩
      cases node with
      | word l c => simp [Node.childRefs] at h; rcases h with rfl | rfl <;> constructor
      | text n w s => simp [Node.childRefs] at h; rcases h with rfl | rfl | rfl <;> constructor
      | wrapOne s => simp [Node.childRefs] at h; subst h; constructor
      | wrapMany ss =>
        simp only [Node.childRefs, List.mem_map] at h
        obtain ⟨⟨k, c'⟩, h, rfl⟩ := h
        exact .oneOf h
      | field n e r g hd => simp [Node.childRefs] at h; rcases h with rfl | rfl | rfl <;> constructor
      | _ => cases h
  · rintro ⟨n, hn, h⟩
    rw [hn]
    cases h with
    | oneOf h => exact List.mem_map.2 ⟨_, h, rfl⟩
    | _ => simp [Node.childRefs]

/-- The source fields are those given to the constructor of `CopyFields` or `BasedOnFields`. -/
theorem sources_iff (a : Attrs R) (g : Ref) :
    g ∈ a.sources ↔ ∃ src, g ∈ src ∧ ((∃ single sep, a.node = some (.copyFields src single sep)) ∨
      ∃ single, a.node = some (.basedOn src single)) := by
  unfold Attrs.sources
  constructor
  · intro h
    rcases hn : a.node with _ | node
    · rw [hn] at h; cases h
    · rw [hn] at h
      cases node with
      | copyFields src single sep => exact ⟨src, h, .inl ⟨_, _, rfl⟩⟩
      | basedOn src single => exact ⟨src, h, .inr ⟨_, rfl⟩⟩
      | _ => cases h
  · rintro ⟨src, hg, ⟨single, sep, hn⟩ | ⟨single, hn⟩⟩ <;> · rw [hn]; exact hg

/-! ### Calls by class -/

namespace World
variable (str : Val → List Char) (fuel : Nat) {r : Ref} (arg : Option Val) {w : World R}

theorem call_word {l c : Ref} (hn : (w.obj r).node = some (.word l c)) :
    call str (fuel + 1) r arg w = Word.call (call str fuel l) (call str fuel c) arg w := by
  conv_lhs => unfold call
  rw [run_get_bind, hn]

/-- The word emitter of a `Text`. -/
def wordsOf (str : Val → List Char) (fuel : Nat) (wd : Ref) : Text.WordChild (World R) :=
  ⟨call str fuel wd, reset fuel wd, roacInfo wd⟩

theorem call_text {n wd s : Ref} (hn : (w.obj r).node = some (.text n wd s)) :
    call str (fuel + 1) r arg w =
      Text.call (call str fuel n) (wordsOf str fuel wd) (call str fuel s) arg w := by
  conv_lhs => unfold call
  rw [run_get_bind, hn]
  rfl

end World

/-! ### C30 -/

theorem WordsOf.unique {ns : List Nat} {cs ws ws' : List (List Char)} (h : WordsOf ns cs ws)
    (h' : WordsOf ns cs ws') : ws' = ws := by
  induction h generalizing ws' with
  | nil => cases h'; rfl
  | @cons ns cs cs' ts hs ih =>
    generalize hk : cs.length = k at h'
    generalize hc : cs ++ cs' = d at h'
    cases h' with
    | @cons _ es es' ts' hs' =>
      obtain ⟨rfl, rfl⟩ := List.append_inj hc hk
      rw [ih hs']

/-- **C30 (store, single word).** `word()` draws one length from its length emitter, then that many
characters from its alphabet emitter, and joins them. -/
theorem C30_store_one (str : Val → List Char) (fuel : Nat) {r l c : Ref} {w : World R}
    (hn : (w.obj r).node = some (.word l c)) (v : Val) (w' : World R) :
    World.call str (fuel + 1) r none w = (.ok v, w') ↔
      ∃ k w1 cv, ∃ cs : List (List Char), World.call str fuel l none w = (.ok k, w1) ∧
        World.call str fuel c (some k) w1 = (.ok cv, w') ∧ cv.elems = .ok (cs.map Val.str) ∧
        v = .str cs.flatten := by
  rw [call_word str fuel none hn]
  constructor
  · intro h
    change Word.emit _ _ w = _ at h
    have h0 := h
    unfold Word.emit at h
    obtain ⟨k, w1, h1, h⟩ := bind_eq_ok h
    obtain ⟨cv, w2, h2, h⟩ := bind_eq_ok h
    obtain ⟨l', w3, h3, h⟩ := bind_eq_ok h
    rw [lift_apply, Prod.mk.injEq] at h3
    obtain ⟨h3, rfl⟩ := h3
    obtain ⟨j, w4, h4, h⟩ := bind_eq_ok h
    rw [lift_apply, Prod.mk.injEq] at h4
    obtain ⟨h4, rfl⟩ := h4
    rw [pure_apply, Prod.mk.injEq, Except.ok.injEq] at h
    obtain ⟨rfl, rfl⟩ := h
    obtain ⟨cs, rfl⟩ : ∃ cs : List (List Char), l' = cs.map Val.str := by
      apply all_isStr
      clear * - h4
      unfold joinEmpty at h4
      obtain ⟨ls, h5, -⟩ := Py.bind_eq_ok h4
      rw [mapPy_ok_iff] at h5
      clear h4
      induction h5 with
      | nil => simp
      | @cons x y _ _ hx _ ih =>
        intro z hz
        rcases List.mem_cons.1 hz with rfl | hz
        · cases z with
          | str s => exact ⟨s, rfl⟩
          | _ => cases hx
        · exact ih z hz
    rw [joinEmpty_strs] at h4
    cases h4
    exact ⟨k, w1, cv, cs, h1, h2, h3, rfl⟩
  · rintro ⟨k, w1, cv, cs, h1, h2, h3, rfl⟩
    exact C30_emit _ _ h1 h2 h3

/-- **C30 (store, batch).** Let everything below a `Word` object do its part, and its alphabet emit
strings.  Then `word(n)` draws `n` lengths in one call, as many characters as they sum up to in one
call, and makes one word per length of them, using each character exactly once and in order.
(`word(1)` is `[word()]`.) -/
theorem C30_store_many [IsStrictOrderedRing K] (str : Val → List Char) (fuel : Nat)
    {V : Ref → Val → Prop} {P : Ref → Prop} {r l c : Ref} {w : World R} (ht : TypedOn V P w)
    (hr : P r) (hn : (w.obj r).node = some (.word l c)) (hc : ∀ v, V c v → IsStr v)
    (n : Nat) (hn1 : n ≠ 1) (v : Val) (w' : World R) :
    World.call str (fuel + 1) r (some (.int n)) w = (.ok v, w') ↔
      ∃ lens ns w1 cs ws, World.call str fuel l (some (.int n)) w = (.ok (.list lens), w1) ∧
        AreCounts lens ns ∧ ns.length = n ∧
        World.call str fuel c (some (.int ns.sum)) w1 = (.ok (.list (cs.map Val.str)), w') ∧
        cs.length = ns.sum ∧ WordsOf ns cs ws ∧ v = .list (ws.map Val.str) := by
  have hl : P l := (ht r hr).2 l ((children_iff _ _).2 ⟨_, hn, .wordLength l c⟩)
  have hcP : P c := (ht r hr).2 c ((children_iff _ _).2 ⟨_, hn, .wordAlphabet l c⟩)
  have hpos : ∀ v, V l v → v.AtLeast 0 := by
    have := (ht r hr).1
    unfold Attrs.Typed at this
    rw [hn] at this
    exact this.2
  rw [call_word str fuel _ hn]
  have hcall : Word.call (World.call str fuel l) (World.call str fuel c) (some (.int n)) w =
      ((Word.emitMany (World.call str fuel l) (World.call str fuel c) n) >>= fun ws =>
        pure (Val.list ws)) w := by
    change (if (n : Int) = 1 then (do return Val.list [← Word.emit _ _])
      else (do return Val.list (← Word.emitMany _ _ n)) : PyM _ Val) w = _
    rw [if_neg (by omega)]
  rw [hcall]
  constructor
  · intro h
    obtain ⟨l0, w0, hm, h'⟩ := bind_eq_ok h
    rw [pure_apply, Prod.mk.injEq, Except.ok.injEq] at h'
    obtain ⟨rfl, rfl⟩ := h'
    have h0 := hm
    unfold Word.emitMany at hm
    obtain ⟨lv, w1, h1, hm⟩ := bind_eq_ok hm
    obtain ⟨⟨lens, rfl, hlen, hlens⟩, ht1⟩ := (call_typed str fuel l hl).emitterOf.many _ _ _ _ ht h1
    obtain ⟨ls, w2, h2, hm⟩ := bind_eq_ok hm
    cases h2
    obtain ⟨⟨is, tot⟩, w3, h3, hm⟩ := bind_eq_ok hm
    rw [lift_apply, Prod.mk.injEq] at h3
    obtain ⟨h3, rfl⟩ := h3
    obtain ⟨h4, rfl⟩ := sumInts_ok h3
    obtain ⟨h5, _, h6⟩ := sum_atLeast hpos h4 hlens
    obtain ⟨ns, rfl⟩ : ∃ ns : List Nat, is = ns.map fun (n : Nat) => (n : Int) := by
      refine ⟨is.map Int.toNat, ?_⟩
      rw [List.map_map]
      conv_lhs => rw [← List.map_id is]
      refine List.map_congr_left fun i hi => ?_
      have := h5 i hi
      simp [this]
    have hns : AreCounts lens ns := by
      unfold AreCounts
      rw [← List.forall₂_eq_eq_eq, List.forall₂_map_left_iff, List.forall₂_map_right_iff]
      rw [List.forall₂_map_right_iff] at h4
      exact h4
    have hsum : (ns.map fun (n : Nat) => (n : Int)).sum = (ns.sum : Int) := by simp
    dsimp only at hm
    rw [hsum] at hm
    obtain ⟨cv, w4, h7, hm⟩ := bind_eq_ok hm
    obtain ⟨⟨chars, rfl, hcl, hchars⟩, _⟩ := (call_typed str fuel c hcP).emitterOf.many _ _ _ _ ht1 h7
    obtain ⟨cs, rfl⟩ := all_isStr fun x hx => hc x (hchars x hx)
    rw [List.length_map] at hcl
    obtain ⟨ws, h8, h9⟩ := C30_emit_many _ _ (n : Int) h1 rfl hns h7 rfl hcl
    rw [h0] at h8
    cases h8
    exact ⟨lens, ns, w1, cs, ws, h1, hns, by simpa using h6.trans hlen, h7, hcl, h9, rfl⟩
  · rintro ⟨lens, ns, w1, cs, ws, h1, hns, hlen, h2, hcs, hws, rfl⟩
    obtain ⟨ws', h3, h4⟩ := C30_emit_many _ _ (n : Int) h1 rfl hns h2 rfl hcs
    rw [bind_ok h3, hws.unique h4]
    rfl

/-! ### C32 -/

/-- The emitted values are integers that are at least 1. -/
def IsPositive (v : Val) : Prop := ∃ k : Nat, 1 ≤ k ∧ v = .int k

section
variable [IsStrictOrderedRing K]

theorem WordContract.emitterOf {σ : Type} {I : σ → Prop} {word : Text.WordChild σ} {P : Val → Prop}
    (h : WordContract I word P) : WordEmitterOf I word P where
  call := h.call.emitterOf
  reset s t hI e := by have := h.reset s hI; rw [e] at this; exact this
  roac s r t hI e := by
    have := h.roac s hI
    unfold EnsuresAt at this
    rw [e] at this
    exact ⟨this.1, this.2 r rfl⟩

theorem EmitterOf.mono {σ : Type} {I : σ → Prop} {c : Child σ} {P Q : Val → Prop}
    (h : EmitterOf I c P) (hPQ : ∀ v, P v → Q v) : EmitterOf I c Q where
  one s v t hI e := ⟨hPQ v (h.one s v t hI e).1, (h.one s v t hI e).2⟩
  none s v t hI e := ⟨hPQ v (h.none s v t hI e).1, (h.none s v t hI e).2⟩
  many n s v t hI e := by
    obtain ⟨⟨l, h1, h2, h3⟩, h4⟩ := h.many n s v t hI e
    exact ⟨⟨l, h1, h2, fun x hx => hPQ x (h3 x hx)⟩, h4⟩

/-- The word emitter of a `Text`, as an object of the store, meets the contract. -/
theorem wordsOf_contract (str : Val → List Char) (fuel : Nat) {V : Ref → Val → Prop}
    {P : Ref → Prop} {wd : Ref} (hwd : P wd) :
    WordContract (TypedOn (R := R) V P) (wordsOf str fuel wd) (V wd) := by
  refine ⟨call_typed str fuel wd hwd, reset_typed fuel wd hwd, ?_⟩
  refine Ensures.get_bind fun v hv => ?_
  rcases hnv : (v.obj wd).node with _ | node
  · exact ⟨hv, fun a ha => by cases ha; simp⟩
  · cases node with
    | choice k =>
      refine onChoice_ensures hv hnv hwd fun s hs => ?_
      refine ⟨?_, fun r h D hD => Choice.roacInfo_ensures s r h D hD⟩
      rw [Choice.roacInfo_state]; exact hs
    | _ => exact ⟨hv, fun a ha => by cases ha; simp⟩

theorem wordsOf_strs (str : Val → List Char) (fuel : Nat) {V : Ref → Val → Prop}
    {P : Ref → Prop} {wd : Ref} (hwd : P wd) (hword : ∀ v, V wd v → IsStr v) :
    WordEmitterOf (TypedOn (R := R) V P) (wordsOf str fuel wd) IsStr :=
  have h := (wordsOf_contract (R := R) (V := V) str fuel hwd).emitterOf
  ⟨h.call.mono hword, h.reset, h.roac⟩

theorem TextsOf.length_eq {ns : List Nat} {ws ss ts : List (List Char)} (h : TextsOf ns ws ss ts) :
    ts.length = ns.length := by
  induction h with
  | nil => rfl
  | cons _ _ ih => simp [ih]

/-- `text(k)` is the list `emit_many(k)` gives, also for `k = 1`. -/
theorem text_emitMany {σ : Type} {numwords sep : Child σ} {word : Text.WordChild σ}
    {I : σ → Prop} (hn : EmitterOf I numwords IsPositive)
    (hw : WordEmitterOf I word IsStr) (hs : EmitterOf I sep IsStr)
    (k : Nat) {s t : σ} {v : Val} (hI : I s)
    (h : Text.call numwords word sep (some (.int k)) s = (.ok v, t)) :
    ∃ l, Text.emitMany numwords word sep k s = (.ok l, t) ∧ v = .list l := by
  change (if (k : Int) = 1 then (do return Val.list [← Text.emit _ _ _])
    else (do return Val.list (← Text.emitMany _ _ _ k)) : PyM _ Val) s = _ at h
  by_cases hk : (k : Int) = 1
  · rw [if_pos hk] at h
    obtain ⟨x, s1, h1, h2⟩ := bind_eq_ok h
    rw [pure_apply, Prod.mk.injEq, Except.ok.injEq] at h2
    obtain ⟨rfl, rfl⟩ := h2
    unfold Text.emit at h1
    obtain ⟨l, s2, h2, h3⟩ := bind_eq_ok h1
    rw [lift_apply, Prod.mk.injEq] at h3
    obtain ⟨h3, rfl⟩ := h3
    obtain rfl : k = 1 := by omega
    obtain ⟨cnts, w1, ns, ws, ss, ts, e1, e2, e3, _, e4, rfl, e5⟩ := C32_returned hn hw hs 1 hI h2
    obtain ⟨y, rfl⟩ := List.length_eq_one_iff.1 (e5.length_eq.trans e3)
    have : pyListGet ([Val.str y]) 0 = .ok x := by simpa using h3
    cases this
    exact ⟨_, h2, rfl⟩
  · rw [if_neg hk] at h
    obtain ⟨l, s1, h1, h2⟩ := bind_eq_ok h
    rw [pure_apply, Prod.mk.injEq, Except.ok.injEq] at h2
    obtain ⟨rfl, rfl⟩ := h2
    exact ⟨l, h1, rfl⟩

/-- **C32 (store, batch).** Let everything below a `Text` object do its part, its word counts be at
least 1, and its words and separators be strings.  Whenever `text(n)` returns, it has
drawn `n` word counts in one call, then words and separators as documented (`Draws`), and consists of
one text per count, text `i` having the `i`-th number of words with separators between them; every
drawn word and every drawn separator is used exactly once and in order. -/
theorem C32_store_many (str : Val → List Char) (fuel : Nat)
    {V : Ref → Val → Prop} {P : Ref → Prop} {r n wd s : Ref} {w : World R} (ht : TypedOn V P w)
    (hr : P r) (hn : (w.obj r).node = some (.text n wd s)) (hcnt : ∀ v, V n v → IsPositive v)
    (hword : ∀ v, V wd v → IsStr v) (hsep : ∀ v, V s v → IsStr v) (k : Nat) (v : Val)
    (w' : World R) (h : World.call str (fuel + 1) r (some (.int k)) w = (.ok v, w')) :
    ∃ cnts w1 ns ws ss ts, World.call str fuel n (some (.int k)) w = (.ok (.list cnts), w1) ∧
      AreCounts cnts ns ∧ ns.length = k ∧
      Draws (wordsOf str fuel wd) (World.call str fuel s) ns.sum (ns.sum - k) w1 w' ws ss ∧
      TextsOf ns ws ss ts ∧ v = .list (ts.map Val.str) := by
  have hnP : P n := (ht r hr).2 n ((children_iff _ _).2 ⟨_, hn, .textCounts n wd s⟩)
  have hwP : P wd := (ht r hr).2 wd ((children_iff _ _).2 ⟨_, hn, .textWords n wd s⟩)
  have hsP : P s := (ht r hr).2 s ((children_iff _ _).2 ⟨_, hn, .textSeps n wd s⟩)
  rw [call_text str fuel _ hn] at h
  obtain ⟨l, h1, rfl⟩ := text_emitMany ((call_typed str fuel n hnP).emitterOf.mono hcnt)
    (wordsOf_strs str fuel hwP hword) ((call_typed str fuel s hsP).emitterOf.mono hsep) k ht h
  obtain ⟨cnts, w1, ns, ws, ss, ts, e1, e2, e3, _, e4, rfl, e5⟩ :=
    C32_returned ((call_typed str fuel n hnP).emitterOf.mono hcnt)
      (wordsOf_strs str fuel hwP hword)
      ((call_typed str fuel s hsP).emitterOf.mono hsep) k ht h1
  exact ⟨cnts, w1, ns, ws, ss, ts, e1, e2, e3, e4, e5, rfl⟩

/-- **C32 (store, single text).** `text()` draws one count, then its words and separators, and
consists of exactly these. -/
theorem C32_store_one (str : Val → List Char) (fuel : Nat)
    {V : Ref → Val → Prop} {P : Ref → Prop} {r n wd s : Ref} {w : World R} (ht : TypedOn V P w)
    (hr : P r) (hn : (w.obj r).node = some (.text n wd s)) (hcnt : ∀ v, V n v → IsPositive v)
    (hword : ∀ v, V wd v → IsStr v) (hsep : ∀ v, V s v → IsStr v) (v : Val)
    (w' : World R) (h : World.call str (fuel + 1) r none w = (.ok v, w')) :
    ∃ (k : Nat) (w1 : World R) (ws ss : List (List Char)) (t : List Char),
      World.call str fuel n (some (.int 1)) w = (.ok (.list [.int k]), w1) ∧ 1 ≤ k ∧
      Draws (wordsOf str fuel wd) (World.call str fuel s) k (k - 1) w1 w' ws ss ∧
      ws.length = k ∧ TextOf ws ss t ∧ v = .str t := by
  have hnP : P n := (ht r hr).2 n ((children_iff _ _).2 ⟨_, hn, .textCounts n wd s⟩)
  have hwP : P wd := (ht r hr).2 wd ((children_iff _ _).2 ⟨_, hn, .textWords n wd s⟩)
  have hsP : P s := (ht r hr).2 s ((children_iff _ _).2 ⟨_, hn, .textSeps n wd s⟩)
  rw [call_text str fuel _ hn] at h
  change Text.emit _ _ _ w = _ at h
  unfold Text.emit at h
  obtain ⟨l, w2, h1, h2⟩ := bind_eq_ok h
  rw [lift_apply, Prod.mk.injEq] at h2
  obtain ⟨h2, rfl⟩ := h2
  obtain ⟨cnts, w1, ns, ws, ss, ts, e1, e2, e3, _, e4, rfl, e5⟩ :=
    C32_returned ((call_typed str fuel n hnP).emitterOf.mono hcnt)
      (wordsOf_strs str fuel hwP hword)
      ((call_typed str fuel s hsP).emitterOf.mono hsep) 1 ht h1
  obtain ⟨⟨c', hc', hl', hp⟩, _⟩ := (call_typed str fuel n hnP).emitterOf.many 1 _ _ _ ht e1
  cases hc'
  obtain ⟨x, rfl⟩ := List.length_eq_one_iff.1 hl'
  obtain ⟨k, hk1, rfl⟩ := hcnt x (hp x (by simp))
  obtain ⟨k', rfl⟩ := List.length_eq_one_iff.1 e3
  obtain rfl : k = k' := by
    unfold AreCounts at e2
    simp [Val.asInt] at e2
    omega
  generalize hks : [k] = ks at e5
  cases e5 with
  | nil => cases hks
  | @cons ns' ws1 ss1 ws2 ss2 ts' t hto hrest =>
    simp only [List.cons.injEq] at hks
    obtain ⟨hk, rfl⟩ := hks
    cases hrest
    simp only [List.append_nil] at e4 ⊢
    refine ⟨k, w1, ws1, ss1, t, e1, hk1, by simpa using e4, hk.symm, hto, ?_⟩
    have : pyListGet ([Val.str t]) 0 = .ok v := by simpa using h2
    cases this
    rfl

/-! ### C35 -/

theorem choice_of_shape {a b : Attrs R} {k : ItemsKind} (h : a.shape = b.shape)
    (hb : b.node = some (.choice k)) : a.node = some (.choice k) ∧ a.choice.items = b.choice.items ∧
      a.choice.roac = b.choice.roac ∧ a.choice.replace = b.choice.replace ∧
      a.choice.weights = b.choice.weights := by
  have ha : a.node = some (.choice k) := (node_of_shape h).trans hb
  have h' := h
  rw [shape_choice ha, shape_choice hb] at h'
  have hc : ({ a.choice.config with rngSeed := none } : ChoiceSt Val R) =
      { b.choice.config with rngSeed := none } := congrArg Attrs.choice h'
  have key : ∀ c : ChoiceSt Val R, c.config.items = c.items ∧ c.config.roac = c.roac ∧
      c.config.replace = c.replace ∧ c.config.weights = c.weights := by
    intro c
    unfold ChoiceSt.config
    split <;> exact ⟨rfl, rfl, rfl, rfl⟩
  have h1 := congrArg ChoiceSt.items hc
  have h2 := congrArg ChoiceSt.roac hc
  have h3 := congrArg ChoiceSt.replace hc
  have h4 := congrArg ChoiceSt.weights hc
  dsimp only at h1 h2 h3 h4
  rw [(key _).1, (key _).1] at h1
  rw [(key _).2.1, (key _).2.1] at h2
  rw [(key _).2.2.1, (key _).2.2.1] at h3
  rw [(key _).2.2.2, (key _).2.2.2] at h4
  exact ⟨ha, h1, h2, h3, h4⟩

/-- Objects of `P` do their part, and `wd` is a `Choice` over `items` with
`replace_only_after_call`. -/
def RoacStore (V : Ref → Val → Prop) (P : Ref → Prop) (wd : Ref) (k : ItemsKind) (items : List Val)
    (w : World R) : Prop :=
  TypedOn V P w ∧ (w.obj wd).node = some (.choice k) ∧ (w.obj wd).choice.roac = true ∧
    (w.obj wd).choice.items = items

theorem roacStore_of_shape {V : Ref → Val → Prop} {P : Ref → Prop} {wd : Ref} {k : ItemsKind}
    {items : List Val} {w v : World R} (h : RoacStore V P wd k items w) (hv : TypedOn V P v)
    (hs : (v.obj wd).shape = (w.obj wd).shape) : RoacStore V P wd k items v := by
  obtain ⟨h1, h2, h3, _⟩ := choice_of_shape hs h.2.1
  exact ⟨hv, h1, h3.trans h.2.2.1, h2.trans h.2.2.2⟩

theorem call_shape (str : Val → List Char) (fuel : Nat) (r : Ref) (arg : Option Val) (w : World R)
    (x : Ref) : ((World.call str fuel r arg w).2.obj x).shape = (w.obj x).shape :=
  longHistory_shape (str := str) (.use .start (.use (.call fuel r arg))) x

theorem reset_shape (fuel : Nat) (r : Ref) (w : World R)
    (x : Ref) : ((World.reset fuel r w).2.obj x).shape = (w.obj x).shape :=
  longHistory_shape (str := fun _ => []) (.use .start (.use (.reset fuel r))) x

theorem roacStore_emitter (str : Val → List Char) (fuel : Nat) {V : Ref → Val → Prop}
    {P : Ref → Prop} {wd : Ref} {k : ItemsKind} {items : List Val} {x : Ref} (hx : P x) :
    EmitterOf (RoacStore (R := R) V P wd k items) (World.call str fuel x) (V x) := by
  have h := (call_typed (R := R) (V := V) (P := P) str fuel x hx).emitterOf
  have key : ∀ (s t : World R) arg v, RoacStore V P wd k items s → TypedOn V P t →
      World.call str fuel x arg s = (.ok v, t) → RoacStore V P wd k items t := by
    intro s t arg v hs ht e
    refine roacStore_of_shape hs ht ?_
    have := call_shape str fuel x arg s wd
    rw [e] at this
    exact this
  exact ⟨fun s v t hI e => ⟨(h.one s v t hI.1 e).1, key s t _ v hI (h.one s v t hI.1 e).2 e⟩,
    fun s v t hI e => ⟨(h.none s v t hI.1 e).1, key s t _ v hI (h.none s v t hI.1 e).2 e⟩,
    fun n s v t hI e => ⟨(h.many n s v t hI.1 e).1, key s t _ v hI (h.many n s v t hI.1 e).2 e⟩⟩

/-- A `Choice` with `replace_only_after_call` hands out different words. -/
theorem roacStore_distinct (str : Val → List Char) (fuel : Nat) {V : Ref → Val → Prop}
    {P : Ref → Prop} {wd : Ref} {k : ItemsKind} {items : List Val} (hwd : P wd)
    (hnd : items.Nodup) (hstr : ∀ v, V wd v → IsStr v) :
    DistinctWords (RoacStore (R := R) V P wd k items) (wordsOf str fuel wd) items.length := by
  have hint : ∀ s : World R, RoacStore V P wd k items s → (s.obj wd).choice.Intact := by
    intro s hs
    have := (hs.1 wd hwd).1
    unfold Attrs.Typed at this
    rw [hs.2.1] at this
    exact this.1
  have hc := (wordsOf_contract (R := R) (V := V) str fuel hwd).emitterOf
  have hinfo : ∀ s r t, RoacStore (R := R) V P wd k items s →
      (wordsOf str fuel wd).roac s = (.ok r, t) → r = some (items.length : Int) := by
    intro s r t hs h
    change roacInfo wd s = _ at h
    unfold roacInfo at h
    rw [run_get_bind, hs.2.1] at h
    have h2 : (s.obj wd).choice.roac = true := hs.2.2.1
    have hr := (hint s hs).2.2.1 h2
    have e : Choice.roacInfo ((s.obj wd).choice, s.entropy) =
        (Choice.numUniqueValues >>= fun m => pure (some (m : Int))) ((s.obj wd).choice, s.entropy) := by
      unfold Choice.roacInfo
      rw [Choice.self_bind, if_pos h2]
    have e1 := Choice.numUniqueValues_repl ((s.obj wd).choice, s.entropy) hr
    rw [hs.2.2.2] at e1
    change onChoice wd Choice.roacInfo s = _ at h
    unfold onChoice at h
    rw [e, bind_apply, e1] at h
    rcases hq : pyLenSet items with x | m
    · rw [hq] at h; cases h
    · rw [hq] at h
      have := Choice.pyLenSet_ok hq
      rw [List.Nodup.dedup hnd] at this
      rw [← this]
      cases h
      rfl
  refine ⟨⟨(roacStore_emitter str fuel hwd).mono hstr, ?_, ?_⟩, ?_, hinfo, ?_⟩
  · intro s t hs h
    refine roacStore_of_shape hs (hc.reset s t hs.1 h) ?_
    have := reset_shape fuel wd s wd
    change World.reset fuel wd s = _ at h
    rw [h] at this
    exact this
  · intro s r t hs h
    obtain ⟨h1, h2⟩ := hc.roac s r t hs.1 h
    refine ⟨roacStore_of_shape hs h1 ?_, h2⟩
    have h3 : (roacInfo wd s).2 = s := by
      unfold roacInfo
      rw [run_get_bind, hs.2.1]
      change (onChoice wd Choice.roacInfo s).2 = s
      unfold onChoice
      have := Choice.roacInfo_state ((s.obj wd).choice, s.entropy)
      rcases he : Choice.roacInfo ((s.obj wd).choice, s.entropy) with ⟨x, c, e⟩
      rw [he] at this
      cases this
      have hupd : s.upd wd (fun a => { a with choice := (s.obj wd).choice }) = s := by
        unfold World.upd
        congr 1
        funext y
        by_cases hy : y = wd
        · subst hy; rw [if_pos rfl]
        · rw [if_neg hy]
      dsimp only
      rw [hupd]
    change roacInfo wd s = _ at h
    rw [h] at h3
    rw [show t = s from h3]
  · intro s hs
    rw [← hs.2.2.2]
    exact List.length_pos_iff.2 (hint s hs).1
  · intro s n vs t hs hle h
    change World.call str fuel wd _ s = _ at h
    cases fuel with
    | zero => cases h
    | succ fuel =>
      unfold World.call at h
      rw [run_get_bind, hs.2.1] at h
      change onChoice wd (Choice.child (some (.int n))) s = _ at h
      unfold onChoice at h
      rw [choice_child_call] at h
      rcases hcc : Choice.call (some (n : Int)) ((s.obj wd).choice, s.entropy) with ⟨_ | l, s'⟩
      · rw [hcc] at h; cases h
      · rw [hcc] at h
        cases h
        have hwf := ((Choice.intact_iff _).1 (hint s hs)).1
        have := distinct_of_wf hwf hs.2.2.1 (some n) (by rw [hs.2.2.2]; exact hle) hcc
        exact this.1.nodup (by rw [hs.2.2.2]; exact hnd)

/-- **C35 (store).** Let everything below a `Text` object do its part, its word counts be at least 1,
its separators be strings, and let its word emitter be a `Choice` with `replace_only_after_call` over
pairwise different words.  The other children may be any emitters, and may even share this `Choice`.
In every batch `text(n)` returns, the words in order of use form consecutive blocks of as many words
as there are items, none of which contains a word twice. -/
theorem C35_store (str : Val → List Char) (fuel : Nat)
    {V : Ref → Val → Prop} {P : Ref → Prop} {r n wd s : Ref} {w : World R} (ht : TypedOn V P w)
    (hr : P r) (hn : (w.obj r).node = some (.text n wd s)) (hcnt : ∀ v, V n v → IsPositive v)
    (hword : ∀ v, V wd v → IsStr v) (hsep : ∀ v, V s v → IsStr v) {kind : ItemsKind}
    (hwd : (w.obj wd).node = some (.choice kind)) (hroac : (w.obj wd).choice.roac = true)
    (hnd : (w.obj wd).choice.items.Nodup) (k : Nat) (v : Val) (w' : World R)
    (h : World.call str (fuel + 1) r (some (.int k)) w = (.ok v, w')) :
    ∃ ns ws ss ts, v = .list (ts.map Val.str) ∧ ts.length = k ∧ TextsOf ns ws ss ts ∧
      BlocksNodup (w.obj wd).choice.items.length ws ∧
      (ws.length ≤ (w.obj wd).choice.items.length → ws.Nodup) := by
  have hnP : P n := (ht r hr).2 n ((children_iff _ _).2 ⟨_, hn, .textCounts n wd s⟩)
  have hwP : P wd := (ht r hr).2 wd ((children_iff _ _).2 ⟨_, hn, .textWords n wd s⟩)
  have hsP : P s := (ht r hr).2 s ((children_iff _ _).2 ⟨_, hn, .textSeps n wd s⟩)
  rw [call_text str fuel _ hn] at h
  obtain ⟨l, h1, rfl⟩ := text_emitMany ((call_typed str fuel n hnP).emitterOf.mono hcnt)
    (wordsOf_strs str fuel hwP hword) ((call_typed str fuel s hsP).emitterOf.mono hsep) k ht h
  obtain ⟨ns, ws, ss, ts, rfl, e1, e2, e3⟩ := batch_blocks
    (roacStore_distinct (R := R) (k := kind) str fuel hwP hnd hword)
    ((roacStore_emitter str fuel hnP).mono hcnt) ((roacStore_emitter str fuel hsP).mono hsep) k
    ⟨ht, hwd, hroac, rfl⟩ h1
  exact ⟨ns, ws, ss, ts, rfl, e1, e2, e3⟩

end

/-! ### Example -/

/-- Declared values: counts, words, a separator, texts and words. -/
def heapV (r : Ref) (v : Val) : Prop :=
  match r with
  | 0 => IsPositive v
  | _ => IsStr v

/-- `n = Sequential([2, 1, 3])`. -/
def heap1 : World demoRng :=
  (World.newSequential .list [.int 2, .int 1, .int 3] false emptyWorld).2
/-- `c = Choice(['x', 'y', 'z'], replace_only_after_call=True)`. -/
def heap2 : World demoRng :=
  (World.newChoice .list [.str ['x'], .str ['y'], .str ['z']] none false true (some 1) none heap1).2
/-- `sep = Static('-')`. -/
def heap3 : World demoRng := (World.newStatic (.str ['-']) heap2).2
/-- `t = Text(n, c, sep, rng_seed=5)`. -/
def heap4 : World demoRng := (World.newText 5 0 1 (some 2) (some 5) heap3).2
/-- `w = Word(n, c, rng_seed=6)`. -/
def heap5 : World demoRng := (World.newWord 5 0 1 (some 6) heap4).2

theorem heap_built : Built heapV demoStr heap5 := by
  have h1 : Built heapV demoStr heap1 := .newSequential (.empty emptyWorld fun _ => rfl) _ _ _ (by
    intro x hx
    rw [show emptyWorld.next = 0 from rfl]
    simp only [List.mem_cons, List.not_mem_nil, or_false] at hx
    rcases hx with rfl | rfl | rfl
    · exact ⟨2, by decide, rfl⟩
    · exact ⟨1, by decide, rfl⟩
    · exact ⟨3, by decide, rfl⟩)
  have h2 : Built heapV demoStr heap2 := .newChoice h1 _ _ _ _ _ _ _ (by
    intro _ x hx
    rw [show heap1.next = 1 by decide +kernel]
    simp only [List.mem_cons, List.not_mem_nil, or_false] at hx
    rcases hx with rfl | rfl | rfl <;> exact ⟨_, rfl⟩)
  have h3 : Built heapV demoStr heap3 := .newStatic h2 _ (by
    rw [show heap2.next = 2 by decide +kernel]; exact ⟨_, rfl⟩)
  have h4 : Built heapV demoStr heap4 := .newText h3 _ _ _ _ _ (by
    rintro v ⟨k, hk, rfl⟩ i hi
    cases hi
    exact_mod_cast hk) (by
    intro x _
    rw [show heap3.next = 3 by decide +kernel]; exact ⟨_, rfl⟩)
  exact .newWord h4 _ _ _ _ (by
    rintro v ⟨k, hk, rfl⟩ i hi
    cases hi
    exact Int.natCast_nonneg k) (by
    intro x _
    rw [show heap4.next = 4 by decide +kernel]; exact ⟨_, rfl⟩)

/-- The hypotheses of C30, C32 and C35 hold of these objects, ... -/
example : (heap5.obj 3).node = some (.text 0 1 2) ∧ (heap5.obj 4).node = some (.word 0 1) ∧
    (heap5.obj 1).node = some (.choice .list) ∧ (heap5.obj 1).choice.roac = true ∧
    (heap5.obj 1).choice.items.Nodup := by decide +kernel
example : TypedOn heapV (fun _ => True) heap5 ∧ (∀ v, heapV 0 v → IsPositive v) ∧
    (∀ v, heapV 1 v → IsStr v) ∧ ∀ v, heapV 2 v → IsStr v :=
  ⟨built_typed heap_built, fun _ h => h, fun _ h => h, fun _ h => h⟩
/-- ... and the calls return: six words in two blocks of three different ones, ... -/
example : (World.call demoStr 6 3 (some (.int 3)) heap5).1 =
    .ok (.list [.str "x-y".toList, .str "z".toList, .str "x-y-z".toList]) := by decide +kernel
/-- ... and two words of two characters and one. -/
example : (World.call demoStr 6 4 (some (.int 2)) heap5).1 =
    .ok (.list [.str ['x', 'y'], .str ['z']]) := by decide +kernel
example : (World.call demoStr 6 4 none heap5).1 = .ok (.str ['x', 'y']) := by decide +kernel

end Fauxdoc
