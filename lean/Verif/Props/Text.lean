import Verif.Model.Text
import Verif.Spec.Text
/-
C30, C32, C33, C36: alphabets, words and texts over arbitrary child emitters.
-/
namespace Fauxdoc
variable {σ : Type}

/-! ### C36 -/

theorem mem_codesOf {a b c : Int} : c ∈ codesOf a b ↔ a ≤ c ∧ c ≤ b := by
  unfold codesOf
  rw [List.mem_map]
  constructor
  · rintro ⟨k, hk, rfl⟩
    rw [List.mem_range] at hk
    omega
  · rintro ⟨h1, h2⟩
    exact ⟨(c - a).toNat, List.mem_range.2 (by omega), by omega⟩

theorem mapPy_pyChr_ok {l : List Int} (h : ∀ c ∈ l, 0 ≤ c ∧ c ≤ 0x10FFFF) :
    mapPy pyChr l = .ok l := by
  rw [mapPy_ok_iff, List.forall₂_same]
  intro c hc
  unfold pyChr
  rw [if_pos (h c hc)]

/-- **C36.** For ranges within Unicode the call succeeds, a character is in the alphabet iff it lies
in some range (both ends included), the alphabet is the concatenation of the ranges in the given
order, and each range appears in increasing order without gaps. -/
theorem C36_make_alphabet (ranges : List (Int × Int)) (hne : ranges ≠ [])
    (hu : ∀ r ∈ ranges, 0 ≤ r.1 ∧ r.2 ≤ 0x10FFFF) :
    ∃ alpha, makeAlphabet (some ranges) = .ok alpha ∧
      (∀ c, c ∈ alpha ↔ ∃ r ∈ ranges, r.1 ≤ c ∧ c ≤ r.2) ∧
      ∃ parts : List (List Int), alpha = parts.flatten ∧
        List.Forall₂ (fun r p => p.Pairwise (· < ·) ∧ ∀ c, c ∈ p ↔ r.1 ≤ c ∧ c ≤ r.2)
          ranges parts := by
  refine ⟨ranges.flatMap fun r => codesOf r.1 r.2, ?_, ?_, ranges.map fun r => codesOf r.1 r.2,
    rfl, ?_⟩
  · unfold makeAlphabet
    obtain ⟨r, rs, rfl⟩ := List.exists_cons_of_ne_nil hne
    apply mapPy_pyChr_ok
    intro c hc
    obtain ⟨r', hr, hc⟩ := List.mem_flatMap.1 hc
    have := hu r' hr
    have := mem_codesOf.1 hc
    omega
  · intro c
    rw [List.mem_flatMap]
    simp only [mem_codesOf]
  · rw [List.forall₂_map_right_iff, List.forall₂_same]
    intro r _
    refine ⟨?_, fun c => mem_codesOf⟩
    unfold codesOf
    rw [List.pairwise_map]
    exact List.pairwise_lt_range.imp fun {a b} h => by omega

/-- **C36 (errors).** A range that leaves Unicode and is not empty raises `ValueError`. -/
theorem C36_outside (ranges : List (Int × Int))
    (h : ∃ r ∈ ranges, r.1 ≤ r.2 ∧ (r.1 < 0 ∨ 0x10FFFF < r.2)) :
    makeAlphabet (some ranges) = .error .valueError := by
  obtain ⟨r, hr, hle, hout⟩ := h
  have key : ∀ l : List Int, (∃ c ∈ l, c < 0 ∨ 0x10FFFF < c) →
      mapPy pyChr l = .error .valueError := by
    intro l
    induction l with
    | nil => rintro ⟨c, hc, _⟩; cases hc
    | cons a l ih =>
      rintro ⟨c, hc, ho⟩
      unfold mapPy
      by_cases ha : 0 ≤ a ∧ a ≤ 0x10FFFF
      · have : c ∈ l := by
          rcases List.mem_cons.1 hc with rfl | h
          · omega
          · exact h
        have e : pyChr a = .ok a := by unfold pyChr; rw [if_pos ha]
        rw [e, Py.ok_bind, ih ⟨c, this, ho⟩]; rfl
      · have e : pyChr a = .error .valueError := by unfold pyChr; rw [if_neg ha]
        rw [e]; rfl
  unfold makeAlphabet
  obtain ⟨r0, rs, rfl⟩ := List.exists_cons_of_ne_nil (List.ne_nil_of_mem hr)
  apply key
  rcases hout with h | h
  · exact ⟨r.1, List.mem_flatMap.2 ⟨r, hr, mem_codesOf.2 ⟨le_refl _, hle⟩⟩, .inl h⟩
  · exact ⟨r.2, List.mem_flatMap.2 ⟨r, hr, mem_codesOf.2 ⟨hle, le_refl _⟩⟩, .inr h⟩

/-- **C36 (default).** Without ranges (or with an empty list of ranges) the alphabet consists of
the printable characters of ASCII and Latin-1 except quotes, spaces, control characters and the
soft hyphen. -/
theorem C36_default (ranges : Option (List (Int × Int))) (h : ranges = none ∨ ranges = some []) :
    ∃ alpha, makeAlphabet ranges = .ok alpha ∧
      ∀ c, c ∈ alpha ↔ ((0x21 ≤ c ∧ c ≤ 0x7E) ∨ (0xA1 ≤ c ∧ c ≤ 0xFF)) ∧
        c ≠ 0x22 ∧ c ≠ 0x27 ∧ c ≠ 0xAD := by
  have hd : makeAlphabet ranges = makeAlphabet (some defaultRanges) := by
    rcases h with rfl | rfl <;> rfl
  rw [hd]
  obtain ⟨alpha, h1, h2, _⟩ := C36_make_alphabet defaultRanges (by decide) (by decide)
  refine ⟨alpha, h1, fun c => ?_⟩
  rw [h2]
  simp only [defaultRanges, List.mem_cons, List.not_mem_nil, or_false, exists_eq_or_imp,
    exists_eq_left]
  omega

example : makeAlphabet (some [(97, 99), (65, 66)]) = .ok [97, 98, 99, 65, 66] := by decide
example : makeAlphabet (some [(97, 99), (5, 3)]) = .ok [97, 98, 99] := by decide

/-! ### C30 -/

theorem joinEmpty_strs (ws : List (List Char)) : joinEmpty (ws.map Val.str) = .ok ws.flatten := by
  unfold joinEmpty
  have : mapPy Val.chars (ws.map Val.str) = .ok ws := by
    rw [mapPy_ok_iff, List.forall₂_map_left_iff, List.forall₂_same]
    intro _ _; rfl
  rw [this]; rfl

theorem sumInts_counts {vs : List Val} {ns : List Nat} (h : AreCounts vs ns) :
    sumInts vs = .ok (ns.map (fun (n : Nat) => (n : Int)), (ns.sum : Int)) := by
  have h1 : mapPy Val.toInt vs = .ok (ns.map fun (n : Nat) => (n : Int)) := by
    unfold AreCounts at h
    induction vs generalizing ns with
    | nil => cases ns with
      | nil => rfl
      | cons n ns => cases h
    | cons v vs ih =>
      cases ns with
      | nil => cases h
      | cons n ns =>
        rw [List.map_cons, List.map_cons, List.cons.injEq] at h
        have e : v.toInt = .ok (n : Int) := by unfold Val.toInt; rw [h.1]
        unfold mapPy
        rw [e, Py.ok_bind, ih h.2]; rfl
  unfold sumInts
  rw [h1, Py.ok_bind]
  have : (ns.map fun (n : Nat) => (n : Int)).sum = (ns.sum : Int) := by
    clear h h1
    induction ns with
    | nil => rfl
    | cons n ns ih => rw [List.map_cons, List.sum_cons, List.sum_cons, ih]; push_cast; rfl
  rw [this]; rfl

theorem pyListSlice1_nat {α : Type} (l : List α) (a k : Nat) (h : a + k ≤ l.length) :
    pyListSlice1 l (a : Int) ((a : Int) + k) = (l.drop a).take k := by
  unfold pyListSlice1 sliceBound
  dsimp only
  rw [if_neg (by omega), if_neg (by omega), if_neg (by omega), if_neg (by omega)]
  congr 1
  omega

theorem partition_spec (cs : List (List Char)) (ns : List Nat) (a : Nat)
    (h : a + ns.sum = cs.length) :
    ∃ ws, Word.partition (cs.map Val.str) a (ns.map fun (n : Nat) => (n : Int)) = .ok (ws.map Val.str) ∧
      WordsOf ns (cs.drop a) ws := by
  induction ns generalizing a with
  | nil =>
    refine ⟨[], rfl, ?_⟩
    simp at h
    rw [h, List.drop_length]; exact .nil
  | cons n ns ih =>
    rw [List.sum_cons] at h
    obtain ⟨ws, h1, h2⟩ := ih (a + n) (by omega)
    refine ⟨((cs.drop a).take n).flatten :: ws, ?_, ?_⟩
    · rw [List.map_cons]
      unfold Word.partition
      rw [pyListSlice1_nat _ _ _ (by simp; omega), ← List.map_drop, ← List.map_take,
        joinEmpty_strs, Py.ok_bind]
      have : ((a : Int) + (n : Int)) = ((a + n : Nat) : Int) := by push_cast; rfl
      rw [this, h1]; rfl
    · have hl : ((cs.drop a).take n).length = n := by simp; omega
      have := WordsOf.cons (cs := (cs.drop a).take n) h2
      rw [hl, ← List.drop_drop, List.take_append_drop] at this
      exact this

/-- **C30 (batch).** If the length emitter returns the non-negative lengths `ns` and the alphabet
emitter, asked for their total, returns that many strings `cs`, then `emit_many` returns one word
per length, made of the drawn characters, each used exactly once and in order; the state is the one
left by the alphabet emitter. -/
theorem C30_emit_many (length alphabet : Child σ) (n : Int) {s s1 s2 : σ} {lv cv : Val}
    {lens : List Val} {ns : List Nat} {cs : List (List Char)}
    (hl : length (some (.int n)) s = (.ok lv, s1)) (hle : lv.elems = .ok lens)
    (hns : AreCounts lens ns)
    (ha : alphabet (some (.int ns.sum)) s1 = (.ok cv, s2)) (hae : cv.elems = .ok (cs.map Val.str))
    (hc : cs.length = ns.sum) :
    ∃ ws, Word.emitMany length alphabet n s = (.ok (ws.map Val.str), s2) ∧ WordsOf ns cs ws := by
  obtain ⟨ws, h1, h2⟩ := partition_spec cs ns 0 (by omega)
  refine ⟨ws, ?_, by simpa using h2⟩
  unfold Word.emitMany
  rw [PyM.bind_ok hl, hle, PyM.bind_ok (PyM.lift_apply _ _), sumInts_counts hns,
    PyM.bind_ok (PyM.lift_apply _ _)]
  dsimp only
  rw [PyM.bind_ok ha, hae, PyM.bind_ok (PyM.lift_apply _ _)]
  have h1' : Word.partition (cs.map Val.str) 0 (ns.map fun (n : Nat) => (n : Int)) = .ok (ws.map Val.str) :=
    h1
  rw [h1']; rfl

theorem WordsOf.length {ns : List Nat} {cs ws : List (List Char)} (h : WordsOf ns cs ws) :
    ws.length = ns.length ∧ cs.length = ns.sum ∧ ws.flatten = cs.flatten := by
  induction h with
  | nil => exact ⟨rfl, rfl, rfl⟩
  | cons _ ih =>
    refine ⟨by simp [ih.1], by simp [ih.2.1], by simp [ih.2.2]⟩

/-- **C30 (single).** `word()` draws a length, draws that many characters and joins them. -/
theorem C30_emit (length alphabet : Child σ) {s s1 s2 : σ} {k cv : Val} {cs : List (List Char)}
    (hl : length none s = (.ok k, s1)) (ha : alphabet (some k) s1 = (.ok cv, s2))
    (hae : cv.elems = .ok (cs.map Val.str)) :
    Word.emit length alphabet s = (.ok (.str cs.flatten), s2) := by
  unfold Word.emit
  rw [PyM.bind_ok hl, PyM.bind_ok ha, hae, PyM.bind_ok (PyM.lift_apply _ _), joinEmpty_strs]
  rfl

/-- **C30 (calls).** `word()`, `word(None)` return one word, `word(1)` a list of one word drawn the
same way, `word(n)` for other `n` a batch. -/
theorem C30_call (length alphabet : Child σ) (s : σ) :
    Word.call length alphabet none s = Word.emit length alphabet s ∧
    Word.call length alphabet (some .none) s = Word.emit length alphabet s ∧
    (∀ w t, Word.emit length alphabet s = (.ok w, t) →
      Word.call length alphabet (some (.int 1)) s = (.ok (.list [w]), t)) ∧
    (∀ n ws t, n ≠ 1 → Word.emitMany length alphabet n s = (.ok ws, t) →
      Word.call length alphabet (some (.int n)) s = (.ok (.list ws), t)) := by
  refine ⟨rfl, rfl, ?_, ?_⟩
  · intro w t h
    unfold Word.call emitterCallOr
    change (if (1 : Int) = 1 then _ else _ : PyM σ Val) s = _
    rw [if_pos rfl, PyM.bind_ok h]; rfl
  · intro n ws t hn h
    unfold Word.call emitterCallOr
    change (if n = 1 then _ else _ : PyM σ Val) s = _
    rw [if_neg hn, PyM.bind_ok h]; rfl

/-- A child that emits fixed values: `v` when called without argument, else a list. -/
def constChild (v : Val) (l : List Val) : Child σ
  | none => pure v
  | some _ => pure (.list l)

example : (Word.call (σ := Unit) (constChild .none [.int 2, .int 0, .int 1])
    (constChild .none [.str ['a'], .str ['b'], .str ['c']]) (some (.int 3)) ()).1 =
    .ok (.list [.str ['a', 'b'], .str [], .str ['c']]) := by decide
example : WordsOf [2, 0, 1] [['a'], ['b'], ['c']] [['a', 'b'], [], ['c']] :=
  .cons (cs := [['a'], ['b']]) (.cons (cs := []) (.cons (cs := [['c']]) .nil))

/-! ### C32, C33 -/

open Text

/-- The iterator `wi` in state `s` produces the values `vs` and then is `wi'` in state `s'`. -/
inductive Yields (word : WordChild σ) : WordsIter → σ → List Val → WordsIter → σ → Prop
  | nil (wi : WordsIter) (s : σ) : Yields word wi s [] wi s
  | cons {wi wi1 wi2 : WordsIter} {s s1 s2 : σ} {v : Val} {vs : List Val}
      (h : nextWord word wi s = (.ok (v, wi1), s1)) (ht : Yields word wi1 s1 vs wi2 s2) :
      Yields word wi s (v :: vs) wi2 s2

theorem Yields.append_inv {word : WordChild σ} {wi wi2 : WordsIter} {s s2 : σ} {vs ws : List Val}
    (h : Yields word wi s (vs ++ ws) wi2 s2) :
    ∃ wi1 s1, Yields word wi s vs wi1 s1 ∧ Yields word wi1 s1 ws wi2 s2 := by
  induction vs generalizing wi s with
  | nil => exact ⟨wi, s, .nil _ _, h⟩
  | cons v vs ih =>
    cases h with
    | cons h1 h2 =>
      obtain ⟨wi1, s1, h3, h4⟩ := ih h2
      exact ⟨wi1, s1, .cons h1 h3, h4⟩

theorem Yields.trans {word : WordChild σ} {wi wi1 wi2 : WordsIter} {s s1 s2 : σ} {vs ws : List Val}
    (h : Yields word wi s vs wi1 s1) (h' : Yields word wi1 s1 ws wi2 s2) :
    Yields word wi s (vs ++ ws) wi2 s2 := by
  induction h with
  | nil => exact h'
  | cons h1 _ ih => exact .cons h1 (ih h')

theorem yields_drawn (word : WordChild σ) (vs : List Val) (s : σ) :
    Yields word (.drawn vs) s vs (.drawn []) s := by
  induction vs with
  | nil => exact .nil _ _
  | cons v vs ih => exact .cons rfl ih

theorem yields_buf (word : WordChild σ) (nu rem needed : Int) (vs : List Val) (s : σ) :
    Yields word (.blocks nu rem needed vs) s vs (.blocks nu rem needed []) s := by
  induction vs with
  | nil => exact .nil _ _
  | cons v vs ih => exact .cons rfl ih

/-- The first `k` separators, continued by spaces. -/
def padTake : List (List Char) → Nat → List (List Char)
  | _, 0 => []
  | [], k + 1 => [' '] :: padTake [] k
  | s :: ss, k + 1 => s :: padTake ss k

theorem padTake_eq (ss : List (List Char)) (k : Nat) :
    padTake ss k = ss.take k ++ List.replicate (k - ss.length) [' '] := by
  induction k generalizing ss with
  | zero => cases ss <;> simp [padTake]
  | succ k ih =>
    cases ss with
    | nil => simp [padTake, ih, List.replicate_succ]
    | cons s ss => simp [padTake, ih]

theorem padTake_add (ss : List (List Char)) (k m : Nat) :
    padTake ss (k + m) = padTake ss k ++ padTake (ss.drop k) m := by
  induction k generalizing ss with
  | zero => simp [padTake]
  | succ k ih =>
    rw [Nat.add_right_comm]
    cases ss with
    | nil => simp [padTake, ih]
    | cons s ss => simp [padTake, ih]

theorem renderRest_spec (word : WordChild σ) {wi wi' : WordsIter} {s s' : σ}
    (ws ss : List (List Char)) (h : Yields word wi s (ws.map Val.str) wi' s') (w : List Char) :
    ∃ r, renderRest word ws.length wi (ss.map Val.str) s =
        (.ok (r.map Val.str, wi', (ss.drop ws.length).map Val.str), s') ∧
      TextOf (w :: ws) (padTake ss ws.length) (w :: r).flatten := by
  induction ws generalizing wi s ss w with
  | nil =>
    cases h
    exact ⟨[], rfl, by simpa [padTake] using TextOf.one w⟩
  | cons w' ws ih =>
    cases h with
    | cons h1 h2 =>
      have hs : ∃ sep, nextSep (ss.map Val.str) = (.str sep, (ss.drop 1).map Val.str) ∧
          padTake ss (ws.length + 1) = sep :: padTake (ss.drop 1) ws.length := by
        cases ss with
        | nil => exact ⟨[' '], rfl, rfl⟩
        | cons a ss => exact ⟨a, rfl, rfl⟩
      obtain ⟨sep, e1, e2⟩ := hs
      obtain ⟨r, h3, h4⟩ := ih (ss.drop 1) h2 w'
      refine ⟨sep :: w' :: r, ?_, ?_⟩
      · rw [List.length_cons]
        unfold renderRest
        rw [e1]
        dsimp only
        rw [PyM.bind_ok h1]
        dsimp only
        rw [PyM.bind_ok h3, List.drop_drop, Nat.add_comm 1]
        rfl
      · rw [List.length_cons, e2]
        have := TextOf.more w sep h4
        simpa using this

theorem TextOf.length {ws ss : List (List Char)} {t : List Char} (h : TextOf ws ss t) :
    ws.length = ss.length + 1 := by
  induction h with
  | one => rfl
  | more _ _ _ ih => simp [ih]

theorem renderAll_spec (word : WordChild σ) {wi wi' : WordsIter} {s s' : σ} (ns : List Nat)
    (ws ss : List (List Char)) (h : Yields word wi s (ws.map Val.str) wi' s')
    (hl : ws.length = ns.sum) :
    ∃ ts, renderAll word (ns.map fun (n : Nat) => (n : Int)) wi (ss.map Val.str) s =
        (.ok (ts.map Val.str), s') ∧
      TextsOf (ns.filter (· ≠ 0)) ws
        (padTake ss (ns.sum - (ns.filter (· ≠ 0)).length)) ts := by
  have hle : ∀ ns : List Nat, (ns.filter (· ≠ 0)).length ≤ ns.sum := by
    intro ns
    induction ns with
    | nil => simp
    | cons n ns ih =>
      rw [List.filter_cons, List.sum_cons]
      by_cases hn : n = 0
      · rw [if_neg (by simp [hn])]; omega
      · rw [if_pos (by simp [hn]), List.length_cons]; omega
  induction ns generalizing wi s ws ss with
  | nil =>
    have : ws = [] := List.length_eq_zero_iff.1 (by simpa using hl)
    subst this
    cases h
    exact ⟨[], rfl, by simpa [padTake] using TextsOf.nil⟩
  | cons n ns ih =>
    rw [List.sum_cons] at hl
    rw [List.map_cons]
    unfold renderAll
    rw [List.filter_cons]
    by_cases hn : n = 0
    · subst hn
      rw [if_pos (by simp), if_neg (by simp), List.sum_cons, Nat.zero_add]
      exact ih ws ss h (by omega)
    · rw [if_neg (by simp [hn]), if_pos (by simp [hn])]
      obtain ⟨ws1, ws2, rfl, h1⟩ : ∃ ws1 ws2, ws = ws1 ++ ws2 ∧ ws1.length = n :=
        ⟨ws.take n, ws.drop n, (List.take_append_drop n ws).symm, by simp; omega⟩
      rw [List.map_append] at h
      obtain ⟨wi1, s1, hy1, hy2⟩ := h.append_inv
      cases ws1 with
      | nil => simp at h1; omega
      | cons w ws1 =>
        cases hy1 with
        | cons hw hy =>
          obtain ⟨r, hr, ht⟩ := renderRest_spec word ws1 ss hy w
          obtain ⟨ts, ha, hts⟩ := ih ws2 (ss.drop ws1.length) hy2 (by simp at hl h1; omega)
          refine ⟨(w :: r).flatten :: ts, ?_, ?_⟩
          · rw [PyM.bind_ok hw]
            dsimp only
            have hk : ((n : Int) - 1).toNat = ws1.length := by simp at h1; omega
            rw [hk, PyM.bind_ok hr]
            dsimp only
            have hj : joinEmpty (Val.str w :: r.map Val.str) = .ok (w :: r).flatten :=
              joinEmpty_strs (w :: r)
            rw [hj, PyM.bind_ok (PyM.lift_apply _ _), PyM.bind_ok ha]
            rfl
          · have := TextsOf.cons ht hts
            rw [h1, ← padTake_add] at this
            have hle' := hle ns
            simp only [List.length_cons] at h1
            have e : ws1.length + (ns.sum - (ns.filter (· ≠ 0)).length) =
                (n :: ns).sum - (n :: ns.filter (· ≠ 0)).length := by
              rw [List.sum_cons, List.length_cons]; omega
            rwa [e] at this

/-- Drawing `rem` words in blocks of at most `D` with a reset of the word emitter between
consecutive blocks. -/
inductive Blocks (word : WordChild σ) (D : Nat) : Nat → σ → List (List Char) → σ → Prop
  | last {rem : Nat} {s s' : σ} {wv : Val} {ws : List (List Char)} (h0 : 0 < rem) (hle : rem ≤ D)
      (h : word.call (some (.int rem)) s = (.ok wv, s')) (he : wv.elems = .ok (ws.map Val.str))
      (hl : ws.length = rem) : Blocks word D rem s ws s'
  | more {rem : Nat} {s s1 s2 s3 : σ} {wv : Val} {ws ws' : List (List Char)} (hgt : D < rem)
      (h : word.call (some (.int D)) s = (.ok wv, s1)) (he : wv.elems = .ok (ws.map Val.str))
      (hl : ws.length = D) (hr : word.reset s1 = (.ok ⟨⟩, s2))
      (ht : Blocks word D (rem - D) s2 ws' s3) : Blocks word D rem s (ws ++ ws') s3

theorem Blocks.length {word : WordChild σ} {D rem : Nat} {s s' : σ} {ws : List (List Char)}
    (h : Blocks word D rem s ws s') : ws.length = rem := by
  induction h with
  | last _ _ _ _ hl => exact hl
  | more hgt _ _ hl _ _ ih => rw [List.length_append, hl, ih]; omega

theorem clamp_max_only (D rem : Nat) : clamp (D : Int) none (some (rem : Int)) = (min D rem : Nat) := by
  unfold clamp
  simp only
  split
  · rename_i h; omega
  · rename_i h; omega

theorem nextWord_end (word : WordChild σ) (nu rem needed : Int) :
    nextWord word (.blocks nu rem needed []) =
      if needed = 0 then nextBlock word nu (rem.toNat + 1) rem
      else (do
        word.reset
        nextBlock word nu ((rem - needed).toNat + 1) (rem - needed)) := rfl

theorem nextBlock_yields (word : WordChild σ) {D rem : Nat} {s s' : σ} {ws : List (List Char)}
    (hD : 0 < D) (h : Blocks word D rem s ws s') :
    ∃ v vs wi1 s1 wi', ws.map Val.str = v :: vs ∧
      (∀ fuel, nextBlock word D (fuel + 1) rem s = (.ok (v, wi1), s1)) ∧
      Yields word wi1 s1 vs wi' s' := by
  induction h with
  | @last rem s s' wv ws h0 hle h he hl =>
    obtain ⟨w, ws', rfl⟩ := List.exists_cons_of_ne_nil (l := ws) (by rintro rfl; simp at hl; omega)
    refine ⟨.str w, ws'.map Val.str, _, _, _, rfl, fun fuel => ?_, yields_buf word D rem rem _ _⟩
    unfold nextBlock
    rw [if_pos (by omega), clamp_max_only, Nat.min_eq_right hle, PyM.bind_ok h, he,
      PyM.bind_ok (PyM.lift_apply _ _)]
    rfl
  | @more rem s s1 s2 s3 wv ws ws' hgt h he hl hr ht ih =>
    obtain ⟨w, ws1, rfl⟩ := List.exists_cons_of_ne_nil (l := ws) (by rintro rfl; simp at hl; omega)
    obtain ⟨v, vs, wi1, t1, wi', e1, e2, e3⟩ := ih
    refine ⟨.str w, (ws1 ++ ws').map Val.str, .blocks D rem D (ws1.map Val.str), s1, wi',
      by simp, fun fuel => ?_, ?_⟩
    · unfold nextBlock
      rw [if_pos (by omega), clamp_max_only, Nat.min_eq_left (by omega), PyM.bind_ok h, he,
        PyM.bind_ok (PyM.lift_apply _ _)]
      rfl
    · rw [List.map_append]
      refine (yields_buf word D rem D _ _).trans ?_
      rw [e1]
      refine .cons ?_ e3
      rw [nextWord_end, if_neg (by omega), PyM.bind_ok hr]
      have : ((rem : Int) - (D : Int)) = ((rem - D : Nat) : Int) := by omega
      rw [this]
      exact e2 _

theorem emitMany_of_yields (numwords : Child σ) (word : WordChild σ) (sep : Child σ) (n : Int)
    {s s1 s2 s3 s4 : σ} {nv sv : Val} {cnts : List Val} {ns : List Nat}
    {ws ss : List (List Char)} {wi wi' : WordsIter}
    (hn : numwords (some (.int n)) s = (.ok nv, s1)) (hne : nv.elems = .ok cnts)
    (hns : AreCounts cnts ns)
    (hw : getWordsIterator word ns.sum s1 = (.ok wi, s2))
    (hs : sep (some (.int (ns.sum - n))) s2 = (.ok sv, s3)) (hse : sv.elems = .ok (ss.map Val.str))
    (hy : Yields word wi s3 (ws.map Val.str) wi' s4) (hl : ws.length = ns.sum) :
    ∃ ts, Text.emitMany numwords word sep n s = (.ok (ts.map Val.str), s4) ∧
      TextsOf (ns.filter (· ≠ 0)) ws (padTake ss (ns.sum - (ns.filter (· ≠ 0)).length)) ts := by
  obtain ⟨ts, h1, h2⟩ := renderAll_spec word ns ws ss hy hl
  refine ⟨ts, ?_, h2⟩
  unfold Text.emitMany
  rw [PyM.bind_ok hn, hne, PyM.bind_ok (PyM.lift_apply _ _), sumInts_counts hns,
    PyM.bind_ok (PyM.lift_apply _ _)]
  dsimp only
  rw [PyM.bind_ok hw, PyM.bind_ok hs, hse, PyM.bind_ok (PyM.lift_apply _ _), h1]

theorem getWordsIterator_drawn (word : WordChild σ) (total : Nat) {s s1 s2 : σ} {r : Option Int}
    {wv : Val} {ws : List Val} (hr : word.roac s = (.ok r, s1))
    (hD : ∀ D, r = some D → D = 0 ∨ (total : Int) ≤ D)
    (hw : word.call (some (.int total)) s1 = (.ok wv, s2)) (hwe : wv.elems = .ok ws) :
    getWordsIterator word total s = (.ok (.drawn ws), s2) := by
  unfold getWordsIterator
  rw [PyM.bind_ok hr]
  cases r with
  | none =>
    dsimp only
    rw [PyM.bind_ok hw, hwe]; rfl
  | some D =>
    dsimp only
    have := hD D rfl
    rw [if_neg (by omega), PyM.bind_ok hw, hwe]; rfl

theorem getWordsIterator_blocks (word : WordChild σ) (total D : Nat) {s s1 : σ}
    (hr : word.roac s = (.ok (some D), s1)) (h0 : 0 < D) (hD : D < total) :
    getWordsIterator word total s = (.ok (.blocks D total 0 []), s1) := by
  unfold getWordsIterator
  rw [PyM.bind_ok hr]
  dsimp only
  rw [if_pos (by omega)]; rfl

theorem yields_blocks (word : WordChild σ) {D rem : Nat} {s s' : σ} {ws : List (List Char)}
    (hD : 0 < D) (h : Blocks word D rem s ws s') :
    ∃ wi', Yields word (.blocks D rem 0 []) s (ws.map Val.str) wi' s' := by
  obtain ⟨v, vs, wi1, s1, wi', e1, e2, e3⟩ := nextBlock_yields word hD h
  refine ⟨wi', ?_⟩
  rw [e1]
  refine .cons ?_ e3
  rw [nextWord_end, if_pos rfl]
  exact e2 _

/-- How a batch gets its words and separators, the word counts having left state `s`: normally all
words are drawn in one call before the separators; a word emitter with `replace_only_after_call`
and fewer (`D`) distinct words than needed is asked for blocks of `D` words, after the separators
were drawn. -/
inductive Draws (word : WordChild σ) (sep : Child σ) (total : Nat) (nsep : Int) (s s' : σ)
    (ws ss : List (List Char)) : Prop
  | atOnce {s1 s2 : σ} {r : Option Int} {wv sv : Val} (hr : word.roac s = (.ok r, s1))
      (hD : ∀ D, r = some D → D = 0 ∨ (total : Int) ≤ D)
      (hw : word.call (some (.int total)) s1 = (.ok wv, s2)) (hwe : wv.elems = .ok (ws.map Val.str))
      (hs : sep (some (.int nsep)) s2 = (.ok sv, s')) (hse : sv.elems = .ok (ss.map Val.str))
      (hl : ws.length = total)
  | inBlocks {s1 s2 : σ} {D : Nat} {sv : Val} (hr : word.roac s = (.ok (some D), s1))
      (h0 : 0 < D) (hD : D < total)
      (hs : sep (some (.int nsep)) s1 = (.ok sv, s2)) (hse : sv.elems = .ok (ss.map Val.str))
      (hb : Blocks word D total s2 ws s')

/-- **C33 (what holds).** For any non-negative word counts `ns`, `emit_many` returns one text per
*non-zero* count; the drawn words are used exactly once and in order; so are the drawn separators,
continued by spaces if there are not enough of them.  Missing (false of the code): one text per
count, and separators only from the separator emitter. -/
theorem C33_zero_counts_partial (numwords : Child σ) (word : WordChild σ) (sep : Child σ) (n : Int)
    {s s1 s2 : σ} {nv : Val} {cnts : List Val} {ns : List Nat} {ws ss : List (List Char)}
    (hn : numwords (some (.int n)) s = (.ok nv, s1)) (hne : nv.elems = .ok cnts)
    (hns : AreCounts cnts ns) (hd : Draws word sep ns.sum (ns.sum - n) s1 s2 ws ss) :
    ∃ ts, Text.emitMany numwords word sep n s = (.ok (ts.map Val.str), s2) ∧
      ∃ need, need + (ns.filter (· ≠ 0)).length = ns.sum ∧
        TextsOf (ns.filter (· ≠ 0)) ws
          (ss.take need ++ List.replicate (need - ss.length) [' ']) ts := by
  have key : ∃ ts, Text.emitMany numwords word sep n s = (.ok (ts.map Val.str), s2) ∧
      TextsOf (ns.filter (· ≠ 0)) ws
        (padTake ss (ns.sum - (ns.filter (· ≠ 0)).length)) ts := by
    cases hd with
    | atOnce hr hD hw hwe hs hse hl =>
      exact emitMany_of_yields numwords word sep n hn hne hns
        (getWordsIterator_drawn word _ hr hD hw hwe) hs hse (yields_drawn word _ _) hl
    | inBlocks hr h0 hD hs hse hb =>
      obtain ⟨wi', hy⟩ := yields_blocks word h0 hb
      exact emitMany_of_yields numwords word sep n hn hne hns
        (getWordsIterator_blocks word _ _ hr h0 hD) hs hse hy hb.length
  obtain ⟨ts, h1, h2⟩ := key
  refine ⟨ts, h1, ns.sum - (ns.filter (· ≠ 0)).length, ?_, by rwa [← padTake_eq]⟩
  have : (ns.filter (· ≠ 0)).length ≤ ns.sum := by
    clear * -
    induction ns with
    | nil => simp
    | cons n ns ih =>
      rw [List.filter_cons, List.sum_cons]
      by_cases hn : n = 0
      · rw [if_neg (by simp [hn])]; omega
      · rw [if_pos (by simp [hn]), List.length_cons]; omega
  omega

/-- **C32 (batch).** If all drawn word counts are at least 1 and the separator emitter returns as
many separators as it was asked for, `text(n)` consists of one text per count; text `i` has the
`i`-th number of words with separators between them; every drawn word and every drawn separator is
used exactly once and in order. -/
theorem C32_emit_many (numwords : Child σ) (word : WordChild σ) (sep : Child σ) (n : Nat)
    {s s1 s2 : σ} {nv : Val} {cnts : List Val} {ns : List Nat} {ws ss : List (List Char)}
    (hn : numwords (some (.int n)) s = (.ok nv, s1)) (hne : nv.elems = .ok cnts)
    (hns : AreCounts cnts ns) (hlen : ns.length = n) (hpos : ∀ k ∈ ns, 1 ≤ k)
    (hd : Draws word sep ns.sum (ns.sum - n) s1 s2 ws ss) (hss : ss.length + n = ns.sum) :
    ∃ ts, Text.emitMany numwords word sep n s = (.ok (ts.map Val.str), s2) ∧
      TextsOf ns ws ss ts ∧ ts.length = n := by
  obtain ⟨ts, h1, need, h2, h3⟩ := C33_zero_counts_partial numwords word sep n hn hne hns hd
  have hf : ns.filter (· ≠ 0) = ns := List.filter_eq_self.2 fun k hk => by
    have := hpos k hk
    simp; omega
  rw [hf] at h2 h3
  have hneed : need = ss.length := by omega
  rw [hneed, List.take_length, Nat.sub_self, List.replicate_zero, List.append_nil] at h3
  refine ⟨ts, h1, h3, ?_⟩
  rw [← hlen]
  clear * - h3
  induction h3 with
  | nil => rfl
  | cons _ _ ih => simp [ih]

/-- **C32 (single).** `text()` is the text of the single drawn count. -/
theorem C32_emit (numwords : Child σ) (word : WordChild σ) (sep : Child σ)
    {s s1 s2 : σ} {nv : Val} {cnt : Val} {k : Nat} {ws ss : List (List Char)}
    (hn : numwords (some (.int 1)) s = (.ok nv, s1)) (hne : nv.elems = .ok [cnt])
    (hk : cnt.asInt = some (k : Int)) (hpos : 1 ≤ k)
    (hd : Draws word sep k (k - 1) s1 s2 ws ss) (hss : ss.length + 1 = k) :
    ∃ t, Text.emit numwords word sep s = (.ok (.str t), s2) ∧ TextOf ws ss t := by
  obtain ⟨ts, h1, h2, h3⟩ := C32_emit_many numwords word sep 1 (ns := [k]) hn hne
    (by unfold AreCounts; simp [hk]) rfl (by simpa using hpos) (by simpa using hd) (by simpa using hss)
  cases h2 with
  | @cons ns ws1 ss1 ws' ss' ts' t ht hrest =>
    cases hrest
    refine ⟨t, ?_, by simpa using ht⟩
    unfold Text.emit
    have h1' : Text.emitMany numwords word sep 1 s = (.ok [Val.str t], s2) := h1
    rw [PyM.bind_ok h1']; rfl

/-- A word emitter without `replace_only_after_call`, always returning `l`. -/
def constWords (l : List Val) : WordChild σ := ⟨constChild .none l, pure ⟨⟩, pure none⟩

/-- A word emitter counting `0, 1, 2, …` in decimal digits up to 2, then over again after a reset;
it has `replace_only_after_call` and three distinct words. -/
def demoWords : WordChild Nat where
  call
    | some (.int n) => fun s =>
      (.ok (.list ((List.range n.toNat).map fun i => .str [Char.ofNat (48 + s + i)])), s + n.toNat)
    | _ => PyM.raise .typeError
  reset := fun _ => (.ok ⟨⟩, 0)
  roac := pure (some 3)

example : (Text.call (σ := Unit) (constChild .none [.int 2, .int 3])
    (constWords [.str ['a'], .str ['b'], .str ['c'], .str ['d'], .str ['e']])
    (constChild .none [.str ['-'], .str ['+'], .str ['*']]) (some (.int 2)) ()).1 =
    .ok (.list [.str ['a', '-', 'b'], .str ['c', '+', 'd', '*', 'e']]) := by decide
example : TextsOf [2, 3] [['a'], ['b'], ['c'], ['d'], ['e']] [['-'], ['+'], ['*']]
    [['a', '-', 'b'], ['c', '+', 'd', '*', 'e']] :=
  .cons (.more ['a'] ['-'] (.one ['b']))
    (.cons (.more ['c'] ['+'] (.more ['d'] ['*'] (.one ['e']))) .nil)
example : Text.call (constChild .none [.int 4, .int 3]) demoWords
    (constChild .none [.str [], .str [], .str [], .str [], .str []]) (some (.int 2)) 0 =
    (.ok (.list [.str ['0', '1', '2', '0'], .str ['1', '2', '0']]), 1) := by decide

/-- **C33 (violated).** With a word count of zero, texts are dropped from a batch, `text()` raises
`IndexError`, and a separator that the separator emitter never emits appears. -/
theorem C33_violated :
    (Text.call (σ := Unit) (constChild .none [.int 0, .int 0]) (constWords [])
      (constChild .none []) (some (.int 2)) ()).1 = .ok (.list []) ∧
    (Text.call (σ := Unit) (constChild .none [.int 0]) (constWords [])
      (constChild .none []) none ()).1 = .error .indexError ∧
    (Text.call (σ := Unit) (constChild .none [.int 3, .int 0])
      (constWords [.str ['a'], .str ['b'], .str ['c']]) (constChild .none [.str ['-']])
      (some (.int 2)) ()).1 = .ok (.list [.str ['a', '-', 'b', ' ', 'c']]) := by
  decide

end Fauxdoc
