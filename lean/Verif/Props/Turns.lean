import Verif.Spec.Turns
import Verif.Props.DocSet
import Mathlib.Data.List.Rotate
/-
C129: an emitter that goes through its items gives every item its turn.
-/
set_option linter.unusedSectionVars false
namespace Fauxdoc
open World

section
variable {α : Type} [DecidableEq α]

theorem IsCyclicFrom.drop {src : Src α} {s : Nat} {vs : List α} (h : IsCyclicFrom src s vs) (m : Nat) :
    IsCyclicFrom src (s + m) (vs.drop m) := by
  intro i hi
  rw [List.length_drop] at hi
  rw [List.getElem?_drop, h (m + i) (by omega), Nat.add_assoc]

theorem cyclic_take {items : List α} {s : Nat} {vs : List α} (h : IsCyclicFrom (.fin items) s vs) {m : Nat}
    (hm : m ≤ items.length) (hv : m ≤ vs.length) : vs.take m = (items.rotate s).take m := by
  refine List.ext_getElem? fun i => ?_
  by_cases hi : i < m
  · rw [List.getElem?_take_of_lt hi, List.getElem?_take_of_lt hi, h i (by omega),
      List.getElem?_rotate (by omega), Nat.add_comm]
    rfl
  · rw [List.getElem?_eq_none (by rw [List.length_take]; omega),
      List.getElem?_eq_none (by rw [List.length_take]; omega)]

/-- Among consecutive values of the endless repetition of the items, each item is there once, or once
more, for every time the items fit in. -/
theorem cyclic_counts {items : List α} (x : α) (q : Nat) :
    ∀ {r s : Nat} {vs : List α}, IsCyclicFrom (.fin items) s vs → vs.length = q * items.length + r →
      r < items.length →
      q * items.count x ≤ vs.count x ∧ vs.count x ≤ (q + 1) * items.count x ∧
        (r = 0 → vs.count x = q * items.count x) := by
  have hrot : ∀ s, (items.rotate s).count x = items.count x := fun s => (List.rotate_perm items s).count_eq x
  induction q with
  | zero =>
    intro r s vs h hl hr
    have e := cyclic_take h (m := r) (by omega) (by omega)
    rw [List.take_of_length_le (by omega)] at e
    refine ⟨by omega, ?_, fun h0 => ?_⟩
    · have := (List.take_sublist r (items.rotate s)).count_le x
      rw [← e, hrot] at this
      omega
    · have : vs = [] := List.length_eq_zero_iff.1 (by omega)
      rw [this]; simp
  | succ q ih =>
    intro r s vs h hl hr
    have hk : items.length ≤ vs.length := by
      rw [hl, Nat.succ_mul]
      omega
    have e := cyclic_take h (m := items.length) le_rfl hk
    rw [List.take_of_length_le (l := items.rotate s) (by simp)] at e
    obtain ⟨h1, h2, h3⟩ := ih (h.drop items.length) (by rw [List.length_drop, hl, Nat.succ_mul]; omega) hr
    have hc : vs.count x = items.count x + (vs.drop items.length).count x := by
      conv_lhs => rw [← List.take_append_drop items.length vs]
      rw [List.count_append, e, hrot]
    rw [hc]
    refine ⟨?_, ?_, fun h0 => ?_⟩
    · rw [Nat.succ_mul]; omega
    · rw [Nat.succ_mul (q + 1)]; omega
    · rw [h3 h0, Nat.succ_mul]; omega

theorem fair_of_cyclic {items : List α} (hne : items ≠ []) {s : Nat} {vs : List α}
    (h : IsCyclicFrom (.fin items) s vs) : FairTurns items vs := by
  have hp := List.length_pos_of_ne_nil hne
  intro x
  obtain ⟨h1, h2, h3⟩ := cyclic_counts x (vs.length / items.length) (r := vs.length % items.length) h
    (by rw [Nat.mul_comm]; exact (Nat.div_add_mod _ _).symm) (Nat.mod_lt _ hp)
  exact ⟨h1, h2, fun hd => h3 (Nat.mod_eq_zero_of_dvd hd)⟩

/-- **C129 (one call).** In every history a call of a `Sequential` gives its items fair turns, wherever in
the round it begins: a call for as many values as there are items gives each item once. -/
theorem C129_call {st : SeqSt α} {src : Src α} {E : List α} (h : SeqRun st src E) (n : Option Int)
    (hn : 0 ≤ asked n) : ∃ vs st', Sequential.call n st = (.ok vs, st') ∧
      vs.length = (asked n).toNat ∧ FairTurns st.items vs ∧
      (asked n = st.items.length → vs.Perm st.items) := by
  obtain ⟨_, vs, st', h1, h2, h3⟩ := C26_sequential h n hn
  have hne : st.items ≠ [] := by
    obtain ⟨hp, l, rfl, hl⟩ := seqRun_atPos h
    rw [hl]
    exact hp.1
  have hf := fair_of_cyclic hne h3
  refine ⟨vs, st', h1, h2, hf, fun ha => List.perm_iff_count.2 fun x => ?_⟩
  have hlen : vs.length = st.items.length := by omega
  rw [(hf x).2.2 (by rw [hlen]), hlen, Nat.div_self (List.length_pos_of_ne_nil hne), Nat.one_mul]

theorem seqRun_emitted {st : SeqSt α} {src : Src α} {E : List α} (h : SeqRun st src E) :
    IsCyclicFrom src 0 E := by
  have nil : ∀ src' : Src α, IsCyclicFrom src' 0 [] := fun _ i hi => by simp at hi
  induction h with
  | init f rac st h => exact nil _
  | op st src E o h ih =>
    cases o with
    | call n =>
      by_cases hn : 0 ≤ asked n
      · obtain ⟨hs, vs, st', h1, h2, h3⟩ := C26_sequential h n hn
        have : (IterOp.call n).runSeq st = (.ok vs, st') := h1
        rw [this]
        unfold iterAfter
        simp only
        by_cases hr : st.it.resetAfterCall = true
        · rw [if_pos hr]; exact nil _
        · rw [if_neg hr]
          intro i hi
          rcases Nat.lt_or_ge i E.length with hlt | hge
          · rw [List.getElem?_append_left hlt]; exact ih i hlt
          · rw [List.getElem?_append_right hge, h3 _ (by simp at hi; omega), hs]
            congr 1; omega
      · obtain ⟨m, rfl⟩ : ∃ m, n = some m := by
          cases n with
          | none => simp [asked] at hn
          | some m => exact ⟨m, rfl⟩
        have : (IterOp.call (some m)).runSeq st = (.error .valueError, st) := by
          change ((Iterative.call (some m) st.it).1, { st with it := (Iterative.call (some m) st.it).2 }) = _
          rw [call_negative m (by simpa [asked] using hn) st.it]
        rw [this]; exact ih
    | reset => exact nil _
    | setFactory f =>
      unfold iterAfter
      rcases (IterOp.runSeq (.setFactory f) st).1 with e | vs
      · exact ih
      · exact nil _
    | setResetAfterCall b => exact ih

/-- **C129 (history).** All values of a `Sequential` since its last reset, however they were asked for,
are fair turns of its items. -/
theorem C129_history {st : SeqSt α} {src : Src α} {E : List α} (h : SeqRun st src E) :
    FairTurns st.items E := by
  obtain ⟨hp, l, rfl, hl⟩ := seqRun_atPos h
  rw [hl]
  exact fair_of_cyclic hp.1 (seqRun_emitted h)

/-- **C129 (iterators).** The same for an `Iterative` whose iterators end, with what they give in place of
the items. -/
theorem C129_iterative {st : IterSt α} {items : List α} {E : List α} (h : IterRun st (.fin items) E) :
    FairTurns items E :=
  fair_of_cyclic (iterRun_atPos h).1 (iterRun_emitted h)

/-- **C129 (share).** How often an item is among the values differs from its share of the items, times the
number of values, by at most what it has in one round. -/
theorem C129_share {items vs : List α} (hne : items ≠ []) (h : FairTurns items vs) (x : α) :
    |(vs.count x : ℤ) * items.length - vs.length * items.count x| ≤ items.length * items.count x := by
  obtain ⟨h1, h2, _⟩ := h x
  have hp : 0 < items.length := List.length_pos_of_ne_nil hne
  have hd := Nat.div_add_mod vs.length items.length
  have hm := Nat.mod_lt vs.length hp
  generalize vs.length / items.length = q at *
  generalize vs.length % items.length = r at *
  generalize vs.length = n at *
  generalize items.length = k at *
  generalize items.count x = c at *
  generalize vs.count x = m at *
  subst hd
  zify at h1 h2 hm hp
  have hc : (0 : ℤ) ≤ c := Int.natCast_nonneg c
  have hr : (0 : ℤ) ≤ r := Int.natCast_nonneg r
  have a1 : (q : ℤ) * c * k ≤ m * k := mul_le_mul_of_nonneg_right h1 hp.le
  have a2 : (m : ℤ) * k ≤ (q + 1) * c * k := mul_le_mul_of_nonneg_right h2 hp.le
  have a3 : (r : ℤ) * c ≤ k * c := mul_le_mul_of_nonneg_right hm.le hc
  have a4 : (0 : ℤ) ≤ r * c := mul_nonneg hr hc
  push_cast
  rw [abs_le]
  constructor <;> nlinarith
end

section
variable {K : Type} [Field K] [LinearOrder K] [FloorRing K] [IsStrictOrderedRing K] {R : Rng K}

/-- **C129 (documents).** If a `Sequential` that is not reset after each call is used by one field only,
and only for its values, then its items get fair turns across any number of documents. -/
theorem C129_documents (V : Ref → Val → Prop) (str : Val → List Char) {fields : Dict Ref}
    (hk : fields.keys.Nodup) {name : String} {f e : Ref} {w w' : World R}
    {ds : List (Except Err (Dict Val) × Val)} (hb : Built V str w)
    (hu : OnlyUser w fields name f e) {k : ItemsKind} (hc : (w.obj e).node = some (.sequential k))
    {src : Src Val} {E : List Val} (hit : SeqRun (w.obj e).seq src E)
    (hr : (w.obj e).seq.it.resetAfterCall = false) (h : DocHist str fields f e w ds w') :
    ∃ bs, List.Forall₂ (Shows name (w.obj f).hide) ds bs ∧ FairTurns (w.obj e).seq.items bs.flatten := by
  obtain ⟨bs, h1, h2, _⟩ := C85_sequential V str hk hb hu hc hit hr h
  obtain ⟨hp, l, rfl, hl⟩ := seqRun_atPos hit
  rw [hl]
  exact ⟨bs, h1, fair_of_cyclic hp.1 h2⟩
end

/-! ### Examples -/

/-- After one value of three, a call for three gives each item once, beginning with the second. -/
example : ∃ st : SeqSt Nat, Sequential.init [7, 8, 9] false = .ok st ∧
    (Sequential.call none st).1 = .ok [7] ∧
    (Sequential.call (some 3) (Sequential.call none st).2).1 = .ok [8, 9, 7] := ⟨_, rfl, rfl, rfl⟩

/-- Seven values of three items: two or three times each. -/
example : FairTurns [7, 8, 9] [8, 9, 7, 8, 9, 7, 8] :=
  fair_of_cyclic (s := 1) (by decide) (by unfold IsCyclicFrom; decide)

example : ¬ FairTurns [7, 8, 9] [8, 9, 8] := fun h => absurd ((h 7).1) (by decide)

end Fauxdoc
