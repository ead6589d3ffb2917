import Verif.Props.Text
import Verif.Spec.Emitter
import Mathlib.Data.Finset.NAry
import Mathlib.Algebra.BigOperators.Group.Finset.Basic
import Mathlib.Algebra.Order.BigOperators.Group.Finset
import Mathlib.Algebra.BigOperators.Group.List.Basic
/-
C31, C34: the reported numbers of unique values bound what words and texts can be emitted.
-/
namespace Fauxdoc
variable {σ : Type}

/-- A word of one of the lengths `L` over the characters `A`. -/
def PossibleWord (A : Finset (List Char)) (L : List Nat) (w : List Char) : Prop :=
  ∃ cs : List (List Char), cs.length ∈ L ∧ (∀ c ∈ cs, c ∈ A) ∧ w = cs.flatten

/-- A text with one of the word counts `C`, words from `W` and separators from `S`. -/
def PossibleText (W S : Finset (List Char)) (C : List Nat) (t : List Char) : Prop :=
  ∃ ws ss : List (List Char), ws.length ∈ C ∧ (∀ w ∈ ws, w ∈ W) ∧ (∀ s ∈ ss, s ∈ S) ∧
    TextOf ws ss t

/-- The string value lies in the set. -/
def StrIn (A : Finset (List Char)) (v : Val) : Prop := ∃ c ∈ A, v = .str c

/-- The value is one of the numbers. -/
def NatIn (L : List Nat) (v : Val) : Prop := ∃ k ∈ L, v = .int (k : Nat)

theorem all_strIn {A : Finset (List Char)} {l : List Val} (h : ∀ x ∈ l, StrIn A x) :
    ∃ cs : List (List Char), l = cs.map Val.str ∧ ∀ c ∈ cs, c ∈ A := by
  induction l with
  | nil => exact ⟨[], rfl, by simp⟩
  | cons x l ih =>
    obtain ⟨cs, rfl, h1⟩ := ih fun y hy => h y (by simp [hy])
    obtain ⟨c, hc, rfl⟩ := h x (by simp)
    exact ⟨c :: cs, rfl, by simpa [hc] using h1⟩

theorem all_natIn {L : List Nat} {l : List Val} (h : ∀ x ∈ l, NatIn L x) :
    ∃ ns : List Nat, AreCounts l ns ∧ ns.length = l.length ∧ ∀ k ∈ ns, k ∈ L := by
  induction l with
  | nil => exact ⟨[], rfl, rfl, by simp⟩
  | cons x l ih =>
    obtain ⟨ns, h0, h1, h2⟩ := ih fun y hy => h y (by simp [hy])
    obtain ⟨k, hk, rfl⟩ := h x (by simp)
    refine ⟨k :: ns, ?_, by simp [h1], by simpa [hk] using h2⟩
    unfold AreCounts at h0 ⊢
    simp [h0, Val.asInt]

theorem WordsOf.possible {ns : List Nat} {cs ws : List (List Char)} (h : WordsOf ns cs ws)
    {A : Finset (List Char)} {L : List Nat} (hA : ∀ c ∈ cs, c ∈ A) (hL : ∀ k ∈ ns, k ∈ L) :
    ∀ w ∈ ws, PossibleWord A L w := by
  induction h with
  | nil => simp
  | @cons ns cs cs' ts _ ih =>
    intro w hw
    rcases List.mem_cons.1 hw with rfl | hw
    · exact ⟨cs, hL _ (by simp), fun c hc => hA c (by simp [hc]), rfl⟩
    · exact ih (fun c hc => hA c (by simp [hc])) (fun k hk => hL k (by simp [hk])) w hw

/-- **C31 (words stay possible; C29 for Word).** If the length emitter emits only numbers of `L` and
the alphabet emitter only strings of `A`, then `Word` is an emitter of words of those lengths over
those characters. -/
theorem C31_word_emitter {length alphabet : Child σ} {A : Finset (List Char)} {L : List Nat}
    {I : σ → Prop} (hl : EmitterOf I length (NatIn L)) (ha : EmitterOf I alphabet (StrIn A)) :
    EmitterOf I (Word.call length alphabet)
      (fun v => ∃ w, v = .str w ∧ PossibleWord A L w) := by
  apply emitterOf_call
  · intro s v t hI h
    unfold Word.emit at h
    obtain ⟨k, s1, e1, h⟩ := PyM.bind_eq_ok h
    obtain ⟨cv, s2, e2, h⟩ := PyM.bind_eq_ok h
    obtain ⟨⟨n, hn, rfl⟩, hI1⟩ := hl.one _ _ _ hI e1
    obtain ⟨⟨l, rfl, hll, hP⟩, hI2⟩ := ha.many _ _ _ _ hI1 e2
    obtain ⟨cs, rfl, hcs⟩ := all_strIn hP
    rw [PyM.lift_bind (Val.elems_list _), PyM.lift_bind (joinEmpty_strs cs)] at h
    cases h
    exact ⟨⟨_, rfl, cs, by simpa [← hll] using hn, hcs, rfl⟩, hI2⟩
  · intro n s l t _ hI h
    have h0 := h
    unfold Word.emitMany at h
    obtain ⟨lv, s1, e1, h⟩ := PyM.bind_eq_ok h
    obtain ⟨⟨lens, rfl, hln, hP⟩, hI1⟩ := hl.many _ _ _ _ hI e1
    obtain ⟨ns, hns, hnl, hL⟩ := all_natIn hP
    rw [PyM.lift_bind (Val.elems_list _), PyM.lift_bind (sumInts_counts hns)] at h
    dsimp only at h
    obtain ⟨cv, s2, e2, h⟩ := PyM.bind_eq_ok h
    obtain ⟨⟨cl, rfl, hcl, hPc⟩, hI2⟩ := ha.many _ _ _ _ hI1 e2
    obtain ⟨cs, rfl, hcs⟩ := all_strIn hPc
    obtain ⟨ws, h1, h2⟩ := C30_emit_many length alphabet n e1 rfl hns e2 rfl (by simpa using hcl)
    rw [h0] at h1
    cases h1
    refine ⟨⟨by rw [List.length_map, h2.length.1, hnl, hln], ?_⟩, hI2⟩
    intro x hx
    obtain ⟨w, hw, rfl⟩ := List.mem_map.1 hx
    exact ⟨w, rfl, h2.possible hcs hL w hw⟩

/-! Counting -/

/-- The strings made of `k` members of `A`. -/
def stringsOver (A : Finset (List Char)) : Nat → Finset (List Char)
  | 0 => {[]}
  | k + 1 => Finset.image₂ (· ++ ·) A (stringsOver A k)

theorem mem_stringsOver {A : Finset (List Char)} {k : Nat} {w : List Char} :
    w ∈ stringsOver A k ↔
      ∃ cs : List (List Char), cs.length = k ∧ (∀ c ∈ cs, c ∈ A) ∧ w = cs.flatten := by
  induction k generalizing w with
  | zero =>
    simp only [stringsOver, Finset.mem_singleton]
    constructor
    · rintro rfl; exact ⟨[], rfl, by simp, rfl⟩
    · rintro ⟨cs, h1, _, rfl⟩
      rw [List.length_eq_zero_iff.1 h1]; rfl
  | succ k ih =>
    simp only [stringsOver, Finset.mem_image₂]
    constructor
    · rintro ⟨a, ha, b, hb, rfl⟩
      obtain ⟨cs, h1, h2, rfl⟩ := ih.1 hb
      exact ⟨a :: cs, by simp [h1], by simpa [ha] using h2, by simp⟩
    · rintro ⟨cs, h1, h2, rfl⟩
      cases cs with
      | nil => simp at h1
      | cons c cs =>
        exact ⟨c, h2 c (by simp), cs.flatten, ih.2 ⟨cs, by simpa using h1,
          fun d hd => h2 d (by simp [hd]), rfl⟩, by simp⟩

theorem card_stringsOver_le (A : Finset (List Char)) (k : Nat) :
    (stringsOver A k).card ≤ A.card ^ k := by
  induction k with
  | zero => simp [stringsOver]
  | succ k ih =>
    refine (Finset.card_image₂_le _ _ _).trans ?_
    rw [pow_succ, Nat.mul_comm]
    exact Nat.mul_le_mul_right _ ih

theorem card_stringsOver {A : Finset (List Char)} (h1 : ∀ c ∈ A, c.length = 1) (k : Nat) :
    (stringsOver A k).card = A.card ^ k := by
  induction k with
  | zero => simp [stringsOver]
  | succ k ih =>
    have : (stringsOver A (k + 1)).card = A.card * (stringsOver A k).card := by
      rw [stringsOver, Finset.card_image₂_iff]
      rintro ⟨a, b⟩ hab ⟨a', b'⟩ hab' e
      simp only [Set.mem_prod, Finset.mem_coe] at hab hab'
      have := List.append_inj e (by rw [h1 a hab.1, h1 a' hab'.1])
      exact Prod.ext this.1 this.2
    rw [this, ih, pow_succ, Nat.mul_comm]

theorem length_of_stringsOver {A : Finset (List Char)} (h1 : ∀ c ∈ A, c.length = 1) {k : Nat}
    {w : List Char} (h : w ∈ stringsOver A k) : w.length = k := by
  obtain ⟨cs, rfl, h2, rfl⟩ := mem_stringsOver.1 h
  clear h
  induction cs with
  | nil => rfl
  | cons c cs ih =>
    rw [List.flatten_cons, List.length_append, h1 c (h2 c (by simp)),
      ih fun d hd => h2 d (by simp [hd]), List.length_cons]
    omega

/-- The finite set of possible words. -/
def wordSet (A : Finset (List Char)) (L : List Nat) : Finset (List Char) :=
  L.toFinset.biUnion (stringsOver A)

theorem mem_wordSet {A : Finset (List Char)} {L : List Nat} {w : List Char} :
    w ∈ wordSet A L ↔ PossibleWord A L w := by
  simp only [wordSet, Finset.mem_biUnion, List.mem_toFinset, mem_stringsOver]
  constructor
  · rintro ⟨k, hk, cs, rfl, h2, h3⟩; exact ⟨cs, hk, h2, h3⟩
  · rintro ⟨cs, hk, h2, h3⟩; exact ⟨_, hk, cs, rfl, h2, h3⟩

theorem sum_toFinset_le (L : List Nat) (f : Nat → Nat) :
    ∑ k ∈ L.toFinset, f k ≤ (L.map f).sum := by
  induction L with
  | nil => simp
  | cons a L ih =>
    rw [List.toFinset_cons, List.map_cons, List.sum_cons]
    by_cases h : a ∈ L.toFinset
    · rw [Finset.insert_eq_of_mem h]; omega
    · rw [Finset.sum_insert h]; omega

theorem card_wordSet_le (A : Finset (List Char)) (L : List Nat) :
    (wordSet A L).card ≤ (L.map fun k => A.card ^ k).sum :=
  Finset.card_biUnion_le.trans ((Finset.sum_le_sum fun k _ => card_stringsOver_le A k).trans
    (sum_toFinset_le L fun k => A.card ^ k))

theorem mapPy_ok_map {α β : Type} {f : α → Py β} {g : α → β} {l : List α}
    (h : ∀ a ∈ l, f a = .ok (g a)) : mapPy f l = .ok (l.map g) := by
  rw [mapPy_ok_iff, List.forall₂_map_right_iff, List.forall₂_same]
  exact h

theorem cast_list_sum (L : List Nat) (f : Nat → Nat) :
    ((L.map f).sum : ℚ) = (L.map fun k => (f k : ℚ)).sum := by
  induction L with
  | nil => simp
  | cons a L ih => simp [ih]

theorem wordNumUnique_eq (N : Nat) (L : List Nat) :
    wordNumUnique (some (N : ℚ)) (some (L.map fun (k : Nat) => Val.int k)) =
      .ok (some ((L.map fun k => N ^ k).sum : Nat)) := by
  unfold wordNumUnique
  dsimp only
  have : mapPy (pyPow (N : ℚ)) (L.map fun (k : Nat) => Val.int k) =
      .ok ((L.map fun (k : Nat) => Val.int k).map fun v =>
        (N : ℚ) ^ (v.asInt.getD 0).toNat) := by
    apply mapPy_ok_map
    intro v hv
    obtain ⟨k, _, rfl⟩ := List.mem_map.1 hv
    rfl
  rw [this, Py.ok_bind, List.map_map, cast_list_sum]
  simp only [Py.pure_eq, Nat.cast_pow]
  rfl

/-- **C31 (bound).** If the length emitter emits only its items `L` (non-negative numbers) and the
alphabet emitter at most `N` different strings, then `num_unique_values` is defined and however
many words are emitted, in whatever states, at most that many of them are different. -/
theorem C31_bound {length alphabet : Child σ} {A : Finset (List Char)} {L : List Nat} {N : Nat}
    (hN : A.card ≤ N) {I : σ → Prop}
    (hl : EmitterOf I length (NatIn L)) (ha : EmitterOf I alphabet (StrIn A)) :
    ∃ q, wordNumUnique (some N) (some (L.map fun (k : Nat) => Val.int k)) = .ok (some q) ∧
      ∀ F : Finset Val, (∀ w ∈ F, Emitted I (Word.call length alphabet) w) → (F.card : ℚ) ≤ q := by
  refine ⟨_, wordNumUnique_eq N L, fun F hF => ?_⟩
  have hsub : F ⊆ (wordSet A L).image Val.str := by
    intro v hv
    obtain ⟨w, rfl, hw⟩ := (C31_word_emitter hl ha).emitted (hF v hv)
    exact Finset.mem_image_of_mem _ (mem_wordSet.2 hw)
  have h1 := (Finset.card_le_card hsub).trans (Finset.card_image_le.trans (card_wordSet_le A L))
  have h2 : (L.map fun k => A.card ^ k).sum ≤ (L.map fun k => N ^ k).sum :=
    List.sum_le_sum fun k _ => Nat.pow_le_pow_left hN k
  exact_mod_cast h1.trans h2

/-- **C31 (exactness).** If the lengths are pairwise different and the alphabet consists of `N`
different single characters, exactly `num_unique_values` words are possible. -/
theorem C31_exact {A : Finset (List Char)} {L : List Nat} (h1 : ∀ c ∈ A, c.length = 1)
    (hL : L.Nodup) :
    ∃ F : Finset (List Char), (∀ w, w ∈ F ↔ PossibleWord A L w) ∧
      wordNumUnique (some A.card) (some (L.map fun (k : Nat) => Val.int k)) =
        .ok (some (F.card : ℚ)) := by
  refine ⟨wordSet A L, fun w => mem_wordSet, ?_⟩
  rw [wordNumUnique_eq, wordSet, Finset.card_biUnion]
  · simp only [card_stringsOver h1]
    rw [List.sum_toFinset _ hL]
  · intro a _ b _ hab
    change Disjoint (stringsOver A a) (stringsOver A b)
    rw [Finset.disjoint_left]
    intro w hw hw'
    exact hab ((length_of_stringsOver h1 hw).symm.trans (length_of_stringsOver h1 hw'))

/-- An emitter that repeats `l` in batches of `l.length`, and else `d`. -/
def scriptChild (d : Val) (l : List Val) : Child σ
  | none => pure d
  | some .none => pure d
  | some v =>
    match v.asInt with
    | some n => if n = l.length then pure (.list l) else pure (.list (List.replicate n.toNat d))
    | none => PyM.raise .typeError

theorem scriptChild_emitter {d : Val} {l : List Val} {P : Val → Prop} (hd : P d)
    (hl : ∀ x ∈ l, P x) {I : σ → Prop} : EmitterOf I (scriptChild (σ := σ) d l) P where
  one s v t hI h := by cases h; exact ⟨hd, hI⟩
  none s v t hI h := by cases h; exact ⟨hd, hI⟩
  many n s v t hI h := by
    change (if (n : Int) = l.length then pure (.list l)
      else pure (.list (List.replicate (n : Int).toNat d)) : PyM σ Val) s = _ at h
    by_cases hn : (n : Int) = l.length
    · rw [if_pos hn] at h
      cases h
      exact ⟨⟨l, rfl, by omega, hl⟩, hI⟩
    · rw [if_neg hn] at h
      cases h
      exact ⟨⟨_, rfl, by simp, fun x hx => by rw [List.eq_of_mem_replicate hx]; exact hd⟩, hI⟩

/-- **C31 (attained).** Every possible word is emitted with suitable children. -/
theorem C31_attained {A : Finset (List Char)} {L : List Nat} {w : List Char} (hA : A.Nonempty)
    (h : PossibleWord A L w) :
    ∃ length alphabet : Child Unit, EmitterOf (fun _ => True) length (NatIn L) ∧
      EmitterOf (fun _ => True) alphabet (StrIn A) ∧ Emitted (fun _ => True) (Word.call length alphabet) (.str w) := by
  obtain ⟨cs, hk, hcs, rfl⟩ := h
  obtain ⟨a, ha⟩ := hA
  refine ⟨scriptChild (.int (cs.length : Nat)) [], scriptChild (.str a) (cs.map Val.str),
    scriptChild_emitter ⟨_, hk, rfl⟩ (by simp),
    scriptChild_emitter ⟨a, ha, rfl⟩ ?_, (), (), trivial, .inl ?_⟩
  · intro x hx
    obtain ⟨c, hc, rfl⟩ := List.mem_map.1 hx
    exact ⟨c, hcs c hc, rfl⟩
  · refine C30_emit _ _ (k := .int (cs.length : Nat)) (s1 := ()) (cv := .list (cs.map Val.str)) rfl ?_ rfl
    change (if ((cs.length : Nat) : Int) = (cs.map Val.str).length then
      pure (.list (cs.map Val.str)) else _ : PyM Unit Val) () = _
    rw [if_pos (by simp)]
    rfl

example : wordNumUnique (some 3) (some [.int 2, .int 1, .int 0]) = .ok (some 13) := by
  decide +kernel

/-! ### C34 -/

open Text

/-- Everything an iterator still holds, or will draw, is fine. -/
def GoodIter (P : Val → Prop) : WordsIter → Prop
  | .drawn l => ∀ x ∈ l, P x
  | .blocks nu _ needed buf => 0 ≤ nu ∧ 0 ≤ needed ∧ ∀ x ∈ buf, P x

theorem nextBlock_good {word : WordChild σ} {I : σ → Prop} {P : Val → Prop}
    (hw : WordEmitterOf I word P)
    {nu : Int} (hnu : 0 ≤ nu) {fuel : Nat} {rem : Int} {s t : σ} {v : Val} {wi : WordsIter}
    (hI : I s) (h : nextBlock word nu fuel rem s = (.ok (v, wi), t)) :
    (P v ∧ GoodIter P wi) ∧ I t := by
  induction fuel generalizing rem s with
  | zero => cases h
  | succ fuel ih =>
    unfold nextBlock at h
    by_cases hr : rem > 0
    · rw [if_pos hr] at h
      obtain ⟨wv, s1, e1, h⟩ := PyM.bind_eq_ok h
      have hn : 0 ≤ clamp nu none (some rem) := by
        unfold clamp
        dsimp only
        split <;> omega
      rw [← Int.toNat_of_nonneg hn] at e1
      obtain ⟨⟨l, rfl, _, hl⟩, hI1⟩ := hw.call.many _ _ _ _ hI e1
      rw [PyM.lift_bind (Val.elems_list _)] at h
      cases l with
      | nil =>
        dsimp only at h
        obtain ⟨_, s2, e2, h⟩ := PyM.bind_eq_ok h
        exact ih (hw.reset _ _ hI1 e2) h
      | cons x l =>
        cases h
        exact ⟨⟨hl _ (by simp), hnu, hn, fun y hy => hl y (by simp [hy])⟩, hI1⟩
    · rw [if_neg hr] at h
      cases h

theorem nextWord_good {word : WordChild σ} {I : σ → Prop} {P : Val → Prop}
    (hw : WordEmitterOf I word P)
    {wi wi' : WordsIter} (hg : GoodIter P wi) {s t : σ} {v : Val} (hI : I s)
    (h : nextWord word wi s = (.ok (v, wi'), t)) : (P v ∧ GoodIter P wi') ∧ I t := by
  cases wi with
  | drawn l =>
    cases l with
    | nil => cases h
    | cons x l => cases h; exact ⟨⟨hg _ (by simp), fun y hy => hg y (by simp [hy])⟩, hI⟩
  | blocks nu rem needed buf =>
    obtain ⟨h1, h2, h3⟩ := hg
    cases buf with
    | cons x l => cases h; exact ⟨⟨h3 _ (by simp), h1, h2, fun y hy => h3 y (by simp [hy])⟩, hI⟩
    | nil =>
      rw [nextWord_end] at h
      by_cases hn : needed = 0
      · rw [if_pos hn] at h
        exact nextBlock_good hw h1 hI h
      · rw [if_neg hn] at h
        obtain ⟨_, _, e1, h⟩ := PyM.bind_eq_ok h
        exact nextBlock_good hw h1 (hw.reset _ _ hI e1) h

theorem yields_good {word : WordChild σ} {I : σ → Prop} {P : Val → Prop}
    (hw : WordEmitterOf I word P)
    {wi wi' : WordsIter} {s t : σ} {vs : List Val} (h : Yields word wi s vs wi' t)
    (hg : GoodIter P wi) (hI : I s) : (∀ v ∈ vs, P v) ∧ I t := by
  induction h with
  | nil => exact ⟨by simp, hI⟩
  | cons h1 _ ih =>
    have := nextWord_good hw hg hI h1
    have ih := ih this.1.2 this.2
    exact ⟨by simpa [this.1.1] using ih.1, ih.2⟩

theorem renderRest_yields {word : WordChild σ} {k : Nat} {wi wi' : WordsIter} {seps seps' : List Val}
    {r : List Val} {s t : σ} (h : renderRest word k wi seps s = (.ok (r, wi', seps'), t)) :
    ∃ vs, Yields word wi s vs wi' t ∧ vs.length = k := by
  induction k generalizing wi seps r s with
  | zero => cases h; exact ⟨[], .nil _ _, rfl⟩
  | succ k ih =>
    unfold renderRest at h
    dsimp only at h
    obtain ⟨⟨w, wi1⟩, s1, e1, h⟩ := PyM.bind_eq_ok h
    obtain ⟨⟨r1, wi2, seps1⟩, s2, e2, h⟩ := PyM.bind_eq_ok h
    cases h
    obtain ⟨vs, h1, h2⟩ := ih e2
    exact ⟨w :: vs, .cons e1 h1, by simp [h2]⟩

theorem renderAll_yields {word : WordChild σ} {ns : List Nat} {wi : WordsIter} {seps ts : List Val}
    {s t : σ}
    (h : renderAll word (ns.map fun (n : Nat) => (n : Int)) wi seps s = (.ok ts, t)) :
    ∃ vs wi', Yields word wi s vs wi' t ∧ vs.length = ns.sum := by
  induction ns generalizing wi seps ts s with
  | nil => cases h; exact ⟨[], wi, .nil _ _, rfl⟩
  | cons n ns ih =>
    rw [List.map_cons] at h
    unfold renderAll at h
    by_cases hn : (n : Int) = 0
    · rw [if_pos hn] at h
      obtain ⟨vs, wi', h1, h2⟩ := ih h
      exact ⟨vs, wi', h1, by simp [h2]; omega⟩
    · rw [if_neg hn] at h
      obtain ⟨⟨w, wi1⟩, s1, e1, h⟩ := PyM.bind_eq_ok h
      obtain ⟨⟨r, wi2, seps1⟩, s2, e2, h⟩ := PyM.bind_eq_ok h
      obtain ⟨tx, s3, e3, h⟩ := PyM.bind_eq_ok h
      obtain ⟨ts', s4, e4, h⟩ := PyM.bind_eq_ok h
      cases h
      obtain rfl : s2 = s3 := congrArg Prod.snd e3
      obtain ⟨vs1, h1, h2⟩ := renderRest_yields e2
      obtain ⟨vs2, wi', h3, h4⟩ := ih e4
      refine ⟨w :: (vs1 ++ vs2), wi', .cons e1 (h1.trans h3), ?_⟩
      simp [h2, h4]; omega

theorem getWordsIterator_good {word : WordChild σ} {I : σ → Prop} {P : Val → Prop}
    (hw : WordEmitterOf I word P) {total : Nat} {s t : σ} (hI : I s)
    {wi : WordsIter} (h : getWordsIterator word total s = (.ok wi, t)) : GoodIter P wi ∧ I t := by
  have draw : ∀ s, I s → (do
      let ws ← word.call (some (.int (total : Int)))
      return .drawn (← PyM.lift ws.elems) : PyM σ WordsIter) s = (.ok wi, t) →
      GoodIter P wi ∧ I t := by
    intro s hI h
    obtain ⟨wv, s1, e1, h⟩ := PyM.bind_eq_ok h
    obtain ⟨⟨l, rfl, _, hl⟩, hI1⟩ := hw.call.many _ _ _ _ hI e1
    rw [PyM.lift_bind (Val.elems_list _)] at h
    cases h
    exact ⟨hl, hI1⟩
  unfold getWordsIterator at h
  obtain ⟨r, s1, e1, h⟩ := PyM.bind_eq_ok h
  obtain ⟨hI1, hD⟩ := hw.roac _ _ _ hI e1
  cases r with
  | none => exact draw _ hI1 h
  | some D =>
    dsimp only at h
    by_cases hc : D ≠ 0 ∧ (total : Int) > D
    · rw [if_pos hc] at h
      cases h
      exact ⟨⟨hD D rfl, le_refl _, by simp⟩, hI1⟩
    · rw [if_neg hc] at h
      exact draw _ hI1 h

theorem TextsOf.possible {ns : List Nat} {ws ss ts : List (List Char)} (h : TextsOf ns ws ss ts)
    {W S : Finset (List Char)} {C : List Nat} (hW : ∀ w ∈ ws, w ∈ W) (hS : ∀ s ∈ ss, s ∈ S)
    (hC : ∀ k ∈ ns, k ∈ C) : ts.length = ns.length ∧ ∀ t ∈ ts, PossibleText W S C t := by
  induction h with
  | nil => simp
  | @cons ns ws ss ws' ss' ts t h _ ih =>
    have := ih (fun w hw => hW w (by simp [hw])) (fun w hw => hS w (by simp [hw]))
      (fun w hw => hC w (by simp [hw]))
    refine ⟨by simp [this.1], ?_⟩
    intro t' ht
    rcases List.mem_cons.1 ht with rfl | ht
    · exact ⟨ws, ss, hC _ (by simp), fun w hw => hW w (by simp [hw]),
        fun w hw => hS w (by simp [hw]), h⟩
    · exact this.2 t' ht

theorem text_emitMany_possible {numwords sep : Child σ} {word : WordChild σ}
    {W S : Finset (List Char)} {C : List Nat}
    {I : σ → Prop} (hn : EmitterOf I numwords (NatIn C)) (hw : WordEmitterOf I word (StrIn W))
    (hs : EmitterOf I sep (StrIn S)) (hC : ∀ k ∈ C, 1 ≤ k) (n : Nat) {s t : σ} {l : List Val}
    (hI : I s) (h : Text.emitMany numwords word sep n s = (.ok l, t)) :
    (l.length = n ∧ ∀ v ∈ l, ∃ x, v = .str x ∧ PossibleText W S C x) ∧ I t := by
  have h0 := h
  unfold Text.emitMany at h
  obtain ⟨nv, s1, e1, h⟩ := PyM.bind_eq_ok h
  obtain ⟨⟨cnts, rfl, hcl, hP⟩, hI1⟩ := hn.many _ _ _ _ hI e1
  obtain ⟨ns, hns, hnl, hL⟩ := all_natIn hP
  rw [PyM.lift_bind (Val.elems_list _), PyM.lift_bind (sumInts_counts hns)] at h
  dsimp only at h
  obtain ⟨wi, s2, e2, h⟩ := PyM.bind_eq_ok h
  obtain ⟨sv, s3, e3, h⟩ := PyM.bind_eq_ok h
  have hge : ns.length ≤ ns.sum := by
    clear * - hL hC
    induction ns with
    | nil => simp
    | cons k ns ih =>
      have := ih fun j hj => hL j (by simp [hj])
      have := hC k (hL k (by simp))
      simp; omega
  have hk : ((ns.sum : Int) - n) = ((ns.sum - n : Nat) : Int) := by omega
  rw [hk] at e3
  obtain ⟨hgood, hI2⟩ := getWordsIterator_good hw hI1 e2
  obtain ⟨⟨sl, rfl, hsl, hPs⟩, hI3⟩ := hs.many _ _ _ _ hI2 e3
  obtain ⟨ss, rfl, hss⟩ := all_strIn hPs
  rw [PyM.lift_bind (Val.elems_list _)] at h
  obtain ⟨vs, wi', hy, hvl⟩ := renderAll_yields h
  obtain ⟨hall, hI4⟩ := yields_good hw hy hgood hI3
  obtain ⟨ws, rfl, hws⟩ := all_strIn hall
  obtain ⟨ts, h1, h2⟩ := renderAll_spec word ns ws ss hy (by simpa using hvl)
  rw [h] at h1
  cases h1
  have hf : ns.filter (· ≠ 0) = ns := List.filter_eq_self.2 fun k hk => by
    have := hC k (hL k hk)
    simp; omega
  rw [hf, padTake_eq] at h2
  have hlen : ss.length = ns.sum - ns.length := by
    rw [List.length_map] at hsl; omega
  rw [← hlen, List.take_length, Nat.sub_self, List.replicate_zero, List.append_nil] at h2
  have := h2.possible hws hss hL
  refine ⟨⟨by rw [List.length_map, this.1, hnl, hcl], ?_⟩, hI4⟩
  intro v hv
  obtain ⟨x, hx, rfl⟩ := List.mem_map.1 hv
  exact ⟨x, rfl, this.2 x hx⟩

/-- **C34 (texts stay possible; C29 for Text).** If the word counts are numbers of `C`, all at least
1, and words and separators come from `W` and `S`, then `Text` is an emitter of texts with those
counts, words and separators. -/
theorem C34_text_emitter {numwords sep : Child σ} {word : WordChild σ}
    {W S : Finset (List Char)} {C : List Nat}
    {I : σ → Prop} (hn : EmitterOf I numwords (NatIn C)) (hw : WordEmitterOf I word (StrIn W))
    (hs : EmitterOf I sep (StrIn S)) (hC : ∀ k ∈ C, 1 ≤ k) :
    EmitterOf I (Text.call numwords word sep)
      (fun v => ∃ x, v = .str x ∧ PossibleText W S C x) := by
  apply emitterOf_call
  · intro s v t hI h
    unfold Text.emit at h
    obtain ⟨l, s1, e1, h⟩ := PyM.bind_eq_ok h
    have := text_emitMany_possible hn hw hs hC 1 hI e1
    obtain ⟨x, rfl⟩ := List.length_eq_one_iff.1 this.1.1
    cases h
    exact ⟨this.1.2 _ (by simp), this.2⟩
  · intro n s l t _ hI h
    exact text_emitMany_possible hn hw hs hC n hI h

/-- The texts of `k + 1` words from `W` and `k` separators from `S`. -/
def textsOver (W S : Finset (List Char)) : Nat → Finset (List Char)
  | 0 => W
  | k + 1 => Finset.image₂ (· ++ ·) (Finset.image₂ (· ++ ·) W S) (textsOver W S k)

theorem mem_textsOver {W S : Finset (List Char)} {ws ss : List (List Char)} {t : List Char}
    (h : TextOf ws ss t) (hW : ∀ w ∈ ws, w ∈ W) (hS : ∀ s ∈ ss, s ∈ S) :
    t ∈ textsOver W S ss.length := by
  induction h with
  | one w => exact hW w (by simp)
  | more w s _ ih =>
    refine Finset.mem_image₂.2 ⟨w ++ s, Finset.mem_image₂.2 ⟨w, hW w (by simp), s, hS s (by simp),
      rfl⟩, _, ih (fun x hx => hW x (by simp [hx])) (fun x hx => hS x (by simp [hx])), rfl⟩

theorem card_textsOver_le (W S : Finset (List Char)) (k : Nat) :
    (textsOver W S k).card ≤ W.card ^ (k + 1) * S.card ^ k := by
  induction k with
  | zero => simp [textsOver]
  | succ k ih =>
    refine (Finset.card_image₂_le _ _ _).trans ?_
    refine (Nat.mul_le_mul (Finset.card_image₂_le _ _ _) ih).trans (le_of_eq ?_)
    ring

theorem textNumUnique_eq (w s : Nat) (C : List Nat) (hC : ∀ k ∈ C, 1 ≤ k) :
    textNumUnique (some (w : ℚ)) (some (s : ℚ)) (some (C.map fun (k : Nat) => Val.int k)) =
      .ok (some ((C.map fun k => w ^ k * s ^ (k - 1)).sum : Nat)) := by
  unfold textNumUnique
  dsimp only
  have : mapPy (fun v => do
      let a ← pyPow (w : ℚ) v
      let i ← v.toInt
      let b ← pyPow (s : ℚ) (.int (i - 1))
      return a * b) (C.map fun (k : Nat) => Val.int k) =
      .ok ((C.map fun (k : Nat) => Val.int k).map fun v =>
        (w : ℚ) ^ (v.asInt.getD 0).toNat * (s : ℚ) ^ ((v.asInt.getD 0).toNat - 1)) := by
    apply mapPy_ok_map
    intro v hv
    obtain ⟨k, hk, rfl⟩ := List.mem_map.1 hv
    have hk1 := hC k hk
    have e : ((k : Int) - 1) = ((k - 1 : Nat) : Int) := by omega
    have e1 : pyPow (w : ℚ) (.int (k : Int)) = .ok ((w : ℚ) ^ k) := rfl
    have e2 : (Val.int (k : Int)).toInt = .ok (k : Int) := rfl
    have e3 : pyPow (s : ℚ) (.int ((k - 1 : Nat) : Int)) = .ok ((s : ℚ) ^ (k - 1)) := rfl
    rw [e1, Py.ok_bind, e2, Py.ok_bind, e, e3, Py.ok_bind]
    rfl
  rw [this, Py.ok_bind, List.map_map, cast_list_sum]
  simp only [Py.pure_eq, Nat.cast_pow, Nat.cast_mul]
  rfl

/-- **C34 (bound).** With word counts `C` (all at least 1), at most `w` different words and at most
`s` different separators, `num_unique_values` is defined and however many texts are emitted, in
whatever states, at most that many of them are different. -/
theorem C34_bound {numwords sep : Child σ} {word : WordChild σ}
    {W S : Finset (List Char)} {C : List Nat} {w s : Nat} (hcw : W.card ≤ w) (hcs : S.card ≤ s)
    {I : σ → Prop} (hn : EmitterOf I numwords (NatIn C)) (hw : WordEmitterOf I word (StrIn W))
    (hs : EmitterOf I sep (StrIn S)) (hC : ∀ k ∈ C, 1 ≤ k) :
    ∃ q, textNumUnique (some w) (some s) (some (C.map fun (k : Nat) => Val.int k)) =
        .ok (some q) ∧
      ∀ F : Finset Val, (∀ v ∈ F, Emitted I (Text.call numwords word sep) v) → (F.card : ℚ) ≤ q := by
  refine ⟨_, textNumUnique_eq w s C hC, fun F hF => ?_⟩
  have hsub : F ⊆ (C.toFinset.biUnion fun k => textsOver W S (k - 1)).image Val.str := by
    intro v hv
    obtain ⟨x, rfl, ws, ss, h1, h2, h3, h4⟩ :=
      (C34_text_emitter hn hw hs hC).emitted (hF v hv)
    refine Finset.mem_image_of_mem _ (Finset.mem_biUnion.2 ⟨_, List.mem_toFinset.2 h1, ?_⟩)
    rw [h4.length, Nat.add_sub_cancel]
    exact mem_textsOver h4 h2 h3
  have h1 := (Finset.card_le_card hsub).trans (Finset.card_image_le.trans Finset.card_biUnion_le)
  have h2 : ∑ k ∈ C.toFinset, (textsOver W S (k - 1)).card ≤
      ∑ k ∈ C.toFinset, w ^ k * s ^ (k - 1) := by
    apply Finset.sum_le_sum
    intro k hk
    have hk1 := hC k (List.mem_toFinset.1 hk)
    have := card_textsOver_le W S (k - 1)
    rw [Nat.sub_add_cancel hk1] at this
    exact this.trans (Nat.mul_le_mul (Nat.pow_le_pow_left hcw k) (Nat.pow_le_pow_left hcs _))
  have h3 := h1.trans (h2.trans (sum_toFinset_le C fun k => w ^ k * s ^ (k - 1)))
  exact_mod_cast h3

/-- **C34 (why the counts must be positive).** With a word count of zero and two separators,
`num_unique_values` is the non-integer 1/2. -/
theorem C34_zero_count : textNumUnique (some 3) (some 2) (some [.int 0]) = .ok (some (1 / 2)) := by
  decide +kernel

example : textNumUnique (some 3) (some 2) (some [.int 1, .int 2]) = .ok (some 21) := by
  decide +kernel
example : TextOf [['a'], ['b']] [['-']] ['a', '-', 'b'] := .more ['a'] ['-'] (.one ['b'])

end Fauxdoc
