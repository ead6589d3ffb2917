import Verif.Spec.Onward
import Verif.Props.Text3
/-
A `Text` that uses up its list of words within a call ends in a state that does not depend on the
state in which it began.
-/
set_option linter.unusedSectionVars false
namespace Fauxdoc
open PyM
variable {σ : Type}

namespace Text

/-- In the states `I` the words come `D` at a time, and resetting always leads to `z`. -/
structure Recycles (I : σ → Prop) (word : WordChild σ) (D : Nat) (z : σ) : Prop where
  pos : 0 < D
  zero : I z
  call : ∀ (k : Nat) s v t, I s → 1 ≤ k → k ≤ D → word.call (some (.int k)) s = (.ok v, t) →
    ∃ ws, v = .list ws ∧ ws.length = k ∧ I t
  reset : ∀ s, I s → word.reset s = (.ok (), z)
  roac : ∀ s, I s → word.roac s = (.ok (some (D : Int)), s)

/-- Two runs of the word iterator with `m` words to go: not begun, within the first block, or, after
the reset that ends the first block, the same. -/
inductive Stage (I : σ → Prop) (D T m : Nat) : WordsIter → σ → WordsIter → σ → Prop
  | start {s t : σ} (hm : m = T) (hs : I s) (ht : I t) :
    Stage I D T m (.blocks D T 0 []) s (.blocks D T 0 []) t
  | early {s t : σ} (buf buf' : List Val) (hl : buf.length = buf'.length)
    (hm : m = buf.length + (T - D)) (hs : I s) (ht : I t) :
    Stage I D T m (.blocks D T D buf) s (.blocks D T D buf') t
  | late (rem needed : Int) (buf : List Val) {s : σ} (hs : I s) :
    Stage I D T m (.blocks D rem needed buf) s (.blocks D rem needed buf) s

variable {I : σ → Prop} {word : WordChild σ} {D T m : Nat} {z : σ}

theorem nextBlock_first (h : Recycles I word D z) (hT : D < T) {fuel : Nat} {s t : σ}
    {p : Val × WordsIter} (hs : I s) (e : nextBlock word D (fuel + 1) T s = (.ok p, t)) :
    ∃ buf, buf.length + 1 = D ∧ p.2 = .blocks D T D buf ∧ I t := by
  unfold nextBlock at e
  rw [if_pos (by omega)] at e
  have hc : clamp (D : Int) none (some (T : Int)) = (D : Int) := by
    unfold clamp; simp; omega
  rw [hc] at e
  obtain ⟨v, s1, e1, e⟩ := bind_eq_ok e
  have := h.pos
  obtain ⟨ws, rfl, hl, hI⟩ := h.call _ _ _ _ hs (by omega) (by omega) e1
  obtain ⟨l, s2, e2, e⟩ := bind_eq_ok e
  cases e2
  cases ws with
  | nil => simp at hl; omega
  | cons x ws => cases e; exact ⟨ws, by simpa using hl, rfl, hI⟩

theorem nextBlock_in (h : Recycles I word D z) {fuel : Nat} {rem : Int} {s t : σ}
    {p : Val × WordsIter} (hs : I s) (e : nextBlock word D (fuel + 1) rem s = (.ok p, t)) :
    ∃ needed buf, p.2 = .blocks D rem needed buf ∧ I t := by
  unfold nextBlock at e
  by_cases hr : rem > 0
  · rw [if_pos hr] at e
    have hc : clamp (D : Int) none (some rem) = ((min D rem.toNat : Nat) : Int) := by
      unfold clamp
      dsimp only
      split <;> omega
    rw [hc] at e
    obtain ⟨v, s1, e1, e⟩ := bind_eq_ok e
    have := h.pos
    obtain ⟨ws, rfl, hl, hI⟩ := h.call _ _ _ _ hs (by omega) (by omega) e1
    obtain ⟨l, s2, e2, e⟩ := bind_eq_ok e
    cases e2
    cases ws with
    | nil => simp at hl; omega
    | cons x ws => cases e; exact ⟨_, ws, rfl, hI⟩
  · rw [if_neg hr] at e; cases e

/-- Taking a word. -/
theorem nextWord_stage (h : Recycles I word D z) (hT : D < T) {wi wi' : WordsIter} {s t s' t' : σ}
    {p p' : Val × WordsIter} (hst : Stage I D T (m + 1) wi s wi' t)
    (e : nextWord word wi s = (.ok p, s')) (e' : nextWord word wi' t = (.ok p', t')) :
    Stage I D T m p.2 s' p'.2 t' := by
  cases hst with
  | late rem needed buf hs =>
    rw [e] at e'
    cases e'
    cases buf with
    | cons x buf => cases e; exact .late _ _ _ hs
    | nil =>
      unfold nextWord at e
      dsimp only at e
      by_cases hn : needed = 0
      · rw [if_pos hn] at e
        obtain ⟨a, b, hp, ht⟩ := nextBlock_in h hs e
        rw [hp]; exact .late _ _ _ ht
      · rw [if_neg hn, bind_ok (h.reset _ hs)] at e
        obtain ⟨a, b, hp, ht⟩ := nextBlock_in h h.zero e
        rw [hp]; exact .late _ _ _ ht
  | start hm hs ht =>
    unfold nextWord at e e'
    dsimp only at e e'
    rw [if_pos rfl] at e e'
    obtain ⟨b, h1, h2, h3⟩ := nextBlock_first h hT hs e
    obtain ⟨b', h1', h2', h3'⟩ := nextBlock_first h hT ht e'
    rw [h2, h2']
    exact .early b b' (by omega) (by omega) h3 h3'
  | early buf buf' hl hm hs ht =>
    cases buf with
    | cons x buf =>
      cases buf' with
      | nil => cases hl
      | cons y buf' =>
        cases e; cases e'
        rw [List.length_cons] at hm hl
        exact .early buf buf' (by simpa using hl) (by omega) hs ht
    | nil =>
      cases buf' with
      | cons y buf' => cases hl
      | nil =>
        have := h.pos
        unfold nextWord at e e'
        dsimp only at e e'
        rw [if_neg (by omega), bind_ok (h.reset _ hs)] at e
        rw [if_neg (by omega), bind_ok (h.reset _ ht)] at e'
        rw [e] at e'
        cases e'
        obtain ⟨a, b, hp, ht⟩ := nextBlock_in h h.zero e
        rw [hp]
        exact .late _ _ _ ht

theorem renderRest_stage (h : Recycles I word D z) (hT : D < T) : ∀ (k m : Nat) {wi wi' : WordsIter}
    {s t s' t' : σ} {ss ss' : List Val} {p p' : List Val × WordsIter × List Val},
    Stage I D T (m + k) wi s wi' t → renderRest word k wi ss s = (.ok p, s') →
    renderRest word k wi' ss' t = (.ok p', t') → Stage I D T m p.2.1 s' p'.2.1 t' := by
  intro k
  induction k with
  | zero =>
    intro m wi wi' s t s' t' ss ss' p p' hst e e'
    cases e; cases e'
    exact hst
  | succ k ih =>
    intro m wi wi' s t s' t' ss ss' p p' hst e e'
    unfold renderRest at e e'
    obtain ⟨q, s1, e1, e⟩ := bind_eq_ok e
    obtain ⟨q', t1, e1', e'⟩ := bind_eq_ok e'
    have h1 := nextWord_stage h hT (m := m + k) hst e1 e1'
    obtain ⟨u, s2, e2, e⟩ := bind_eq_ok e
    obtain ⟨u', t2, e2', e'⟩ := bind_eq_ok e'
    have h2 := ih m h1 e2 e2'
    cases e; cases e'
    exact h2

theorem renderAll_stage (h : Recycles I word D z) (hT : D < T) : ∀ (ns : List Nat) (m : Nat)
    {wi wi' : WordsIter} {s t s' t' : σ} {ss ss' : List Val} {l l' : List Val},
    Stage I D T (m + ns.sum) wi s wi' t →
    renderAll word (ns.map fun n : Nat => (n : Int)) wi ss s = (.ok l, s') →
    renderAll word (ns.map fun n : Nat => (n : Int)) wi' ss' t = (.ok l', t') →
    ∃ wj wj', Stage I D T m wj s' wj' t' := by
  intro ns
  induction ns with
  | nil =>
    intro m wi wi' s t s' t' ss ss' l l' hst e e'
    cases e; cases e'
    exact ⟨_, _, hst⟩
  | cons n ns ih =>
    intro m wi wi' s t s' t' ss ss' l l' hst e e'
    rw [List.map_cons] at e e'
    unfold renderAll at e e'
    by_cases hn : (n : Int) = 0
    · rw [if_pos hn] at e e'
      rw [List.sum_cons, show n = 0 by omega, Nat.zero_add] at hst
      exact ih m hst e e'
    · rw [if_neg hn] at e e'
      obtain ⟨q, s1, e1, e⟩ := bind_eq_ok e
      obtain ⟨q', t1, e1', e'⟩ := bind_eq_ok e'
      rw [List.sum_cons, show m + (n + ns.sum) = (m + ns.sum + ((n : Int) - 1).toNat) + 1 by omega] at hst
      have h1 := nextWord_stage h hT hst e1 e1'
      obtain ⟨u, s2, e2, e⟩ := bind_eq_ok e
      obtain ⟨u', t2, e2', e'⟩ := bind_eq_ok e'
      have h2 := renderRest_stage h hT _ _ h1 e2 e2'
      obtain ⟨u1, u2, u3⟩ := u
      obtain ⟨v1, v2, v3⟩ := u'
      dsimp only at e e' h2
      obtain ⟨x, s3, e3, e⟩ := bind_eq_ok e
      obtain ⟨x', t3, e3', e'⟩ := bind_eq_ok e'
      have hx : s3 = s2 := (congrArg Prod.snd e3).symm
      have hx' : t3 = t2 := (congrArg Prod.snd e3').symm
      rw [hx] at e
      rw [hx'] at e'
      obtain ⟨y, s4, e4, e⟩ := bind_eq_ok e
      obtain ⟨y', t4, e4', e'⟩ := bind_eq_ok e'
      cases e; cases e'
      exact ih m h2 e4 e4'

/-- After a call that used up the list of words the state is always the same. -/
theorem emitMany_stage (h : Recycles I word D z) {numwords sep : Child σ} {n : Nat} {cs : List Val}
    {ns : List Nat} (hcs : AreCounts cs ns) (hT : D < ns.sum)
    (hnum : ∀ s, I s → numwords (some (.int n)) s = (.ok (.list cs), s))
    (hsep : ∀ a s, I s → (sep a s).2 = s) {s t s' t' : σ} {l l' : List Val}
    (hs : I s) (ht : I t) (e : emitMany numwords word sep n s = (.ok l, s'))
    (e' : emitMany numwords word sep n t = (.ok l', t')) : s' = t' ∧ I s' := by
  have step : ∀ {s s' : σ} {l : List Val}, I s → emitMany numwords word sep n s = (.ok l, s') →
      ∃ ss, renderAll word (ns.map fun n : Nat => (n : Int)) (.blocks D ns.sum 0 []) ss s = (.ok l, s') := by
    intro s s' l hs e
    have := h.pos
    unfold emitMany at e
    rw [bind_ok (hnum s hs), PyM.lift_bind (Val.elems_list _), PyM.lift_bind (sumInts_counts hcs)] at e
    have hg : getWordsIterator word (ns.sum : Int) s = (.ok (.blocks D ns.sum 0 []), s) := by
      unfold getWordsIterator
      rw [bind_ok (h.roac s hs)]
      dsimp only
      rw [if_pos ⟨by omega, by omega⟩]
      rfl
    dsimp only at e
    rw [bind_ok hg] at e
    obtain ⟨v, s1, e1, e⟩ := bind_eq_ok e
    have hv : s1 = s := by have := hsep (some (.int ((ns.sum : Int) - n))) s hs; rw [e1] at this; exact this
    rw [hv] at e
    obtain ⟨ss, s2, e2, e⟩ := bind_eq_ok e
    have hx : s2 = s := (congrArg Prod.snd e2).symm
    rw [hx] at e
    exact ⟨ss, e⟩
  obtain ⟨ss, e⟩ := step hs e
  obtain ⟨ss', e'⟩ := step ht e'
  obtain ⟨wj, wj', hf⟩ := renderAll_stage h hT ns 0 (.start (Nat.zero_add _) hs ht) e e'
  cases hf with
  | late _ _ _ hs => exact ⟨rfl, hs⟩
  | start hm => omega
  | early buf buf' hl hm => omega

end Text
end Fauxdoc
