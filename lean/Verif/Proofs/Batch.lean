import Verif.Spec.Batch
import Verif.Proofs.Contract2
import Verif.Props.Text3
/-
Single objects: one call for `a + b` values is a call for `a` followed by a call for `b`.
-/
set_option linter.unusedSectionVars false
namespace Fauxdoc
open PyM

/-- A call for `a + b` values returns `l` exactly if a call for `a` and then one for `b` values
return the two parts of `l`, with the same effect. -/
def SplitsAt {σ : Type} (c : Child σ) (s : σ) : Prop :=
  ∀ (a b : Nat) (l : List Val) (s2 : σ),
    c (some (.int ((a + b : Nat) : Int))) s = (.ok (.list l), s2) ↔
      ∃ la lb s1, c (some (.int a)) s = (.ok (.list la), s1) ∧
        c (some (.int b)) s1 = (.ok (.list lb), s2) ∧ l = la ++ lb

/-! ### Iterative -/

namespace Iterative
variable {α : Type}

theorem nextItem_reset (s : IterSt α) : (nextItem s).2.resetAfterCall = s.resetAfterCall := by
  unfold nextItem
  rcases s.cur.next with _ | ⟨_, _⟩
  · dsimp only
    rcases s.factory.src.next with _ | ⟨_, _⟩ <;> rfl
  · rfl

theorem takeItems_reset : ∀ (n : Nat) (s : IterSt α),
    (takeItems n s).2.resetAfterCall = s.resetAfterCall := by
  intro n
  induction n with
  | zero => intro s; rfl
  | succ n ih =>
    intro s
    unfold takeItems
    rw [bind_apply]
    have h1 := nextItem_reset s
    rcases hx : nextItem s with ⟨_ | a, s1⟩
    · rw [hx] at h1; exact h1
    · rw [hx] at h1
      dsimp only
      rw [bind_apply]
      have h2 := ih s1
      rcases hy : takeItems n s1 with ⟨_ | as, s2⟩
      · rw [hy] at h2; exact h2.trans h1
      · rw [hy] at h2; exact h2.trans h1

theorem takeItems_add (a b : Nat) (s : IterSt α) (l : List α) (s2 : IterSt α) :
    takeItems (a + b) s = (.ok l, s2) ↔ ∃ la lb s1, takeItems a s = (.ok la, s1) ∧
      takeItems b s1 = (.ok lb, s2) ∧ l = la ++ lb := by
  induction a generalizing s l with
  | zero =>
    rw [Nat.zero_add]
    constructor
    · intro h; exact ⟨[], l, s, rfl, h, rfl⟩
    · rintro ⟨la, lb, s1, h1, h2, rfl⟩
      cases h1; exact h2
  | succ a ih =>
    rw [Nat.succ_add]
    constructor
    · intro h
      unfold takeItems at h
      obtain ⟨x, s1, h1, h⟩ := bind_eq_ok h
      obtain ⟨xs, s3, h2, h⟩ := bind_eq_ok h
      cases h
      obtain ⟨la, lb, s4, h3, h4, rfl⟩ := (ih s1 xs).1 h2
      refine ⟨x :: la, lb, s4, ?_, h4, rfl⟩
      unfold takeItems
      rw [bind_ok h1, bind_ok h3]; rfl
    · rintro ⟨la, lb, s1, h1, h2, rfl⟩
      unfold takeItems at h1
      obtain ⟨x, s3, h3, h1⟩ := bind_eq_ok h1
      obtain ⟨xs, s4, h4, h1⟩ := bind_eq_ok h1
      cases h1
      unfold takeItems
      rw [bind_ok h3, bind_ok ((ih s3 (xs ++ lb)).2 ⟨xs, lb, s1, h4, h2, rfl⟩)]
      rfl

theorem afterCall_none {s : IterSt α} (h : s.resetAfterCall = false) : afterCall s = (.ok (), s) := by
  unfold afterCall
  rw [run_get_bind, h]; rfl

/-- Without `reset_after_call`, a call for `n` values is `n` steps of the iterator. -/
theorem many_run {s : IterSt α} (h : s.resetAfterCall = false) (n : Nat) (l : List α)
    (s2 : IterSt α) : call (some (n : Int)) s = (.ok l, s2) ↔ takeItems n s = (.ok l, s2) := by
  unfold call
  dsimp only
  by_cases h1 : (n : Int) = 1
  · obtain rfl : n = 1 := by omega
    rw [if_pos h1]
    unfold emit
    constructor
    · intro hc
      obtain ⟨x, t, hx, hc⟩ := bind_eq_ok hc
      cases hc
      obtain ⟨y, t, hy, hx⟩ := bind_eq_ok hx
      obtain ⟨_, t', hz, hx⟩ := bind_eq_ok hx
      cases hx
      have := nextItem_reset s
      rw [hy] at this
      rw [afterCall_none (this.trans h)] at hz
      cases hz
      unfold takeItems
      rw [bind_ok hy]; rfl
    · intro hc
      unfold takeItems at hc
      obtain ⟨x, t, hx, hc⟩ := bind_eq_ok hc
      cases hc
      have := nextItem_reset s
      rw [hx] at this
      have he : (do let a ← nextItem; afterCall; return a : PyM (IterSt α) α) s = (.ok x, s2) := by
        rw [bind_ok hx, bind_ok (afterCall_none (this.trans h))]; rfl
      rw [bind_ok he]; rfl
  · rw [if_neg h1]
    unfold emitMany
    rw [if_neg (by omega), Int.toNat_natCast]
    constructor
    · intro hc
      obtain ⟨as, t, hx, hc⟩ := bind_eq_ok hc
      obtain ⟨_, t', hz, hc⟩ := bind_eq_ok hc
      cases hc
      have := takeItems_reset n s
      rw [hx] at this
      rw [afterCall_none (this.trans h)] at hz
      cases hz
      exact hx
    · intro hx
      have := takeItems_reset n s
      rw [hx] at this
      rw [bind_ok hx, bind_ok (afterCall_none (this.trans h))]; rfl

end Iterative

/-! ### Choice -/

namespace Choice
variable {K : Type} [Field K] [LinearOrder K] [FloorRing K] {α : Type} [PyHash α] {R : Rng K}

theorem rands_add (a b : Nat) (g : R.G) (us : List K) (g2 : R.G) :
    R.rands (a + b) g = (.ok us, g2) ↔ ∃ ua ub g1, R.rands a g = (.ok ua, g1) ∧
      R.rands b g1 = (.ok ub, g2) ∧ us = ua ++ ub := by
  induction a generalizing g us with
  | zero =>
    rw [Nat.zero_add]
    constructor
    · intro h; exact ⟨[], us, g, rfl, h, rfl⟩
    · rintro ⟨la, lb, s1, h1, h2, rfl⟩
      cases h1; exact h2
  | succ a ih =>
    rw [Nat.succ_add]
    constructor
    · intro h
      unfold Rng.rands at h
      obtain ⟨x, s1, h1, h⟩ := bind_eq_ok h
      obtain ⟨xs, s3, h2, h⟩ := bind_eq_ok h
      cases h
      obtain ⟨la, lb, s4, h3, h4, rfl⟩ := (ih s1 xs).1 h2
      refine ⟨x :: la, lb, s4, ?_, h4, rfl⟩
      unfold Rng.rands
      rw [bind_ok h1, bind_ok h3]; rfl
    · rintro ⟨la, lb, s1, h1, h2, rfl⟩
      unfold Rng.rands at h1
      obtain ⟨x, s3, h3, h1⟩ := bind_eq_ok h1
      obtain ⟨xs, s4, h4, h1⟩ := bind_eq_ok h1
      cases h1
      unfold Rng.rands
      rw [bind_ok h3, bind_ok ((ih s3 (xs ++ lb)).2 ⟨xs, lb, s1, h4, h2, rfl⟩)]
      rfl

theorem choicesCum_add (n : Nat) (cum : List K) (a b : Nat) (g : R.G) (ps : List Nat) (g2 : R.G) :
    R.choicesCum n cum ((a + b : Nat) : Int) g = (.ok ps, g2) ↔ ∃ pa pb g1,
      R.choicesCum n cum a g = (.ok pa, g1) ∧ R.choicesCum n cum b g1 = (.ok pb, g2) ∧
      ps = pa ++ pb := by
  unfold Rng.choicesCum
  by_cases h1 : cum.length ≠ n
  · simp only [if_pos h1]
    constructor
    · intro h; cases h
    · rintro ⟨_, _, _, h, _⟩; cases h
  · simp only [if_neg h1]
    rcases cum.getLast? with _ | total
    · constructor
      · intro h; cases h
      · rintro ⟨_, _, _, h, _⟩; cases h
    · dsimp only
      by_cases h2 : total ≤ 0
      · simp only [if_pos h2]
        constructor
        · intro h; cases h
        · rintro ⟨_, _, _, h, _⟩; cases h
      · simp only [if_neg h2, Int.toNat_natCast]
        constructor
        · intro h
          obtain ⟨us, t, hu, h⟩ := bind_eq_ok h
          cases h
          obtain ⟨ua, ub, g1, ha, hb, rfl⟩ := (rands_add a b g us g2).1 hu
          exact ⟨ua.map (choicesPick cum total), ub.map (choicesPick cum total), g1, by rw [bind_ok ha]; rfl,
            by rw [bind_ok hb]; rfl, by rw [List.map_append]⟩
        · rintro ⟨pa, pb, g1, ha, hb, rfl⟩
          obtain ⟨ua, t, ha, h⟩ := bind_eq_ok ha
          cases h
          obtain ⟨ub, t, hb, h⟩ := bind_eq_ok hb
          cases h
          rw [bind_ok ((rands_add a b g _ g2).2 ⟨ua, ub, g1, ha, hb, rfl⟩), ← List.map_append]
          rfl

/-- What a `Choice` with replacement that is `Batchable` does when called for `n` values. -/
theorem call_drawn [IsStrictOrderedRing K] {s : ChoiceSt α R × Nat} (hI : s.1.Intact) (hb : s.1.Batchable)
    (hr : s.1.replace = true) (n : Nat) :
    call (some (n : Int)) s =
      if s.1.items.length = 1 then (.ok (List.replicate n s.1.items).flatten, s)
      else match R.choicesCum s.1.items.length (s.1.cumWeights.getD []) n s.1.rng with
        | (.ok ps, g) => (.ok (pick s.1.items ps), ({ s.1 with rng := g }, s.2))
        | (.error x, g) => (.error x, ({ s.1 with rng := g }, s.2)) := by
  have hcall : call (some (n : Int)) s = withReplacement n s := by
    unfold call
    dsimp only
    by_cases h1 : (n : Int) = 1
    · rw [if_pos h1, bind_apply, emit_eq, if_pos hr, h1, bind_apply]
      rcases hd : withReplacement (1 : Int) s with ⟨x | vs, t⟩
      · rfl
      · have hl := (withReplacement_returns (n := 1) ((intact_iff _).1 hI).1 hd).1
        obtain ⟨v, rfl⟩ := List.length_eq_one_iff.1 hl
        rfl
    · rw [if_neg h1, emitMany_eq, if_neg (by simp [hr, hb.1])]
  rw [hcall, withReplacement_run, Int.toNat_natCast]
  by_cases h1 : s.1.items.length = 1
  · rw [if_pos h1, if_pos h1]
  · rw [if_neg h1, if_neg h1]
    rcases hI.2.1 with ⟨h2, _⟩ | ⟨ws, h2, h3, _⟩
    · rcases hb.2 with h | h | h
      · rw [hr] at h; cases h
      · exact absurd h2 h
      · exact absurd h h1
    · have : drawWith s.1 (n : Int) = R.choicesCum s.1.items.length (s.1.cumWeights.getD []) n := by
        unfold drawWith
        rw [if_neg (by simp [h2]), h3]; rfl
      rw [this]
      rcases R.choicesCum s.1.items.length (s.1.cumWeights.getD []) n s.1.rng with ⟨_ | _, _⟩ <;> rfl

theorem call_add [IsStrictOrderedRing K] {s : ChoiceSt α R × Nat} (hI : s.1.Intact) (hb : s.1.Batchable) (a b : Nat)
    (l : List α) (s2 : ChoiceSt α R × Nat) :
    call (some ((a + b : Nat) : Int)) s = (.ok l, s2) ↔ ∃ la lb s1,
      call (some (a : Int)) s = (.ok la, s1) ∧ call (some (b : Int)) s1 = (.ok lb, s2) ∧
      l = la ++ lb := by
  obtain ⟨c, e⟩ := s
  dsimp only at hI hb
  cases hr : c.replace with
  | false =>
    obtain ⟨hwf, E, hg⟩ := (intact_iff _).1 hI
    obtain ⟨hp, hle, -, hi, hnum⟩ := hg.norepl hr
    have key : ∀ (n : Nat) (t : ChoiceSt α R × Nat) (F : List α), Good c.items t.1 F →
        t.1.replace = false → ∀ vs t', call (some (n : Int)) t = (.ok vs, t') ↔
          F.length + n ≤ c.items.length ∧ vs = (t.1.shuffled.drop F.length).take n ∧
          t' = ({ t.1 with shuffledIndex := some ((F.length : Int) + n),
                           numUniqueItems := t.1.numUniqueItems - n }, t.2) := by
      intro n t F hF ht vs t'
      have := call_norepl (some n) t hF ht
      change call (some (n : Int)) t = _ at this
      rw [this]
      change (if F.length + n ≤ c.items.length then _ else _) = _ ↔ _
      by_cases hn : F.length + n ≤ c.items.length
      · rw [if_pos hn]
        constructor
        · intro h; cases h; exact ⟨hn, rfl, rfl⟩
        · rintro ⟨_, rfl, rfl⟩; rfl
      · rw [if_neg hn]
        constructor
        · intro h; cases h
        · rintro ⟨h, _⟩; exact absurd h hn
    rw [key (a + b) (c, e) E hg hr]
    have hl : c.shuffled.length = c.items.length := hp.length_eq
    have hlen : E.length + a ≤ c.items.length →
        (E ++ (c.shuffled.drop E.length).take a).length = E.length + a := by
      intro h
      rw [List.length_append, List.length_take, List.length_drop]; omega
    constructor
    · rintro ⟨h1, rfl, rfl⟩
      have ha : E.length + a ≤ c.items.length := by omega
      refine ⟨_, _, _, (key a (c, e) E hg hr _ _).2 ⟨ha, rfl, rfl⟩,
        (key b (_, e) _ (hg.after_call a hr ha) hr _ _).2 ⟨?_, rfl, ?_⟩, ?_⟩
      · rw [hlen ha]; omega
      · rw [hlen ha]
        push_cast
        rw [← Int.add_assoc, Int.sub_sub]
      · rw [hlen ha]
        dsimp only
        rw [List.take_add, List.drop_drop]
    · rintro ⟨la, lb, s1, h1, h2, rfl⟩
      obtain ⟨ha, rfl, rfl⟩ := (key a (c, e) E hg hr _ _).1 h1
      obtain ⟨hb', rfl, rfl⟩ := (key b (_, e) _ (hg.after_call a hr ha) hr _ _).1 h2
      rw [hlen ha] at hb' ⊢
      refine ⟨by omega, ?_, ?_⟩
      · dsimp only
        rw [List.take_add, List.drop_drop]
      · push_cast
        rw [← Int.add_assoc, Int.sub_sub]
  | true =>
    rw [call_drawn (s := (c, e)) hI hb hr, call_drawn (s := (c, e)) hI hb hr]
    by_cases h1 : c.items.length = 1
    · rw [if_pos h1, if_pos h1]
      constructor
      · intro h
        cases h
        refine ⟨_, (List.replicate b c.items).flatten, _, rfl, ?_, ?_⟩
        · rw [call_drawn (s := (c, e)) hI hb hr, if_pos h1]
        · rw [List.replicate_add, List.flatten_append]
      · rintro ⟨la, lb, s1, h2, h3, rfl⟩
        cases h2
        rw [call_drawn (s := (c, e)) hI hb hr, if_pos h1] at h3
        cases h3
        rw [List.replicate_add, List.flatten_append]
    · rw [if_neg h1, if_neg h1]
      have hI' : ∀ g, ({ c with rng := g } : ChoiceSt α R).Intact := fun g => hI
      constructor
      · intro h
        rcases hc : R.choicesCum c.items.length (c.cumWeights.getD []) ((a + b : Nat) : Int)
          c.rng with ⟨_ | ps, g⟩
        · rw [hc] at h; cases h
        · rw [hc] at h
          cases h
          obtain ⟨pa, pb, g1, ha, hb', rfl⟩ := (choicesCum_add _ _ a b _ ps g).1 hc
          rw [ha]
          refine ⟨_, pick c.items pb, _, rfl, ?_, ?_⟩
          · rw [call_drawn (s := ({ c with rng := g1 }, e)) (hI' g1) hb hr, if_neg h1]
            dsimp only
            rw [hb']
          · unfold pick
            rw [List.filterMap_append]
      · rintro ⟨la, lb, s1, h2, h3, rfl⟩
        rcases ha : R.choicesCum c.items.length (c.cumWeights.getD []) (a : Int)
          c.rng with ⟨_ | pa, g1⟩
        · rw [ha] at h2; cases h2
        · rw [ha] at h2
          cases h2
          rw [call_drawn (s := ({ c with rng := g1 }, e)) (hI' g1) hb hr, if_neg h1] at h3
          dsimp only at h3
          rcases hb' : R.choicesCum c.items.length (c.cumWeights.getD []) (b : Int)
            g1 with ⟨_ | pb, g⟩
          · rw [hb'] at h3; cases h3
          · rw [hb'] at h3
            cases h3
            rw [(choicesCum_add _ _ a b _ _ _).2 ⟨pa, pb, g1, ha, hb', rfl⟩]
            unfold pick
            dsimp only
            rw [List.filterMap_append]

end Choice
end Fauxdoc
