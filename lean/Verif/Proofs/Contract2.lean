import Verif.Proofs.Contract
import Verif.Proofs.Choice4
import Verif.Proofs.ChoiceBad
import Verif.Props.MathTools
/-
`Choice`, `Static`, `Iterative` and `Sequential` fulfil the contract.
-/
set_option linter.unusedSectionVars false
namespace Fauxdoc
open PyM
variable {K : Type} [Field K] [LinearOrder K] [FloorRing K] {R : Rng K}

namespace Choice
section
variable {α : Type} [PyHash α]

theorem intact_iff (c : ChoiceSt α R) :
    c.Intact ↔ WF c.items c ∧ ∃ E, Good c.items c E := by
  constructor
  · rintro ⟨h1, h2, h3, h4, h5⟩
    refine ⟨⟨rfl, h1, h2, h3, h4⟩, ?_⟩
    cases hr : c.replace with
    | true => exact ⟨[], fun h => by simp [hr] at h, fun _ => rfl⟩
    | false =>
      obtain ⟨hp, k, hk, hi, hn⟩ := h5 hr
      have hl : (c.shuffled.take k).length = k := by
        rw [List.length_take, hp.length_eq]; omega
      refine ⟨c.shuffled.take k, fun _ => ⟨hp, ?_, ?_, ?_, ?_⟩, fun h => by simp [hr] at h⟩
      · rw [hl]; exact hk
      · rw [hl]
      · rw [hl]; exact hi
      · rw [hl]; exact hn
  · rintro ⟨h, E, hg⟩
    refine ⟨h.ne, h.weights, h.roac, h.num, fun hr => ?_⟩
    obtain ⟨hp, hl, _, hi, hn⟩ := hg.norepl hr
    exact ⟨hp, E.length, hl, hi, hn⟩

/-- Operations other than a failing `replace = False` keep a `Choice` intact. -/
theorem Intact.step (o : ChoiceOp K) {s : ChoiceSt α R × Nat} (h : s.1.Intact)
    (hok : ∀ x, (o.run s).1 = .error x → ∀ b, o = .setReplace b → b = true) :
    (o.run s).2.1.Intact ∧ (o.run s).2.1.items = s.1.items := by
  obtain ⟨hwf, E, hg⟩ := (intact_iff _).1 h
  have h1 := hwf.step o s
  have h2 := hg.step o s E hwf hok
  refine ⟨(intact_iff _).2 ?_, h1.items_eq⟩
  rw [h1.items_eq]
  exact ⟨h1, _, h2⟩

variable [IsStrictOrderedRing K]

/-- What is drawn with replacement, whatever the weights. -/
theorem withReplacement_returns {items : List α} {s s' : ChoiceSt α R × Nat} (h : WF items s.1)
    {n : Nat} {vs : List α} (hrun : withReplacement (n : Int) s = (.ok vs, s')) :
    vs.length = n ∧ ∀ v ∈ vs, v ∈ items := by
  by_cases hw : ∀ ws, s.1.weights = some ws → 0 < ws.sum
  · obtain ⟨vs', g, h1, h2, h3⟩ := withReplacement_ok s h hw n
    cases h1.symm.trans hrun
    exact ⟨h2, h3⟩
  · push Not at hw
    obtain ⟨ws, hws, hneg⟩ := hw
    rw [withReplacement_run] at hrun
    by_cases h1 : s.1.items.length = 1
    · rw [if_pos h1] at hrun
      cases hrun
      refine ⟨by simp [List.length_flatten, h1], fun v hv => ?_⟩
      obtain ⟨l, hl, hvl⟩ := List.mem_flatten.1 hv
      rw [List.mem_replicate] at hl
      rw [← h.items_eq, ← hl.2]; exact hvl
    · exfalso
      rw [if_neg h1] at hrun
      rcases h.weights with ⟨hx, _⟩ | ⟨ws', hws', hcw, hl⟩
      · rw [hx] at hws; cases hws
      · rw [hws'] at hws
        cases hws
        have hne : ws ≠ [] := by
          intro hx
          rw [hx] at hl
          exact h.ne (List.length_eq_zero_iff.1 hl.symm)
        have hd : drawWith s.1 (n : Int) s.1.rng = R.choicesCum s.1.items.length (accumulate ws) n s.1.rng := by
          unfold drawWith
          rw [if_neg (by rw [hws']; simp), hcw]
        rw [hd, h.items_eq, ← hl] at hrun
        have := choicesCum_fail R ws hne hneg (n : Int) s.1.rng
        rw [this] at hrun
        cases hrun

/-- Every call that returns gives as many items as asked for. -/
theorem call_returns {s s' : ChoiceSt α R × Nat} (h : s.1.Intact) (n : Option Nat) {vs : List α}
    (hrun : call (n.map Int.ofNat) s = (.ok vs, s')) :
    vs.length = wanted n ∧ ∀ v ∈ vs, v ∈ s.1.items := by
  obtain ⟨hwf, E, hg⟩ := (intact_iff _).1 h
  cases hr : s.1.replace with
  | false =>
    obtain ⟨hp, hle, hE, hi, hn⟩ := hg.norepl hr
    rw [call_norepl n s hg hr] at hrun
    by_cases hk : E.length + wanted n ≤ s.1.items.length
    · rw [if_pos hk] at hrun
      cases hrun
      refine ⟨?_, fun v hv => hp.mem_iff.1 (List.mem_of_mem_drop (List.mem_of_mem_take hv))⟩
      rw [List.length_take, List.length_drop, hp.length_eq]
      omega
    · rw [if_neg hk] at hrun
      cases hrun
  | true =>
    by_cases hro : s.1.roac = true → wanted n ≤ 1
    · rw [call_repl n s hr hro] at hrun
      by_cases h1 : wanted n = 1
      · rw [if_pos h1] at hrun
        rcases hd : withReplacement 1 s with ⟨x | us, t⟩
        · rw [hd] at hrun; cases hrun
        · rw [hd] at hrun
          obtain ⟨hl, hm⟩ := withReplacement_returns (n := 1) hwf hd
          obtain ⟨u, rfl⟩ := List.length_eq_one_iff.1 hl
          cases hrun
          exact ⟨by rw [h1]; rfl, hm⟩
      · rw [if_neg h1] at hrun
        exact withReplacement_returns hwf hrun
    · push Not at hro
      obtain ⟨hro, h2⟩ := hro
      obtain ⟨m, rfl⟩ : ∃ m, n = some m := by
        cases n with
        | none => exact absurd h2 (by decide)
        | some m => exact ⟨m, rfl⟩
      change 1 < m at h2
      change call (some (m : Int)) s = _ at hrun
      rw [call_roac m s hro h2, withoutReplacement_repl _ s hr] at hrun
      by_cases hn : (m : Int) > s.1.numUniqueItems
      · rw [if_pos hn] at hrun; cases hrun
      · rw [if_neg hn] at hrun
        rw [hwf.num hr] at hn
        have hm : m ≤ s.1.items.length := by omega
        split at hrun
        · rename_i ps g hps
          cases hrun
          refine ⟨?_, pick_mem⟩
          rcases hw : s.1.weights with _ | ws
          · rw [hw] at hps
            have hs : R.samplePos s.1.items.length (m : Int) s.1.rng =
                (.ok (R.sample s.1.items.length m s.1.rng).1,
                  (R.sample s.1.items.length m s.1.rng).2) := by
              unfold Rng.samplePos
              rw [if_pos ⟨by omega, by omega⟩]; rfl
            cases hs.symm.trans hps
            rw [pick_length (R.sample_lt _ m s.1.rng hm), R.sample_length _ _ _ hm]
            rfl
          · rw [hw] at hps
            obtain ⟨a, b, c⟩ := weightedShuffle_ok hps
            rw [pick_length b, c]
            exact min_eq_left hm
        · cases hrun

end

variable [IsStrictOrderedRing K]

/-- An intact `Choice` over the given items. -/
def IntactOver {α : Type} (items : List α) (s : ChoiceSt α R × Nat) : Prop :=
  s.1.Intact ∧ s.1.items = items

theorem call_ensures {α : Type} [PyHash α] (items : List α) (n : Option Nat) :
    Ensures (IntactOver (R := R) items) (call (n.map Int.ofNat))
      fun vs => vs.length = wanted n ∧ ∀ v ∈ vs, v ∈ items := by
  intro s hs
  refine ⟨?_, fun vs hvs => ?_⟩
  · have := Intact.step (.call n) hs.1 (fun _ _ b hb => by cases hb)
    exact ⟨this.1, this.2.trans hs.2⟩
  · have := call_returns hs.1 n (show call (n.map Int.ofNat) s = (.ok vs, _) from Prod.ext hvs rfl)
    rw [hs.2] at this
    exact this

theorem child_contract (items : List Val) :
    Contract (IntactOver (R := R) items) child fun v => v ∈ items := by
  refine emitterCallOr_contract (fun v _ _ s hs => ?_) (fun s hs => ?_) fun n h0 h1 => ?_
  · obtain ⟨e, _, h, _⟩ := emitBad_run v s.1
    unfold EnsuresAt
    rw [h s.2]
    exact ⟨hs, fun a ha => by cases ha⟩
  · have h := call_ensures items none s hs
    have e : (call none : ChoiceM Val R (List Val)) s = (emit >>= fun v => pure [v]) s := rfl
    unfold EnsuresAt at h ⊢
    rw [Option.map_none, e, bind_apply] at h
    rcases he : emit s with ⟨x | v, s'⟩
    · rw [he] at h
      exact ⟨h.1, fun a ha => by cases ha⟩
    · rw [he] at h
      refine ⟨h.1, fun a ha => ?_⟩
      cases ha
      exact (h.2 [v] rfl).2 v (by simp)
  · obtain ⟨m, rfl⟩ := Int.eq_ofNat_of_zero_le h0
    have h := call_ensures (R := R) items (some m)
    have e : (call ((some m).map Int.ofNat) : ChoiceM Val R (List Val)) = emitMany (m : Int) := by
      unfold call
      exact if_neg h1
    rw [e] at h
    exact h.mono fun l hl => ⟨by rw [hl.1]; rfl, hl.2⟩

theorem reset_keeps {α : Type} [PyHash α] (items : List α) : Keeps (IntactOver (R := R) items) reset := by
  intro s hs
  have := Intact.step (.reset) hs.1 (fun _ _ b hb => by cases hb)
  rw [run_reset] at this
  exact ⟨this.1, this.2.trans hs.2⟩

theorem seed_keeps {α : Type} [PyHash α] (items : List α) (x : Option Int) :
    Keeps (IntactOver (R := R) items) (seed x) := by
  intro s hs
  have := Intact.step (.seed x) hs.1 (fun _ _ b hb => by cases hb)
  rw [run_seed] at this
  exact ⟨this.1, this.2.trans hs.2⟩

theorem roacInfo_ensures (s : ChoiceSt Val R × Nat) (r : Option Int) (h : (roacInfo s).1 = .ok r)
    (D : Int) (hD : r = some D) : 0 ≤ D := by
  subst hD
  have h' : roacInfo s = (.ok (some D), (roacInfo s).2) := Prod.ext h rfl
  unfold roacInfo at h'
  rw [self_bind] at h'
  by_cases hr : s.1.roac = true
  · rw [if_pos hr] at h'
    obtain ⟨n, s', _, h2⟩ := bind_eq_ok h'
    cases h2
    omega
  · rw [if_neg hr] at h'
    cases h'

end Choice

/-! ### Fixed values -/

theorem Src.next_all {α : Type} [PyHash α] {P : α → Prop} {s r : Src α} {a : α} (h : s.All P)
    (e : s.next = some (a, r)) : P a ∧ r.All P := by
  rcases s with (_ | ⟨x, xs⟩) | f
  · cases e
  · cases e
    exact ⟨h _ (by simp), fun y hy => h y (by simp [hy])⟩
  · cases e
    exact ⟨h 0, fun k => h (k + 1)⟩

namespace Iterative
variable {α : Type} [PyHash α] {P : α → Prop}

/-- All values that the iterator or a new one will yield satisfy `P`. -/
def AllOf (P : α → Prop) (s : IterSt α) : Prop := s.factory.src.All P ∧ s.cur.All P

theorem nextItem_ensures : Ensures (AllOf P) (nextItem (α := α)) P := by
  intro s hs
  unfold EnsuresAt nextItem
  rcases h1 : s.cur.next with _ | ⟨a, r⟩
  · dsimp only
    rcases h2 : s.factory.src.next with _ | ⟨a, r⟩
    · exact ⟨hs, fun a ha => by cases ha⟩
    · have := Src.next_all hs.1 h2
      exact ⟨⟨hs.1, this.2⟩, fun b hb => by cases hb; exact this.1⟩
  · have := Src.next_all hs.2 h1
    exact ⟨⟨hs.1, this.2⟩, fun b hb => by cases hb; exact this.1⟩

theorem takeItems_ensures (n : Nat) :
    Ensures (AllOf P) (takeItems (α := α) n) fun l => l.length = n ∧ ∀ x ∈ l, P x := by
  induction n with
  | zero => exact Ensures.pure ⟨rfl, by simp⟩
  | succ n ih =>
    refine Ensures.bind nextItem_ensures fun a ha => Ensures.bind ih fun as has => Ensures.pure ?_
    exact ⟨by simp [has.1], by simpa using ⟨ha, has.2⟩⟩

theorem reset_keeps : Keeps (AllOf P) (reset (α := α)) :=
  fun _ hs => ⟨hs.1, fun x hx => by simp at hx⟩

theorem afterCall_ensures : Ensures (AllOf P) (afterCall (α := α)) fun _ => True := by
  unfold afterCall
  refine Ensures.get_bind fun s hs => ?_
  by_cases h : s.resetAfterCall = true
  · rw [if_pos h]; exact reset_keeps.ensures s hs
  · rw [if_neg h]; exact (Ensures.pure trivial : Ensures (AllOf P) _ _) s hs

theorem emit_ensures : Ensures (AllOf P) (emit (α := α)) P :=
  Ensures.bind nextItem_ensures fun _ ha => Ensures.bind afterCall_ensures fun _ _ => Ensures.pure ha

theorem emitMany_ensures (n : Int) (h0 : 0 ≤ n) :
    Ensures (AllOf P) (emitMany (α := α) n) fun l => (l.length : Int) = n ∧ ∀ x ∈ l, P x := by
  unfold emitMany
  rw [if_neg (by omega)]
  refine Ensures.bind (takeItems_ensures _) fun as ha =>
    Ensures.bind afterCall_ensures fun _ _ => Ensures.pure ⟨?_, ha.2⟩
  rw [ha.1]
  omega

end Iterative
end Fauxdoc
