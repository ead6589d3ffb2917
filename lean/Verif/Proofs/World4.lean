import Verif.Proofs.World3
import Verif.Props.Group
/-
What resetting and seeding do to a single object.
-/
set_option linter.unusedSectionVars false
namespace Fauxdoc
open PyM
variable {K : Type} [Field K] [LinearOrder K] [FloorRing K] {R : Rng K}

namespace Choice
variable {α : Type} [PyHash α]

theorem highKScores_error (ws : List K) (g : R.G) :
    (highKScores R ws g).1 ≠ .error .attributeError := by
  induction ws generalizing g with
  | nil => simp [highKScores]
  | cons w ws ih =>
    unfold highKScores
    rw [PyM.bind_apply]
    rcases hu : R.rand g with ⟨x | u, g'⟩
    · cases hu
    · dsimp only
      by_cases h0 : u = 0
      · rw [if_pos h0]; simp
      · rw [if_neg h0]
        by_cases h1 : w = 0
        · rw [if_pos h1]; simp
        · rw [if_neg h1, PyM.bind_apply]
          have := ih g'
          rcases h : highKScores R ws g' with ⟨x | l, g''⟩
          · rw [h] at this; exact this
          · simp

/-- A full shuffle raises no `AttributeError`. -/
theorem weightedShuffle_error (n : Nat) (ws : List K) (g : R.G) :
    (weightedShuffle R n ws none g).1 ≠ .error .attributeError := by
  unfold weightedShuffle
  simp only [Option.getD_none]
  by_cases h : n ≠ ws.length
  · rw [if_pos h]; simp
  · rw [if_neg h]
    by_cases hk : (n : Int) * 100 ≤ (n : Int) * 42
    · rw [if_pos hk]
      have : n = 0 := by omega
      subst this
      simp [lowK]
    · rw [if_neg hk]
      unfold highK
      rw [PyM.bind_apply]
      have := highKScores_error (R := R) ws g
      rcases h : highKScores R ws g with ⟨x | l, g''⟩
      · rw [h] at this; intro h'; cases h'; exact this rfl
      · simp

/-- The shuffle a fresh `Choice` without replacement starts from. -/
theorem Fresh.norepl {s : Int} {c : ChoiceSt α R} (h : c.Fresh s) (hr : c.replace = false) :
    ∃ order, weightedShuffle R c.items.length (shufWeights c) none (R.ofSeed s) =
      (.ok order, c.rng) ∧ c.shuffled = pick c.items order ∧ c.shuffledIndex = some 0 ∧
      c.numUniqueItems = c.items.length := by
  have := h.2
  rw [hr, if_neg (by simp)] at this
  exact this

theorem reset_repl {s : Int} {c : ChoiceSt α R} (hs : c.rngSeed = some s) (hr : c.replace = true)
    (e : Nat) : reset (c, e) = (.ok (), ({ c with rng := R.ofSeed s }, e)) := by
  obtain ⟨g, e', h1, h2⟩ := reset_run (c, e)
  obtain ⟨rfl, rfl⟩ := h1 s hs
  rw [h2, if_pos hr]

theorem reset_norepl {s : Int} {c : ChoiceSt α R} (hs : c.rngSeed = some s) (hr : c.replace = false)
    (e : Nat) : reset (c, e) = match weightedShuffle R c.items.length (shufWeights c) none
        (R.ofSeed s) with
      | (.ok ps, g) => (.ok (), ({ c with
          rng := g, shuffled := pick c.items ps, shuffledIndex := some 0,
          numUniqueItems := c.items.length }, e))
      | (.error x, g) => (.error x, ({ c with rng := g }, e)) := by
  obtain ⟨g, e', h1, h2⟩ := reset_run (c, e)
  obtain ⟨rfl, rfl⟩ := h1 s hs
  rw [h2, if_neg (by simp [hr]), globalShuffle_run]
  rfl

/-- Resetting with a seed: what it depends on. -/
theorem reset_cases {s : Int} {c : ChoiceSt α R} (hs : c.rngSeed = some s) (e : Nat) :
    (reset (c, e)).2.2 = e ∧ (reset (c, e)).2.1.rngSeed = some s ∧
    ((reset (c, e)).1 = .ok () → (reset (c, e)).2.1.Fresh s) ∧
    (reset (c, e)).1 ≠ .error .attributeError := by
  cases hr : c.replace with
  | true =>
    rw [reset_repl hs hr]
    refine ⟨rfl, hs, fun _ => ⟨hs, ?_⟩, by simp⟩
    rw [if_pos (by exact hr)]
  | false =>
    rw [reset_norepl hs hr]
    have hw := weightedShuffle_error (R := R) c.items.length (shufWeights c) (R.ofSeed s)
    rcases h : weightedShuffle R c.items.length (shufWeights c) none (R.ofSeed s) with ⟨x | ps, g⟩
    · rw [h] at hw
      refine ⟨rfl, hs, ?_, ?_⟩
      · intro h; cases h
      · intro h; cases h; exact hw rfl
    · refine ⟨rfl, hs, fun _ => ⟨hs, ?_⟩, by simp⟩
      rw [if_neg (by simp [hr])]
      exact ⟨ps, h, rfl, rfl, rfl⟩

/-- Resetting raises no `AttributeError`. -/
theorem reset_error (s : ChoiceSt α R × Nat) : (reset s).1 ≠ .error .attributeError := by
  obtain ⟨g, e, _, h⟩ := reset_run s
  rw [h]
  by_cases hr : s.1.replace = true
  · rw [if_pos hr]; simp
  · rw [if_neg hr, globalShuffle_run]
    have hw := weightedShuffle_error (R := R) s.1.items.length (shufWeights s.1) g
    change (match weightedShuffle R s.1.items.length (shufWeights s.1) none g with
      | (.ok ps, g) => _
      | (.error x, g) => _ : Except Err PUnit × _).1 ≠ _
    rcases h : weightedShuffle R s.1.items.length (shufWeights s.1) none g with ⟨x | ps, g'⟩
    · rw [h] at hw
      intro h; cases h; exact hw rfl
    · simp

/-- A successful reset makes all items available again; a failed one leaves them alone. -/
theorem reset_rewound (s : ChoiceSt α R × Nat) (h0 : (reset s).1 = .ok () ∨ s.1.Rewound) :
    (reset s).2.1.Rewound := by
  obtain ⟨g, e, _, h⟩ := reset_run s
  rw [h] at h0 ⊢
  by_cases hr : s.1.replace = true
  · rw [if_pos hr]; intro hr'; exact absurd (hr.symm.trans hr') (by simp)
  · rw [if_neg hr] at h0 ⊢
    obtain ⟨r, c', h1, h2⟩ := globalShuffle_effect (({ s.1 with rng := g } : ChoiceSt α R), e)
    rw [h1] at h0 ⊢
    cases h2 with
    | done g l hl => exact fun _ => ⟨rfl, hl, rfl⟩
    | failed x g =>
      rcases h0 with h0 | h0
      · cases h0
      · exact h0

theorem Fresh.reset {s : Int} {c : ChoiceSt α R} (h : c.Fresh s) (e : Nat) :
    Choice.reset (c, e) = (.ok (), (c, e)) := by
  cases hr : c.replace with
  | true =>
    rw [reset_repl h.1 hr]
    have := h.2
    rw [if_pos hr] at this
    rw [← this]
  | false =>
    obtain ⟨order, h1, h2, h3, h4⟩ := Fresh.norepl h hr
    rw [reset_norepl h.1 hr, h1]
    dsimp only
    rw [← h2, ← h3, ← h4]

/-- Equal up to seed, generator and progress. -/
def Alike (c d : ChoiceSt α R) : Prop :=
  ({ c.config with rngSeed := none } : ChoiceSt α R) = { d.config with rngSeed := none }

theorem Alike.replace {c d : ChoiceSt α R} (h : Alike c d) : c.replace = d.replace := by
  have e : ∀ c : ChoiceSt α R, ({ c.config with rngSeed := none } : ChoiceSt α R).replace =
      c.replace := fun c => by unfold ChoiceSt.config; split <;> rfl
  rw [← e c, h, e d]

theorem Alike.items {c d : ChoiceSt α R} (h : Alike c d) : c.items = d.items := by
  have e : ∀ c : ChoiceSt α R, ({ c.config with rngSeed := none } : ChoiceSt α R).items =
      c.items := fun c => by unfold ChoiceSt.config; split <;> rfl
  rw [← e c, h, e d]

theorem Alike.weights {c d : ChoiceSt α R} (h : Alike c d) : c.weights = d.weights := by
  have e : ∀ c : ChoiceSt α R, ({ c.config with rngSeed := none } : ChoiceSt α R).weights =
      c.weights := fun c => by unfold ChoiceSt.config; split <;> rfl
  rw [← e c, h, e d]

theorem Alike.cumWeights {c d : ChoiceSt α R} (h : Alike c d) : c.cumWeights = d.cumWeights := by
  have e : ∀ c : ChoiceSt α R, ({ c.config with rngSeed := none } : ChoiceSt α R).cumWeights =
      c.cumWeights := fun c => by unfold ChoiceSt.config; split <;> rfl
  rw [← e c, h, e d]

theorem Alike.roac {c d : ChoiceSt α R} (h : Alike c d) : c.roac = d.roac := by
  have e : ∀ c : ChoiceSt α R, ({ c.config with rngSeed := none } : ChoiceSt α R).roac =
      c.roac := fun c => by unfold ChoiceSt.config; split <;> rfl
  rw [← e c, h, e d]

theorem Alike.shufWeights {c d : ChoiceSt α R} (h : Alike c d) : shufWeights c = shufWeights d := by
  unfold Choice.shufWeights
  rw [h.weights, h.items]

/-- A fresh state is determined by the configuration and the seed. -/
theorem Fresh.ext {s : Int} {c d : ChoiceSt α R} (hc : c.Fresh s) (hd : d.Fresh s)
    (h : Alike c d) : c = d := by
  have hi := h.items
  have hw := h.weights
  have hcw := h.cumWeights
  have hre := h.replace
  have hro := h.roac
  have hs : c.rngSeed = d.rngSeed := by rw [hc.1, hd.1]
  have hsw := h.shufWeights
  cases hr : c.replace with
  | true =>
    have hr' := hre.symm.trans hr
    have h1 := hc.2
    have h2 := hd.2
    rw [if_pos hr] at h1
    rw [if_pos hr'] at h2
    have e : ∀ c : ChoiceSt α R, c.replace = true → c.config = { c with rng := R.ofSeed 0 } :=
      fun c hc => by unfold ChoiceSt.config; rw [if_pos hc]
    unfold Alike at h
    rw [e c hr, e d hr'] at h
    obtain ⟨c1, c2, c3, c4, c5, c6, c7, c8, c9, c10⟩ := c
    obtain ⟨d1, d2, d3, d4, d5, d6, d7, d8, d9, d10⟩ := d
    simp only [ChoiceSt.mk.injEq] at h
    obtain ⟨_, _, _, _, _, h6, h7, h8, _⟩ := h
    simp only at *
    subst hi hw hcw hre hro hs h1 h2 h6 h7 h8
    rfl
  | false =>
    have hr' := hre.symm.trans hr
    obtain ⟨o1, a1, a2, a3, a4⟩ := Fresh.norepl hc hr
    obtain ⟨o2, b1, b2, b3, b4⟩ := Fresh.norepl hd hr'
    rw [hi, hsw, b1, Prod.mk.injEq, Except.ok.injEq] at a1
    obtain ⟨rfl, a1⟩ := a1
    obtain ⟨c1, c2, c3, c4, c5, c6, c7, c8, c9, c10⟩ := c
    obtain ⟨d1, d2, d3, d4, d5, d6, d7, d8, d9, d10⟩ := d
    simp_all

theorem reset_alike {s : Int} {c d : ChoiceSt α R} (hc : c.rngSeed = some s)
    (hd : d.rngSeed = some s) (h : Alike c d) (e e' : Nat) :
    (Choice.reset (c, e)).1 = (Choice.reset (d, e')).1 := by
  cases hr : c.replace with
  | true => rw [reset_repl hc hr, reset_repl hd (h.replace.symm.trans hr)]
  | false =>
    rw [reset_norepl hc hr, reset_norepl hd (h.replace.symm.trans hr), h.items, h.shufWeights]
    rcases weightedShuffle R d.items.length (Choice.shufWeights d) none (R.ofSeed s) with
      ⟨x | ps, g⟩ <;> rfl

/-- Resetting with a seed does not depend on the entropy. -/
theorem reset_entropy {s : Int} {c : ChoiceSt α R} (hc : c.rngSeed = some s) (e e' : Nat) :
    (Choice.reset (c, e)).1 = (Choice.reset (c, e')).1 ∧
      (Choice.reset (c, e)).2.1 = (Choice.reset (c, e')).2.1 := by
  cases hr : c.replace with
  | true => rw [reset_repl hc hr, reset_repl hc hr]; exact ⟨rfl, rfl⟩
  | false =>
    rw [reset_norepl hc hr, reset_norepl hc hr]
    rcases weightedShuffle R c.items.length (Choice.shufWeights c) none (R.ofSeed s) with
      ⟨x | ps, g⟩ <;> exact ⟨rfl, rfl⟩

theorem config_alike {c d : ChoiceSt α R} (h : c.config = d.config) : Alike c d := by
  unfold Alike; rw [h]

theorem reset_keeps_alike (s : ChoiceSt α R × Nat) : Alike (Choice.reset s).2.1 s.1 :=
  config_alike (reset_config s)

theorem alike_setSeed (x : Option Int) (c : ChoiceSt α R) : Alike { c with rngSeed := x } c := by
  unfold Alike ChoiceSt.config
  by_cases h : c.replace = true
  · simp [h]
  · simp [h]

theorem seed_reset (x : Option Int) (c : ChoiceSt α R) (e : Nat) :
    Choice.seed x (c, e) = Choice.reset ({ c with rngSeed := x }, e) := by
  unfold Choice.seed Choice.reset
  rw [upd_bind, self_bind]
  obtain ⟨g, e', h, _⟩ := newRng_run x ({ c with rngSeed := x }, e)
  rw [PyM.bind_ok h, PyM.bind_ok h]
  rfl

/-- Indistinguishable results of calls on the same state are equal. -/
theorem CallEffect.sim {c d d' : ChoiceSt α R} (h : CallEffect c d) (h' : CallEffect c d')
    (hs : Sim d d') : d = d' := by
  cases h with
  | norepl i n hr => exact hs.norepl hr
  | repl g hr =>
    cases h' with
    | norepl i n hr' => rw [hr] at hr'; cases hr'
    | repl g' _ => exact hs.eq.symm

theorem emit_entropy : Rel (fun s t : ChoiceSt α R × Nat => s.1 = t.1) emit emit := by
  rintro ⟨c, e⟩ ⟨d, e'⟩ h
  dsimp only at h
  subst h
  obtain ⟨h1, h2⟩ := emit_sim c c e e' (.refl c)
  exact ⟨h1, (emit_effect (c, e)).1.sim (emit_effect (c, e')).1 h2⟩

theorem emitMany_effect (n : Int) (s : ChoiceSt α R × Nat) : CallEffect s.1 (emitMany n s).2.1 := by
  rw [emitMany_eq]
  by_cases hb : ¬ s.1.replace = true ∨ (s.1.roac = true ∧ n > 1)
  · rw [if_pos hb]; exact (withoutReplacement_effect n s).1
  · rw [if_neg hb]
    push Not at hb
    exact (withReplacement_effect n s hb.1).1

theorem emitMany_entropy (n : Int) :
    Rel (fun s t : ChoiceSt α R × Nat => s.1 = t.1) (emitMany n) (emitMany n) := by
  rintro ⟨c, e⟩ ⟨d, e'⟩ h
  dsimp only at h
  subst h
  have hs : SimOut (emitMany n (c, e)) (emitMany n (c, e')) := by
    rw [emitMany_eq, emitMany_eq]
    dsimp only
    by_cases hb : ¬ c.replace = true ∨ (c.roac = true ∧ n > 1)
    · rw [if_pos hb, if_pos hb]; exact withoutReplacement_sim n c c e e' (.refl c)
    · rw [if_neg hb, if_neg hb]; exact withReplacement_sim n c c e e' (.refl c)
  exact ⟨hs.1, (emitMany_effect n (c, e)).sim (emitMany_effect n (c, e')) hs.2⟩

/-- A call does not depend on the entropy. -/
theorem child_entropy (arg : Option Val) :
    Rel (fun s t : ChoiceSt Val R × Nat => s.1 = t.1) (child arg) (child arg) :=
  emitterCallOr_rel (fun v => by
    rintro ⟨c, n⟩ ⟨_, n'⟩ rfl
    obtain ⟨e, _, h, _⟩ := emitBad_run v c
    rw [h, h]
    exact ⟨rfl, rfl⟩) emit_entropy emitMany_entropy arg

theorem roacInfo_entropy :
    Rel (fun s t : ChoiceSt Val R × Nat => s.1 = t.1) roacInfo roacInfo := by
  rintro ⟨c, e⟩ ⟨d, e'⟩ h
  dsimp only at h
  subst h
  refine ⟨?_, by rw [roacInfo_state, roacInfo_state]⟩
  unfold roacInfo
  rw [self_bind, self_bind]
  dsimp only
  by_cases hro : c.roac = true
  · rw [if_pos hro]
    unfold numUniqueValues shuffledIndex
    rw [PyM.bind_apply, self_bind, PyM.bind_apply, self_bind]
    by_cases hr : ¬ c.replace = true
    · rw [if_pos hr, PyM.bind_apply, self_bind, PyM.bind_apply, self_bind]
      dsimp only
      cases c.shuffledIndex
      · rfl
      · simp only [PyM.lift, pure_apply]
        cases pyLenSet (pyListSlice1 c.shuffled _ _) <;> rfl
    · rw [if_neg hr]
      simp only [PyM.lift]
      cases pyLenSet c.items <;> rfl
  · rw [if_neg hro]; rfl

end Choice
end Fauxdoc
