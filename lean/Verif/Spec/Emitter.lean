import Verif.Model.Text
/-
The contract of an emitter: a call without number gives one value, a call with `n >= 0` gives a list
of exactly `n` values.
-/
namespace Fauxdoc
variable {σ : Type}

/-- In states satisfying the invariant `I`: whenever `c` returns, it returns one value satisfying `P`
(called without argument or with `None`) or a list of exactly `n` such values (called with
`n >= 0`), and `I` holds again. -/
structure EmitterOf (I : σ → Prop) (c : Child σ) (P : Val → Prop) : Prop where
  one : ∀ s v t, I s → c none s = (.ok v, t) → P v ∧ I t
  none : ∀ s v t, I s → c (some .none) s = (.ok v, t) → P v ∧ I t
  many : ∀ (n : Nat) s v t, I s → c (some (.int n)) s = (.ok v, t) →
    (∃ l, v = .list l ∧ l.length = n ∧ ∀ x ∈ l, P x) ∧ I t

/-- The same for a word emitter, which can also be reset; it claims no negative number of distinct
values. -/
structure WordEmitterOf (I : σ → Prop) (w : Text.WordChild σ) (P : Val → Prop) : Prop where
  call : EmitterOf I w.call P
  reset : ∀ s t, I s → w.reset s = (.ok ⟨⟩, t) → I t
  roac : ∀ s r t, I s → w.roac s = (.ok r, t) → I t ∧ ∀ D, r = some D → 0 ≤ D

/-- The value `w` can come out of `c`, in some state satisfying `I`, alone or in a batch. -/
def Emitted (I : σ → Prop) (c : Child σ) (w : Val) : Prop :=
  ∃ s t, I s ∧ (c none s = (.ok w, t) ∨
    ∃ (n : Nat) (l : List Val), c (some (.int n)) s = (.ok (.list l), t) ∧ w ∈ l)

theorem EmitterOf.emitted {I : σ → Prop} {c : Child σ} {P : Val → Prop} (h : EmitterOf I c P)
    {w : Val} (hw : Emitted I c w) : P w := by
  obtain ⟨s, t, hI, h1 | ⟨n, l, h1, h2⟩⟩ := hw
  · exact (h.one _ _ _ hI h1).1
  · obtain ⟨⟨l', e, _, h3⟩, _⟩ := h.many _ _ _ _ hI h1
    cases e
    exact h3 w h2

/-- A class with `emit` and `emit_many` of the right shapes is an emitter. -/
theorem emitterOf_call {I : σ → Prop} {bad : Val → PyM σ Val} {emit : PyM σ Val} {emitMany : Int → PyM σ (List Val)}
    {P : Val → Prop}
    (h1 : ∀ s v t, I s → emit s = (.ok v, t) → P v ∧ I t)
    (h2 : ∀ (n : Nat) s l t, n ≠ 1 → I s → emitMany n s = (.ok l, t) →
      (l.length = n ∧ ∀ x ∈ l, P x) ∧ I t) :
    EmitterOf I (emitterCallOr bad emit emitMany) P where
  one s v t hI h := h1 s v t hI h
  none s v t hI h := h1 s v t hI h
  many n s v t hI h := by
    change (if (n : Int) = 1 then (do return Val.list [← emit])
      else (do return Val.list (← emitMany n)) : PyM σ Val) s = _ at h
    by_cases hn : (n : Int) = 1
    · rw [if_pos hn] at h
      obtain ⟨v', s', e1, e2⟩ := PyM.bind_eq_ok h
      cases e2
      have := h1 _ _ _ hI e1
      exact ⟨⟨[v'], rfl, by simp; omega, by simpa using this.1⟩, this.2⟩
    · rw [if_neg hn] at h
      obtain ⟨l, s', e1, e2⟩ := PyM.bind_eq_ok h
      cases e2
      have := h2 n _ _ _ (by omega) hI e1
      exact ⟨⟨l, rfl, this.1⟩, this.2⟩

end Fauxdoc
