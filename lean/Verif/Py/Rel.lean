import Verif.Py.Core
/-
Proof combinators for Python computations: predicates preserved by a computation, and pairs of
computations that cannot be told apart.
-/
namespace Fauxdoc
namespace PyM
variable {σ τ : Type} {α β : Type}

/-- `m` preserves `I`, whether it returns or raises. -/
def Keeps (I : σ → Prop) (m : PyM σ α) : Prop := ∀ s, I s → I (m s).2

theorem Keeps.pure (I : σ → Prop) (a : α) : Keeps I (Pure.pure a : PyM σ α) := fun _ h => h
theorem Keeps.raise (I : σ → Prop) (e : Err) : Keeps I (PyM.raise e : PyM σ α) := fun _ h => h
theorem Keeps.lift (I : σ → Prop) (x : Except Err α) : Keeps I (PyM.lift x : PyM σ α) := fun _ h => h

theorem Keeps.bind {I : σ → Prop} {m : PyM σ α} {k : α → PyM σ β} (hm : Keeps I m)
    (hk : ∀ a, Keeps I (k a)) : Keeps I (m >>= k) := by
  intro s h
  rw [bind_apply]
  have := hm s h
  rcases hms : m s with ⟨_ | a, s'⟩
  · rw [hms] at this; exact this
  · rw [hms] at this; exact hk a s' this

/-- `m` and `m'` give the same outcome from related states and end in related states. -/
def Rel (S : σ → τ → Prop) (m : PyM σ α) (m' : PyM τ α) : Prop :=
  ∀ s t, S s t → (m s).1 = (m' t).1 ∧ S (m s).2 (m' t).2

theorem Rel.pure (S : σ → τ → Prop) (a : α) : Rel S (Pure.pure a : PyM σ α) (Pure.pure a) :=
  fun _ _ h => ⟨rfl, h⟩
theorem Rel.raise (S : σ → τ → Prop) (e : Err) : Rel S (PyM.raise e : PyM σ α) (PyM.raise e) :=
  fun _ _ h => ⟨rfl, h⟩
theorem Rel.lift (S : σ → τ → Prop) (x : Except Err α) : Rel S (PyM.lift x) (PyM.lift x) :=
  fun _ _ h => ⟨rfl, h⟩

theorem Rel.bind {S : σ → τ → Prop} {m : PyM σ α} {m' : PyM τ α} {k : α → PyM σ β}
    {k' : α → PyM τ β} (hm : Rel S m m') (hk : ∀ a, Rel S (k a) (k' a)) :
    Rel S (m >>= k) (m' >>= k') := by
  intro s t h
  rw [bind_apply, bind_apply]
  obtain ⟨h1, h2⟩ := hm s t h
  rcases hms : m s with ⟨e | a, s'⟩ <;> rcases hmt : m' t with ⟨e' | a', t'⟩ <;>
    rw [hms, hmt] at h1 h2
  · cases h1; exact ⟨rfl, h2⟩
  · cases h1
  · cases h1
  · cases h1; exact hk a s' t' h2

/-- Run `m` for every element. -/
def forEach (l : List β) (f : β → PyM σ PUnit) : PyM σ PUnit :=
  match l with
  | [] => Pure.pure ⟨⟩
  | b :: bs => f b >>= fun _ => forEach bs f

/-- `[m(x) for x in l]`, left to right. -/
def mapEach (l : List β) (f : β → PyM σ α) : PyM σ (List α) :=
  match l with
  | [] => Pure.pure []
  | b :: bs => f b >>= fun a => mapEach bs f >>= fun as => Pure.pure (a :: as)

theorem Keeps.forEach {I : σ → Prop} {l : List β} {f : β → PyM σ PUnit}
    (h : ∀ b ∈ l, Keeps I (f b)) : Keeps I (PyM.forEach l f) := by
  induction l with
  | nil => exact Keeps.pure I _
  | cons b bs ih =>
    exact Keeps.bind (h b (by simp)) fun _ => ih fun x hx => h x (by simp [hx])

theorem Keeps.mapEach {I : σ → Prop} {l : List β} {f : β → PyM σ α}
    (h : ∀ b ∈ l, Keeps I (f b)) : Keeps I (PyM.mapEach l f) := by
  induction l with
  | nil => exact Keeps.pure I _
  | cons b bs ih =>
    exact Keeps.bind (h b (by simp)) fun _ =>
      Keeps.bind (ih fun x hx => h x (by simp [hx])) fun _ => Keeps.pure I _

theorem Keeps.ignoring {I : σ → Prop} {e : Err} {m : PyM σ PUnit} (hm : Keeps I m) :
    Keeps I (PyM.ignoring e m) := by
  intro s h
  have := hm s h
  unfold PyM.ignoring
  rcases hms : m s with ⟨e' | a, s'⟩
  · rw [hms] at this
    simp only
    split <;> exact this
  · rw [hms] at this; exact this

theorem Rel.forEach {S : σ → τ → Prop} {l : List β} {f : β → PyM σ PUnit} {f' : β → PyM τ PUnit}
    (h : ∀ b ∈ l, Rel S (f b) (f' b)) : Rel S (PyM.forEach l f) (PyM.forEach l f') := by
  induction l with
  | nil => exact Rel.pure S _
  | cons b bs ih =>
    exact Rel.bind (h b (by simp)) fun _ => ih fun x hx => h x (by simp [hx])

theorem Rel.mapEach {S : σ → τ → Prop} {l : List β} {f : β → PyM σ α} {f' : β → PyM τ α}
    (h : ∀ b ∈ l, Rel S (f b) (f' b)) : Rel S (PyM.mapEach l f) (PyM.mapEach l f') := by
  induction l with
  | nil => exact Rel.pure S _
  | cons b bs ih =>
    exact Rel.bind (h b (by simp)) fun _ =>
      Rel.bind (ih fun x hx => h x (by simp [hx])) fun _ => Rel.pure S _

theorem mapEach_length {l : List β} {f : β → PyM σ α} {s s' : σ} {r : List α}
    (h : PyM.mapEach l f s = (.ok r, s')) : r.length = l.length := by
  induction l generalizing s r s' with
  | nil => cases h; rfl
  | cons b bs ih =>
    obtain ⟨a, s1, h1, h2⟩ := bind_eq_ok h
    obtain ⟨as, s2, h3, h4⟩ := bind_eq_ok h2
    cases h4
    simp [ih h3]

end PyM
end Fauxdoc
