/-
Python substrate: exceptions as values and a state-and-exception monad that keeps the state when
an exception is raised.
-/
namespace Fauxdoc

/-- Python exception kinds that the modelled code can raise.  `diverges` is not a Python exception:
it marks a Python loop that would not terminate.  `user n` stands for an exception of the `n`-th
kind raised by a user-supplied callback or emitter. -/
inductive Err where
  | valueError
  | typeError
  | indexError
  | keyError
  | attributeError
  | zeroDivision
  | overflow
  | stopIteration
  | runtime
  | recursion
  | diverges
  | user (n : Nat)
  deriving DecidableEq, Repr, Inhabited

/-- A Python computation over mutable state `σ`: the state survives an exception, as in Python. -/
def PyM (σ : Type _) (α : Type _) := σ → Except Err α × σ

namespace PyM
variable {σ : Type _} {α β γ : Type _}

/-- `return a`. -/
@[inline] protected def pure (a : α) : PyM σ α := fun s => (.ok a, s)

/-- Sequencing; an exception skips the continuation but keeps the state reached so far. -/
@[inline] protected def bind (m : PyM σ α) (k : α → PyM σ β) : PyM σ β := fun s =>
  match m s with
  | (.ok a, s') => k a s'
  | (.error e, s') => (.error e, s')

instance : Monad (PyM σ) where
  pure := PyM.pure
  bind := PyM.bind

/-- `raise e`. -/
def raise (e : Err) : PyM σ α := fun s => (.error e, s)

/-- Read the whole state. -/
def get : PyM σ σ := fun s => (.ok s, s)

/-- Replace the whole state. -/
def set (s : σ) : PyM σ PUnit := fun _ => (.ok ⟨⟩, s)

/-- Update the state. -/
def modify (f : σ → σ) : PyM σ PUnit := fun s => (.ok ⟨⟩, f s)

/-- Lift a pure result. -/
def lift (x : Except Err α) : PyM σ α := fun s => (x, s)

/-- `try: m except E: pass` for one exception kind; effects made before the exception stay. -/
def ignoring (e : Err) (m : PyM σ PUnit) : PyM σ PUnit := fun s =>
  match m s with
  | (.error e', s') => if e' = e then (.ok ⟨⟩, s') else (.error e', s')
  | (.ok _, s') => (.ok ⟨⟩, s')

/-- `try: m finally: fin`: `fin` runs in any case; an exception of `fin` wins. -/
def finally_ (m : PyM σ α) (fin : PyM σ PUnit) : PyM σ α := fun s =>
  match m s with
  | (r, s') =>
    match fin s' with
    | (.ok _, s'') => (r, s'')
    | (.error e, s'') => (.error e, s'')

@[simp] theorem pure_apply (a : α) (s : σ) : (pure a : PyM σ α) s = (.ok a, s) := rfl

theorem bind_apply (m : PyM σ α) (k : α → PyM σ β) (s : σ) :
    (m >>= k) s = match m s with
      | (.ok a, s') => k a s'
      | (.error e, s') => (.error e, s') := rfl

theorem bind_ok {m : PyM σ α} {k : α → PyM σ β} {s s' : σ} {a : α} (h : m s = (.ok a, s')) :
    (m >>= k) s = k a s' := by rw [bind_apply, h]

theorem bind_err {m : PyM σ α} {k : α → PyM σ β} {s s' : σ} {e : Err}
    (h : m s = (.error e, s')) : (m >>= k) s = (.error e, s') := by rw [bind_apply, h]

@[simp] theorem raise_apply (e : Err) (s : σ) : (raise e : PyM σ α) s = (.error e, s) := rfl
@[simp] theorem get_apply (s : σ) : (get : PyM σ σ) s = (.ok s, s) := rfl
@[simp] theorem set_apply (s s' : σ) : (set s' : PyM σ PUnit) s = (.ok ⟨⟩, s') := rfl
@[simp] theorem modify_apply (f : σ → σ) (s : σ) : (modify f : PyM σ PUnit) s = (.ok ⟨⟩, f s) := rfl
@[simp] theorem lift_apply (x : Except Err α) (s : σ) : (lift x : PyM σ α) s = (x, s) := rfl

/-- Inversion of a successful sequence. -/
theorem bind_eq_ok {m : PyM σ α} {k : α → PyM σ β} {s t : σ} {b : β}
    (h : (m >>= k) s = (.ok b, t)) : ∃ a s', m s = (.ok a, s') ∧ k a s' = (.ok b, t) := by
  rw [bind_apply] at h
  split at h
  · next a s' e => exact ⟨a, s', e, h⟩
  · simp at h

@[simp] theorem run_pure_bind (a : α) (k : α → PyM σ β) (s : σ) : ((pure a : PyM σ α) >>= k) s = k a s := rfl
@[simp] theorem run_get_bind (k : σ → PyM σ β) (s : σ) : ((get : PyM σ σ) >>= k) s = k s s := rfl
@[simp] theorem run_set_bind (s' : σ) (k : PUnit → PyM σ β) (s : σ) :
    ((set s' : PyM σ PUnit) >>= k) s = k ⟨⟩ s' := rfl
@[simp] theorem run_modify_bind (f : σ → σ) (k : PUnit → PyM σ β) (s : σ) :
    ((modify f : PyM σ PUnit) >>= k) s = k ⟨⟩ (f s) := rfl
@[simp] theorem run_raise_bind (e : Err) (k : α → PyM σ β) (s : σ) :
    ((raise e : PyM σ α) >>= k) s = (.error e, s) := rfl

theorem lift_bind {x : Except Err α} {a : α} (h : x = .ok a) (k : α → PyM σ β) (s : σ) :
    (lift x >>= k) s = k a s := by rw [h]; rfl

instance : LawfulMonad (PyM σ) := LawfulMonad.mk'
  (id_map := by
    intro α x; funext s
    change (x >>= fun a => pure a) s = x s
    rw [bind_apply]; rcases x s with ⟨_ | _, _⟩ <;> rfl)
  (pure_bind := by intros; rfl)
  (bind_assoc := by
    intro α β γ x f g; funext s
    simp only [bind_apply]
    rcases x s with ⟨_ | _, _⟩ <;> rfl)

end PyM

/-- `Except` is used for pure Python functions that may raise. -/
abbrev Py (α : Type _) := Except Err α

@[simp] theorem Py.ok_bind {ε α β : Type _} (a : α) (f : α → Except ε β) :
    (Except.ok a >>= f) = f a := rfl
@[simp] theorem Py.error_bind {ε α β : Type _} (e : ε) (f : α → Except ε β) :
    (Except.error e >>= f) = Except.error e := rfl
@[simp] theorem Py.pure_eq {ε α : Type _} (a : α) : (pure a : Except ε α) = Except.ok a := rfl
@[simp] theorem Py.ok_map {ε α β : Type _} (a : α) (f : α → β) :
    (f <$> (Except.ok a : Except ε α)) = Except.ok (f a) := rfl
@[simp] theorem Py.error_map {ε α β : Type _} (e : ε) (f : α → β) :
    (f <$> (Except.error e : Except ε α)) = Except.error e := rfl

theorem Py.bind_eq_ok {ε α β : Type _} {x : Except ε α} {f : α → Except ε β} {b : β}
    (h : (x >>= f) = .ok b) : ∃ a, x = .ok a ∧ f a = .ok b := by
  cases x with
  | ok a => exact ⟨a, rfl, h⟩
  | error e => cases h

/-- Which values of a type can be hashed; hashing another value is a `TypeError`. -/
class PyHash (α : Type) where
  hashable : α → Bool

instance : PyHash Nat := ⟨fun _ => true⟩
instance : PyHash Int := ⟨fun _ => true⟩
instance : PyHash Bool := ⟨fun _ => true⟩
instance : PyHash Char := ⟨fun _ => true⟩
instance : PyHash String := ⟨fun _ => true⟩

/-- `set(l)` can be built. -/
def allHashable {α : Type} [PyHash α] (l : List α) : Bool := l.all PyHash.hashable

end Fauxdoc
