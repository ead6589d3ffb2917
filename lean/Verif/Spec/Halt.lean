import Verif.Spec.Contract
/-
What has to be true of objects so that using them cannot go on forever.
-/
namespace Fauxdoc
variable {K : Type} [Field K] [LinearOrder K] [FloorRing K] {R : Rng K}

/-- A Python exception other than `RecursionError`; not the mark of an endless loop. -/
def Err.Ordinary (e : Err) : Prop := e ≠ .diverges ∧ e ≠ .recursion

/-- The outcome is a value or an ordinary exception. -/
def Ended {α : Type} (x : Except Err α) : Prop := ∀ e, x = .error e → e.Ordinary

/-- The iterator yields at least one value. -/
def Src.Some {α : Type} : Src α → Prop
  | .fin l => l ≠ []
  | .inf _ => True

/-- The callback always returns or raises an ordinary exception. -/
def Callback.Ends {G : Type} (cb : Callback G) : Prop :=
  (∀ args kwargs, Ended (cb.run args kwargs)) ∧ ∀ args kwargs g, Ended (cb.runRng args kwargs g).1

/-- The weights of a `Choice` are not negative, the function of a wrapper always ends. -/
def Attrs.Tame (a : Attrs R) : Prop :=
  match a.node with
  | some (.choice _) => ∀ ws, a.choice.weights = some ws → ∀ x ∈ ws, 0 ≤ x
  | some (.wrapOne _) | some (.wrapMany _) | some (.basedOn ..) =>
    ∀ cb, a.wrapper = some cb → cb.Ends
  | _ => True

/-- There is something to iterate over. -/
def Attrs.Fed (a : Attrs R) : Prop :=
  match a.node with
  | some .iterative => a.iter.factory.src.Some
  | some (.sequential _) => a.seq.it.factory.src.Some
  | _ => True

/-- Every object in `P` is tame and fed, and none is below itself: `depth` decreases from every object
to its child emitters. -/
def EndsOn (P : Ref → Prop) (depth : Ref → Nat) (w : World R) : Prop :=
  ∀ r, P r → (w.obj r).Tame ∧ (w.obj r).Fed ∧ ∀ c ∈ (w.obj r).children, P c ∧ depth c < depth r

end Fauxdoc
