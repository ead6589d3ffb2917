import Verif.Model.Wrappers
/-
Model of `BoundWrapper.__init__` and of `set_wrapper_function`,
`/repo/src/fauxdoc/emitters/wrappers.py` 64-81 and 259-269 (WrapOne), 365-375 (WrapMany): what
happens if the function given is itself a `BoundWrapper`, possibly of another emitter.
-/
namespace Fauxdoc
variable {σ G : Type}

/-- A `BoundWrapper`: the function and the generator of the object it is bound to. -/
structure BoundWrapper (σ G : Type) where
  function : Callback G
  boundTo : Attr σ G

/-- What can be given as a wrapper function: a callable without an attribute `function`, or one with
it (in particular a `BoundWrapper`). -/
inductive WrapArg (σ G : Type) where
  | plain (cb : Callback G)
  | bound (b : BoundWrapper σ G)

/-- `BoundWrapper(function, bound_to)`, wrappers.py 64-81. -/
def BoundWrapper.init (f : WrapArg σ G) (boundTo : Attr σ G) : BoundWrapper σ G :=
  match f with
  | .plain cb => ⟨cb, boundTo⟩
  | .bound b => ⟨b.function, boundTo⟩

/-- `BoundWrapper.__call__`, wrappers.py 119-122. -/
def BoundWrapper.call (b : BoundWrapper σ G) (args : List Val) (kwargs : Dict Val) : PyM σ Val :=
  b.function.call b.boundTo args kwargs

end Fauxdoc
