import Verif.Model.Rebind
import Verif.Props.Wrappers
/-
Property C75: a function set with `set_wrapper_function` uses the generator of that emitter, even if
it is taken over from another emitter.
-/
namespace Fauxdoc
variable {σ G : Type}

/-- The user's function itself, without any binding. -/
def WrapArg.unbound : WrapArg σ G → Callback G
  | .plain cb => cb
  | .bound b => b.function

/-- Two attributes of different objects: setting one does not change the other. -/
def Attr.Apart {G' : Type} (L : Attr σ G) (M : Attr σ G') : Prop :=
  ∀ g s, M.get (L.set g s) = M.get s

/-- **C75 (rebinding).** Taking over a wrapper, any number of times, is the same as giving the user's
function: nothing of the earlier bindings is left. -/
theorem C75_rebind (f : WrapArg σ G) (Ls : List (Attr σ G)) (L : Attr σ G) :
    BoundWrapper.init (Ls.foldl (fun f L' => .bound (BoundWrapper.init f L')) f) L =
      ⟨f.unbound, L⟩ := by
  have : ∀ (Ls : List (Attr σ G)) (f : WrapArg σ G),
      (Ls.foldl (fun f L' => WrapArg.bound (BoundWrapper.init f L')) f).unbound = f.unbound := by
    intro Ls
    induction Ls with
    | nil => intro f; rfl
    | cons L' Ls ih =>
      intro f
      refine (ih _).trans ?_
      cases f <;> rfl
  have e : ∀ f : WrapArg σ G, BoundWrapper.init f L = ⟨f.unbound, L⟩ := by intro f; cases f <;> rfl
  rw [e, this]

theorem call_cases (L : Attr σ G) (cb : Callback G) (args : List Val) (kwargs : Dict Val) :
    ∃ m : PyM G Val, (∀ t, cb.call L args kwargs t = L.run m t) := by
  unfold Callback.call
  by_cases h1 : "self" ∈ kwargs.keys
  · refine ⟨PyM.raise .typeError, fun t => ?_⟩
    rw [if_pos h1]
    change (_, _) = (_, _)
    rw [L.set_get]
  · rw [if_neg h1]
    by_cases h2 : cb.wantsRng = true
    · exact ⟨_, fun t => by rw [if_pos h2]⟩
    · refine ⟨PyM.lift (cb.invoke args kwargs), fun t => ?_⟩
      rw [if_neg h2]
      change (_, _) = (_, _)
      rw [L.set_get]

/-- **C75 (own generator).** After `set_wrapper_function(f)` on an emitter with the generator `L`, where
`f` may be a wrapper of another emitter: a call of the wrapper depends on the state of `L` only, and
changes nothing but `L`. -/
theorem C75_own_generator (f : WrapArg σ G) (L : Attr σ G) (args : List Val) (kwargs : Dict Val) :
    (∀ s t, L.get s = L.get t →
      ((BoundWrapper.init f L).call args kwargs s).1 = ((BoundWrapper.init f L).call args kwargs t).1 ∧
      L.get ((BoundWrapper.init f L).call args kwargs s).2 =
        L.get ((BoundWrapper.init f L).call args kwargs t).2) ∧
    (∀ s, ∃ g, ((BoundWrapper.init f L).call args kwargs s).2 = L.set g s) ∧
    (∀ {G' : Type} (M : Attr σ G'), L.Apart M →
      ∀ s, M.get ((BoundWrapper.init f L).call args kwargs s).2 = M.get s) := by
  have e : BoundWrapper.init f L = ⟨f.unbound, L⟩ := by cases f <;> rfl
  rw [e]
  unfold BoundWrapper.call
  have run_eq : ∀ (m : PyM G Val) s, L.run m s = ((m (L.get s)).1, L.set (m (L.get s)).2 s) :=
    fun m s => rfl
  refine ⟨?_, ?_, ?_⟩
  · intro s t h
    obtain ⟨m, hm⟩ := call_cases L f.unbound args kwargs
    dsimp only
    rw [hm s, hm t, run_eq, run_eq, h]
    exact ⟨rfl, by rw [L.get_set, L.get_set]⟩
  · intro s
    obtain ⟨m, hm⟩ := call_cases L f.unbound args kwargs
    dsimp only
    rw [hm s, run_eq]
    exact ⟨_, rfl⟩
  · intro G' M hM s
    obtain ⟨m, hm⟩ := call_cases L f.unbound args kwargs
    dsimp only
    rw [hm s, run_eq]
    exact hM _ _

/-- **C75 (shared wrapper).** Assigning the wrapper object itself (`a.wrapper = b.wrapper`) does not
rebind it: calls of `a` then draw from the generator of `b`, and that of `a` is left alone. -/
theorem C75_assigned_wrapper (b : BoundWrapper σ G) (own : Attr σ G) (h : b.boundTo.Apart own)
    (args : List Val) (kwargs : Dict Val) (s : σ) :
    own.get (b.call args kwargs s).2 = own.get s ∧
    ∃ g, (b.call args kwargs s).2 = b.boundTo.set g s := by
  have e : b = BoundWrapper.init (.bound b) b.boundTo := by cases b; rfl
  obtain ⟨-, h2, h3⟩ := C75_own_generator (.bound b) b.boundTo args kwargs
  rw [← e] at h2 h3
  exact ⟨h3 own h s, h2 s⟩

/-- The generator in the first component. -/
def Attr.fst (G τ : Type) : Attr (G × τ) G where
  get s := s.1
  set g s := (g, s.2)
  get_set _ _ := rfl
  set_get _ := rfl
  set_set _ _ _ := rfl

example : (Attr.fst Nat Nat).Apart (Attr.snd Nat Nat) := fun _ _ => rfl
/-- The wrapper of the first emitter, taken over by the second, draws from the second generator. -/
example : (BoundWrapper.init (.bound ⟨tagWithRng, Attr.fst Nat Nat⟩) (Attr.snd Nat Nat)).call
    [.int 3] [] (7, 40) = (.ok (.tuple [.int 3, .int 40]), (7, 41)) := rfl
/-- Assigned as it is, it keeps drawing from the first one. -/
example : (BoundWrapper.mk tagWithRng (Attr.fst Nat Nat)).call [.int 3] [] (7, 40) =
    (.ok (.tuple [.int 3, .int 7]), (8, 40)) := rfl

end Fauxdoc
