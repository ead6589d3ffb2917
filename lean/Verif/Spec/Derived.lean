import Verif.Model.World
import Verif.Spec.Fixed
import Verif.Spec.Wrappers
/-
Schemas in which fields are computed from a hidden field, as in the last example of README.md (lines
188-281): the hidden field makes a number of items, and further fields use them by `BasedOnFields`.
-/
namespace Fauxdoc
variable {K : Type} [Field K] [LinearOrder K] [FloorRing K] {R : Rng K}
open World

/-- `Field(name, BasedOnFields(f, action))` for each name and action, in order (README.md 214-250). -/
def deriveFields (str : Val → List Char) (fuel : Nat) (f : Ref) :
    List (String × Callback R.G) → PyM (World R) (Dict Ref)
  | [] => pure []
  | (name, action) :: acts => do
    let b ← newBasedOnFields str fuel [f] true action none
    let d ← newField fuel name b none none false none
    let ds ← deriveFields str fuel f acts
    return (name, d) :: ds

/-- `all = Field(name, Iterative(factory), repeat=Choice(counts, weights), hide=True)`, followed by
fields derived from `all` (README.md 203-250); returns the fields of the schema. -/
def itemSchema (str : Val → List Char) (fuel : Nat) (name : String) (f : Factory Val)
    (kind : ItemsKind) (counts : List Nat) (weights : Option (List K)) (acts : List (String × Callback R.G)) :
    PyM (World R) (Dict Ref) := do
  let items ← newIterative f false
  let rep ← newChoice kind (counts.map fun n : Nat => .int (n : Int)) weights true false none none
  let all ← newField fuel name items (some rep) none true none
  let ds ← deriveFields str fuel all acts
  return (name, all) :: ds

/-- `schema()` several times in a row, which gives these documents. -/
inductive Documents (str : Val → List Char) (fuel : Nat) (fields : Dict Ref) :
    World R → List (Dict Val) → World R → Prop
  | nil (w : World R) : Documents str fuel fields w [] w
  | cons {w w1 w2 : World R} {doc : Dict Val} {docs : List (Dict Val)}
      (h : World.document str fuel fields w = (.ok doc, w1)) (hs : Documents str fuel fields w1 docs w2) :
      Documents str fuel fields w (doc :: docs) w2

/-- `v` is what the function returns for these arguments (with some state of a generator, if it wants
one). -/
def Callback.Gives {G : Type} (cb : Callback G) (args : List Val) (v : Val) : Prop :=
  (¬ cb.DeclaresRng → cb.invoke args [] = .ok v) ∧
  (cb.DeclaresRng → ∃ g g', cb.invokeRng args [] g = (.ok v, g'))

/-- A document shows, under the name of each action, what the action returns for the list of
`items`, and nothing else. -/
def ShowsItems {G : Type} (acts : List (String × Callback G)) (items : List Val) (doc : Dict Val) : Prop :=
  List.Forall₂ (fun a kv => kv.1 = a.1 ∧ a.2.Gives [.list items] kv.2) acts doc

/-- The documents go through the endless sequence `src` from position `k` on, without gaps: each takes
a number of items out of `counts`, and shows what the actions make of them. -/
inductive Numbered {G : Type} (src : Src Val) (counts : List Nat) (acts : List (String × Callback G)) :
    Nat → List (Dict Val) → Prop
  | nil (k : Nat) : Numbered src counts acts k []
  | cons {k : Nat} {items : List Val} {doc : Dict Val} {docs : List (Dict Val)}
      (hn : items.length ∈ counts) (hi : IsCyclicFrom src k items) (hd : ShowsItems acts items doc)
      (hs : Numbered src counts acts (k + items.length) docs) : Numbered src counts acts k (doc :: docs)

end Fauxdoc
