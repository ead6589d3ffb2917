import Verif.Spec.World
import Verif.Spec.Text
/-
The contract of emitters (a call without number gives one value, a call with `n >= 0` a list of
exactly `n` values), and what has to be true of the objects for it to hold.
-/
namespace Fauxdoc

/-- If the value counts as an integer, it is at least `k`. -/
def Val.AtLeast (k : Int) (v : Val) : Prop := ∀ i, v.asInt = some i → k ≤ i

/-- An argument an emitter may be called with: nothing, or anything but a negative number. -/
def ArgOK : Option Val → Prop
  | none => True
  | some v => v.AtLeast 0

/-- What an emitter of values satisfying `P` answers: one such value if no number (or `None`) was
given, a list of exactly `n` such values if the number `n` was given. -/
def Answers (P : Val → Prop) (arg : Option Val) (v : Val) : Prop :=
  match arg with
  | none => P v
  | some .none => P v
  | some x => ∃ i l, x.asInt = some i ∧ v = .list l ∧ (l.length : Int) = i ∧ ∀ y ∈ l, P y

/-- Everything the iterator will yield satisfies `P`. -/
def Src.All {α : Type} (P : α → Prop) : Src α → Prop
  | .fin l => ∀ x ∈ l, P x
  | .inf f => ∀ k, P (f k)

/-- Whatever the callback returns for these arguments satisfies `P`. -/
def Callback.Yields {G : Type} (cb : Callback G) (args : List Val) (kwargs : Dict Val)
    (P : Val → Prop) : Prop :=
  (∀ v, cb.run args kwargs = .ok v → P v) ∧ ∀ g v, (cb.runRng args kwargs g).1 = .ok v → P v

/-- What a `Word` with lengths in `L` and an alphabet in `A` can spell: some length's number of
characters; if `None` is among the lengths, also the members of one value of the alphabet. -/
inductive Spelled (L A : Val → Prop) : List Char → Prop
  | chars {k : Val} {cs : List (List Char)} (hk : L k) (hl : k.asInt = some (cs.length : Int))
    (hc : ∀ c ∈ cs, A (.str c)) : Spelled L A cs.flatten
  | whole {v : Val} {cs : List (List Char)} (hk : L .none) (hv : A v)
    (he : v.elems = .ok (cs.map Val.str)) : Spelled L A cs.flatten

/-- What a `Text` with word counts in `N`, words in `W` and separators in `S` can render. -/
def Rendered (N W S : Val → Prop) (t : List Char) : Prop :=
  ∃ k ws ss, N k ∧ k.asInt = some ((ws.length : Nat) : Int) ∧ (∀ w ∈ ws, W (.str w)) ∧
    (∀ s ∈ ss, S (.str s)) ∧ TextOf ws ss t

variable {K : Type} [Field K] [LinearOrder K] [FloorRing K] {R : Rng K}

/-- The attributes of a `Choice` agree with each other: there is an item, the weights fit the items,
and when drawing without replacement the first `k` of the shuffled items have been handed out. -/
def ChoiceSt.Intact {α : Type} (c : ChoiceSt α R) : Prop :=
  c.items ≠ [] ∧
  (c.weights = none ∧ c.cumWeights = none ∨
    ∃ ws, c.weights = some ws ∧ c.cumWeights = some (accumulate ws) ∧ ws.length = c.items.length) ∧
  (c.roac = true → c.replace = true) ∧
  (c.replace = true → c.numUniqueItems = c.items.length) ∧
  (c.replace = false → c.shuffled.Perm c.items ∧ ∃ k : Nat, k ≤ c.items.length ∧
    c.shuffledIndex = some (k : Int) ∧ c.numUniqueItems = (c.items.length : Int) - k)

/-- The object `r` with attributes `a` does its part to emit only values in `V r`, if all other
objects emit only values in their `V`.  Lengths of words and numbers of repeats must not be negative,
numbers of words must be positive. -/
def Attrs.Typed (V : Ref → Val → Prop) (r : Ref) (a : Attrs R) : Prop :=
  match a.node with
  | none => True
  | some (.choice _) => a.choice.Intact ∧ ∀ x ∈ a.choice.items, V r x
  | some .static => V r a.static.value
  | some .iterative => a.iter.factory.src.All (V r) ∧ a.iter.cur.All (V r)
  | some (.sequential _) => a.seq.it.factory.src.All (V r) ∧ a.seq.it.cur.All (V r)
  | some (.word l c) => (∀ s, Spelled (V l) (V c) s → V r (.str s)) ∧ ∀ v, V l v → v.AtLeast 0
  | some (.text n wd sp) => (∀ s, Rendered (V n) (V wd) (V sp) s → V r (.str s)) ∧
      ∀ v, V n v → v.AtLeast 1
  | some (.wrapOne s) => ∀ cb, a.wrapper = some cb → ∀ v, V s v → cb.Yields [v] [] (V r)
  | some (.wrapMany ss) => ∀ cb, a.wrapper = some cb → ∀ d : Dict Val,
      List.Forall₂ (fun ks kv => kv.1 = ks.1 ∧ V ks.2 kv.2) ss d → cb.Yields [] d (V r)
  | some (.copyFields ..) => ∀ v, V r v
  | some (.basedOn ..) => ∀ cb, a.wrapper = some cb → ∀ args kwargs, cb.Yields args kwargs (V r)
  | some (.field _ _ rp _ _) => (∀ v, V r v) ∧ ∀ v, V rp v → v.AtLeast 0

/-- The objects in `P`, which contains their child emitters, emit only values in `V`. -/
def TypedOn (V : Ref → Val → Prop) (P : Ref → Prop) (w : World R) : Prop :=
  ∀ r, P r → (w.obj r).Typed V r ∧ ∀ c ∈ (w.obj r).children, P c

end Fauxdoc
