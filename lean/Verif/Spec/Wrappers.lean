import Verif.Model.Wrappers
/-
Specifications for the wrapper emitters: how a callback is applied to a list of argument tuples, how
a set of sources is called, and what a well-formed Python signature is.
-/
namespace Fauxdoc
variable {σ G α β : Type}

/-- For a conforming emitter `em(1)` is `[em()]`, in all states satisfying `I`, and `em()` preserves
`I`. -/
def SingleIsEmit (I : σ → Prop) (c : Child σ) : Prop :=
  ∀ s, I s → (c (some (.int 1)) s = match c none s with
    | (.ok v, t) => (.ok (.list [v]), t)
    | (.error e, t) => (.error e, t)) ∧ I (c none s).2

/-- `f` is run on the members of the list from left to right, starting with generator `g`; `bs` are
the results and the generator ends as the last index. -/
inductive Runs (f : α → PyM G β) : List α → G → List β → G → Prop
  | nil (g : G) : Runs f [] g [] g
  | cons {a : α} {as : List α} {g g1 g2 : G} {b : β} {bs : List β} :
      f a g = (.ok b, g1) → Runs f as g1 bs g2 → Runs f (a :: as) g (b :: bs) g2

/-- The callback has a parameter called `rng`. -/
def Callback.DeclaresRng (cb : Callback G) : Prop :=
  ∃ ps, cb.sig = some ps ∧ ∃ p ∈ ps, p.name = "rng"

/-- What applying the callback to each of the argument tuples `as` does, from state `s` to state `t`:
if it declares `rng`, it runs on the generator of the bound emitter from left to right and nothing
else changes; otherwise nothing changes at all and every result is that of a plain call. -/
def Applies (L : Attr σ G) (cb : Callback G) (as : List (List Val × Dict Val)) (s : σ)
    (ws : List Val) (t : σ) : Prop :=
  (cb.DeclaresRng → ∃ g, Runs (fun a => cb.invokeRng a.1 a.2) as (L.get s) ws g ∧ t = L.set g s) ∧
  (¬ cb.DeclaresRng → List.Forall₂ (fun a w => cb.invoke a.1 a.2 = .ok w) as ws ∧ t = s)

/-- Every source is called exactly once with `arg`, in order; `vals` are the values by label. -/
inductive Called (arg : Option Val) : Dict (Child σ) → σ → Dict Val → σ → Prop
  | nil (s : σ) : Called arg [] s [] s
  | cons {k : String} {c : Child σ} {cs : Dict (Child σ)} {s s1 s2 : σ} {v : Val} {vs : Dict Val} :
      c arg s = (.ok v, s1) → Called arg cs s1 vs s2 → Called arg ((k, c) :: cs) s ((k, v) :: vs) s2

/-- `row` gives each label the `i`-th member of its value. -/
def RowAt (vals : Dict Val) (i : Nat) (row : Dict Val) : Prop :=
  List.Forall₂ (fun kv kx => kx.1 = kv.1 ∧ ∃ l, kv.2.elems = .ok l ∧ l[i]? = some kx.2) vals row

/-- The order of parameter kinds in a signature. -/
def ParamKind.rank : ParamKind → Nat
  | .posOnly => 0
  | .posOrKw => 1
  | .varPos => 2
  | .kwOnly => 3
  | .varKw => 4

/-- What Python guarantees of every signature: distinct names, kinds in order, at most one `*args`
and one `**kwargs`, and among the positional parameters no required one after one with a default. -/
structure Sig.Valid (ps : List Param) : Prop where
  names : (ps.map (·.name)).Nodup
  order : ps.Pairwise fun p q => p.kind.rank ≤ q.kind.rank
  single : ps.Pairwise fun p q => p.kind = q.kind → p.kind ≠ .varPos ∧ p.kind ≠ .varKw
  defaults : (Sig.positional ps).Pairwise fun p q => p.hasDefault → q.hasDefault

end Fauxdoc
