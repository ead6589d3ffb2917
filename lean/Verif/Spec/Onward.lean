import Verif.Spec.World
import Verif.Spec.Choice
/-
C113: drawing goes onward and never starts over.
-/
namespace Fauxdoc
variable {K : Type} [Field K] [LinearOrder K] [FloorRing K]

/-- The states of a generator that drawing can lead to from `g`.  Seeding is not a draw. -/
inductive Rng.Onward (R : Rng K) (g : R.G) : R.G → Prop
  | here : Rng.Onward R g g
  | random {h : R.G} : Rng.Onward R g h → Rng.Onward R g (R.random h).2
  | randbelow {h : R.G} (n : Nat) : Rng.Onward R g h → Rng.Onward R g (R.randbelow n h).2
  | sample {h : R.G} (n k : Nat) : Rng.Onward R g h → Rng.Onward R g (R.sample n k h).2

variable {R : Rng K}

/-- Every `Choice` of `w` has a generator in `v` that drawing led to. -/
def World.Onward (w v : World R) : Prop :=
  ∀ x k, (w.obj x).node = some (.choice k) → R.Onward (w.obj x).choice.rng (v.obj x).choice.rng

/-- No `Text` at or below `r` has a word list that is used up and started again
(`replace_only_after_call`, text.py 242-274). -/
def World.NoRecycling (w : World R) (r : Ref) : Prop :=
  ∀ q n wd s k, Below w r q → (w.obj q).node = some (.text n wd s) →
    (w.obj wd).node = some (.choice k) → (w.obj wd).choice.roac = false

/-- `r` is a `Text` with a fixed number `k` of words, separated by a fixed separator, over a seeded
list of words that is used up and started again. -/
structure RecyclingText (w : World R) (r n wd s : Ref) (k : Nat) (seed : Int) : Prop where
  node : (w.obj r).node = some (.text n wd s)
  counts : (w.obj n).node = some .static ∧ (w.obj n).static.value = .int k
  seps : (w.obj s).node = some .static
  words : ∃ kind, (w.obj wd).node = some (.choice kind)
  reachable : ∃ e, ChoiceReach R (w.obj wd).choice.items ((w.obj wd).choice, e)
  roac : (w.obj wd).choice.roac = true
  seeded : (w.obj wd).choice.rngSeed = some seed
  distinct : (w.obj wd).choice.items.Nodup
  strings : ∀ x ∈ (w.obj wd).choice.items, ∃ t, x = .str t

end Fauxdoc
