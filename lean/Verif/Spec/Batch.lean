import Verif.Spec.Contract
import Verif.Spec.Wrappers
/-
Emitters for which it makes no difference whether values are asked for one by one or many at a time.
-/
namespace Fauxdoc

/-- Calling `c` without argument again and again returns the values `l`, one per call. -/
inductive OneByOne {σ : Type} (c : Child σ) : σ → List Val → σ → Prop
  | nil (s : σ) : OneByOne c s [] s
  | cons {s s1 s2 : σ} {v : Val} {l : List Val} (h : c none s = (.ok v, s1))
      (hs : OneByOne c s1 l s2) : OneByOne c s (v :: l) s2

/-- Calling `c` with the numbers `ns`, one after the other, returns the lists `ls`. -/
inductive InBatches {σ : Type} (c : Child σ) : List Nat → σ → List (List Val) → σ → Prop
  | nil (s : σ) : InBatches c [] s [] s
  | cons {n : Nat} {ns : List Nat} {s s1 s2 : σ} {l : List Val} {ls : List (List Val)}
      (h : c (some (.int n)) s = (.ok (.list l), s1)) (hs : InBatches c ns s1 ls s2) :
      InBatches c (n :: ns) s (l :: ls) s2

variable {K : Type} [Field K] [LinearOrder K] [FloorRing K] {R : Rng K}

/-- The `Choice` makes the same draws for a batch as one by one: it has no
`replace_only_after_call`, and if it draws with replacement then it has weights or a single item
(otherwise one value comes from `random.choice`, several come from `random.choices`). -/
def ChoiceSt.Batchable {α : Type} (c : ChoiceSt α R) : Prop :=
  c.roac = false ∧ (c.replace = false ∨ c.weights ≠ none ∨ c.items.length = 1)

/-- What a call of `r` can look at: `r`, its child emitters and source fields, theirs, and so on. -/
inductive Needs (w : World R) : Ref → Ref → Prop
  | self (r : Ref) : Needs w r r
  | child {r c x : Ref} (hc : c ∈ (w.obj r).children) (h : Needs w c x) : Needs w r x
  | source {r g x : Ref} (hg : g ∈ (w.obj r).sources) (h : Needs w g x) : Needs w r x

/-- Neither of the two emitters looks at anything a call of the other can change. -/
def Apart (w : World R) (a b : Ref) : Prop :=
  (∀ x, Needs w a x → ¬ Below w b x) ∧ ∀ x, Needs w b x → ¬ Below w a x

/-- Emitters in whose whole tree nothing makes a difference between one call for many values and many
calls: no `reset_after_call`, no `replace_only_after_call`, no unweighted `Choice` with replacement,
no action of a `BasedOnFields` with an own random generator; and children of the same emitter have
nothing in common. -/
inductive Batchable (V : Ref → Val → Prop) (w : World R) : Ref → Prop
  | static {r : Ref} (hn : (w.obj r).node = some .static) : Batchable V w r
  | iterative {r : Ref} (hn : (w.obj r).node = some .iterative)
      (hr : (w.obj r).iter.resetAfterCall = false) : Batchable V w r
  | sequential {r : Ref} {k : ItemsKind} (hn : (w.obj r).node = some (.sequential k))
      (hr : (w.obj r).seq.it.resetAfterCall = false) : Batchable V w r
  | choice {r : Ref} {k : ItemsKind} (hn : (w.obj r).node = some (.choice k))
      (hc : (w.obj r).choice.Batchable) : Batchable V w r
  | word {r l c : Ref} (hn : (w.obj r).node = some (.word l c)) (hl : Batchable V w l)
      (hc : Batchable V w c) (hlc : Apart w l c) (hlen : ∀ v, V l v → ∃ k : Nat, v = .int k)
      (hchar : ∀ v, V c v → ∃ c, v = .str c) : Batchable V w r
  | text {r n wd s : Ref} (hn : (w.obj r).node = some (.text n wd s)) (hcnt : Batchable V w n)
      (hwd : Batchable V w wd) (hs : Batchable V w s) (hnw : Apart w n wd) (hns : Apart w n s)
      (hws : Apart w wd s) (hpos : ∀ v, V n v → ∃ k : Nat, 1 ≤ k ∧ v = .int k)
      (hword : ∀ v, V wd v → ∃ c, v = .str c)
      (hsep : ∀ v, V s v → ∃ c, v = .str c) : Batchable V w r
  | wrapOne {r s : Ref} (hn : (w.obj r).node = some (.wrapOne s)) (hs : Batchable V w s)
      (hr : ¬ Needs w s r) : Batchable V w r
  | wrapMany {r : Ref} {ss : Dict Ref} (hn : (w.obj r).node = some (.wrapMany ss))
      (hself : "self" ∉ ss.keys) (hs : ∀ ks ∈ ss, Batchable V w ks.2)
      (hr : ∀ ks ∈ ss, ¬ Needs w ks.2 r) (hap : ss.Pairwise fun a b => Apart w a.2 b.2) :
      Batchable V w r
  | copyFields {r : Ref} {src : List Ref} {single : Bool} {sep : Option (List Char)}
      (hn : (w.obj r).node = some (.copyFields src single sep)) : Batchable V w r
  | basedOn {r : Ref} {src : List Ref} {single : Bool}
      (hn : (w.obj r).node = some (.basedOn src single))
      (hcb : ∀ cb, (w.obj r).wrapper = some cb → ¬ cb.DeclaresRng) : Batchable V w r

end Fauxdoc
