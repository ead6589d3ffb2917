import Verif.Model.Fixed
/-
What users expect of fixed emitters: the endless repetition of the source, and histories.
-/
namespace Fauxdoc
variable {α : Type}

/-- A source with at least one value. -/
def Src.NonEmpty : Src α → Prop
  | .fin l => l ≠ []
  | .inf _ => True

/-- The `k`-th value of the endless repetition of a source (`itertools.cycle`); an endless source is
its own repetition. -/
def Src.cycle : Src α → Nat → Option α
  | .fin l, k => l[k % l.length]?
  | .inf f, k => some (f k)

/-- `vs` are the values `from, from + 1, ...` of the endless repetition of `src`. -/
def IsCyclicFrom (src : Src α) (start : Nat) (vs : List α) : Prop :=
  ∀ i < vs.length, vs[i]? = src.cycle (start + i)

/-- How a history goes on: source, and values emitted since the last (explicit or automatic)
reset. -/
def iterAfter (rac : Bool) (op : IterOp α) (r : Except Err (List α)) (src : Src α) (E : List α) :
    Src α × List α :=
  match r with
  | .error _ => (src, E)
  | .ok vs =>
    match op with
    | .call _ => (src, if rac then [] else E ++ vs)
    | .reset => (src, [])
    | .setFactory f => (f.src, [])
    | .setResetAfterCall _ => (src, E)

/-- Histories of an `Iterative`: construction and any operations, including ones that raised; with
the current source and the values emitted since the last reset. -/
inductive IterRun : IterSt α → Src α → List α → Prop
  | init (f : Factory α) (rac : Bool) (st : IterSt α) (h : Iterative.init f rac = .ok st) :
      IterRun st f.src []
  | op (st : IterSt α) (src : Src α) (E : List α) (o : IterOp α) (h : IterRun st src E) :
      IterRun (o.runIter st).2
        (iterAfter st.resetAfterCall o (o.runIter st).1 src E).1
        (iterAfter st.resetAfterCall o (o.runIter st).1 src E).2

/-- The same for a `Sequential`, which starts from a list of items. -/
inductive SeqRun : SeqSt α → Src α → List α → Prop
  | init (items : List α) (rac : Bool) (st : SeqSt α) (h : Sequential.init items rac = .ok st) :
      SeqRun st (.fin items) []
  | op (st : SeqSt α) (src : Src α) (E : List α) (o : IterOp α) (h : SeqRun st src E) :
      SeqRun (o.runSeq st).2
        (iterAfter st.it.resetAfterCall o (o.runSeq st).1 src E).1
        (iterAfter st.it.resetAfterCall o (o.runSeq st).1 src E).2

/-- Histories of a `Static`, with the value last assigned. -/
inductive StaticRun : StaticSt α → α → Prop
  | init (v : α) : StaticRun (Static.init v) v
  | op (st : StaticSt α) (v : α) (o : StaticOp α) (h : StaticRun st v) :
      StaticRun (o.run st).2 (match o with | .setValue w => w | _ => v)

/-- The number of values a call asks for, if it is a valid request. -/
def asked : Option Int → Int
  | none => 1
  | some n => n

end Fauxdoc
