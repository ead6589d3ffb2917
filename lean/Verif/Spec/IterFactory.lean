import Verif.Model.IterFactory
import Verif.Model.Fixed
/-
What the author of an iterator factory can observe of an `Iterative` that uses it.
-/
namespace Fauxdoc
variable {σ H α : Type}

/-- What happens at a factory and its iterators. -/
inductive ItEvent (H α : Type) where
  /-- the factory was called and returned an iterator -/
  | made (it : H)
  /-- an iterator was asked and gave a value -/
  | gave (it : H) (a : α)
  /-- an iterator was asked and had no more values -/
  | ended (it : H)
  /-- the factory or an iterator raised an exception -/
  | failed (e : Err)
  deriving DecidableEq

/-- The factory with a record of all events. -/
def IterFac.logged (F : IterFac σ H α) : IterFac (σ × List (ItEvent H α)) H α where
  make s :=
    match F.make s.1 with
    | (.ok it, t) => (.ok it, (t, s.2 ++ [.made it]))
    | (.error e, t) => (.error e, (t, s.2 ++ [.failed e]))
  next it s :=
    match F.next it s.1 with
    | (.ok (some a), t) => (.ok (some a), (t, s.2 ++ [.gave it a]))
    | (.ok none, t) => (.ok none, (t, s.2 ++ [.ended it]))
    | (.error e, t) => (.error e, (t, s.2 ++ [.failed e]))

/-- The values given. -/
def given : List (ItEvent H α) → List α
  | [] => []
  | .gave _ a :: l => a :: given l
  | _ :: l => given l

/-- Orderly use of a factory, starting and ending with a current iterator or with none: only the
current iterator is asked, and the factory is called only when there is none, because it has
not been called yet or because the last one has ended. -/
inductive Orderly : Option H → List (ItEvent H α) → Option H → Prop
  | nil (c) : Orderly c [] c
  | made {it l c} (h : Orderly (some it) l c) : Orderly none (.made it :: l) c
  | gave {it a l c} (h : Orderly (some it) l c) : Orderly (some it) (.gave it a :: l) c
  | ended {it l c} (h : Orderly none l c) : Orderly (some it) (.ended it :: l) c

/-- The iterator a generator is in. -/
def GenSt.current : GenSt H → Option H
  | .inside it => some it
  | _ => none

/-- The factory whose `k`-th call returns an iterator over `its k`.  The state is the number of calls
made so far and what is left of each iterator. -/
def IterFac.ofSources (its : Nat → Src α) : IterFac (Nat × (Nat → Src α)) Nat α where
  make s := (.ok s.1, (s.1 + 1, fun i => if i = s.1 then its s.1 else s.2 i))
  next it s :=
    match (s.2 it).next with
    | none => (.ok none, s)
    | some (a, r) => (.ok (some a), (s.1, fun i => if i = it then r else s.2 i))

/-- `lambda: it` for one iterator; the state is what is left of it. -/
def IterFac.shared : IterFac (Src α) Unit α where
  make s := (.ok ⟨⟩, s)
  next _ s :=
    match s.next with
    | none => (.ok none, s)
    | some (a, r) => (.ok (some a), r)

/-- What a user sees of a number of operations. -/
def iterObjOutputs (fuel : Nat) : List (IterObjOp σ H α) → IterObj σ H α × σ →
    List (Except Err (List α))
  | [], _ => []
  | o :: os, s => (o.run fuel s).1 :: iterObjOutputs fuel os (o.run fuel s).2

end Fauxdoc
