import Verif.Model.LiveSeq
import Verif.Spec.Fixed
/-
What a user expects of a `Sequential` whose list is changed in place: a place in the list is kept,
and each value is the one that is at that place at the time.
-/
namespace Fauxdoc
namespace LiveSeq
variable {α : Type}

/-- The list from which values are taken, as it is now. -/
def source (s : St α) : List α := (target s s.factory).now s.lists

/-- Where the next value is in a list of length `m`, for the place `p`: there if the list has one,
or else at the start. -/
def startAt (p m : Nat) : Nat := if p < m then p else 0

/-- The place after `n` values from a list of length `m`. -/
def placeAfter (p m n : Nat) : Nat := if n = 0 then p else (startAt p m + (n - 1)) % m + 1

/-- The place after an operation that gave the result `r`. -/
def place (s : St α) (p : Nat) (o : Op α) (r : Except Err (List α)) : Nat :=
  match r with
  | .error _ => p
  | .ok vs =>
    match o with
    | .call _ => if s.resetAfterCall then 0 else placeAfter p (source s).length vs.length
    | .reset => 0
    | .setFactory _ => 0
    | .setResetAfterCall _ => p
    | .change _ _ => p

/-- Histories, with the place. -/
inductive Run : St α → Nat → Prop
  | init (lists : Nat → List α) (r : Nat) (rac : Bool) (s : St α)
      (h : LiveSeq.init lists r rac = .ok s) : Run s 0
  | op (s : St α) (p : Nat) (o : Op α) (h : Run s p) :
      Run (o.run s).2 (place s p o (o.run s).1)

/-- The operation is not an assignment to `iterator_factory`. -/
def Op.keepsFactory : Op α → Bool
  | .setFactory _ => false
  | _ => true

/-- The operation is not a change of a list. -/
def Op.keepsLists : Op α → Bool
  | .change _ _ => false
  | _ => true

/-- The same operation on a `Sequential` of `Model/Fixed`, for which lists do not change. -/
def Op.toIter (s : St α) : Op α → IterOp α
  | .call n => .call n
  | .reset => .reset
  | .setFactory f => .setFactory ⟨.fin ((target s f).now s.lists), true⟩
  | .setResetAfterCall b => .setResetAfterCall b
  | .change _ _ => .call (some 0)

/-- A history as one of `Model/Fixed`. -/
def toIters (s : St α) : List (Op α) → List (IterOp α)
  | [] => []
  | o :: ops => o.toIter s :: toIters (o.run s).2 ops

/-- The results of a history of `Model/Fixed`. -/
def seqResults (s : SeqSt α) : List (IterOp α) → List (Except Err (List α))
  | [] => []
  | o :: ops => (o.runSeq s).1 :: seqResults (o.runSeq s).2 ops

end LiveSeq
end Fauxdoc
