import Verif.Spec.Batch
/-
Other orders of the fields of a schema (`Apart`, in `Spec/Batch`: neither looks at anything a call of
the other can change).
-/
namespace Fauxdoc
variable {K : Type} [Field K] [LinearOrder K] [FloorRing K] {R : Rng K}

/-- Two outcomes of a schema: documents with the same entries, in whatever order. -/
def SameEntries (a b : Except Err (Dict Val)) : Prop := ∃ d d', a = .ok d ∧ b = .ok d' ∧ d.Perm d'

/-- The second list has the same fields as the first, and of any two fields that are not apart the
same one comes first. -/
structure Rearranged (w : World R) (l l' : Dict Ref) : Prop where
  perm : l.Perm l'
  order : ∀ a b, ¬ Apart w a.2 b.2 → [a, b].Sublist l → [a, b].Sublist l'

end Fauxdoc
