import Verif.Spec.DocSet
import Verif.Spec.Recur
/-
Several fields with the same data emitter.
-/
namespace Fauxdoc
variable {K : Type} [Field K] [LinearOrder K] [FloorRing K] {R : Rng K}

/-- `f` is a field with the data emitter `e`. -/
def World.draws (w : World R) (e f : Ref) : Bool :=
  match (w.obj f).node with
  | some (.field _ e' _ _ _) => decide (e' = e)
  | _ => false

/-- Every field has `e` as its data emitter, and neither its repeat nor its gate has anything to do with
`e`, or it does not use `e` at all. -/
structure Sharers (w : World R) (fields : Dict Ref) (e : Ref) : Prop where
  refs : (fields.map Prod.snd).Nodup
  each : ∀ kf ∈ fields, (∃ n rp g hd, (w.obj kf.2).node = some (.field n e rp g hd) ∧
    ¬ Below w rp e ∧ ¬ Below w g e) ∨ ¬ Below w kf.2 e

/-- Making documents one after the other, with any other use of objects above none of which is `e` in
between.  The list has what came of each document and the values of all fields afterwards
(`previous`). -/
inductive SharedHist (str : Val → List Char) (fields : Dict Ref) (e : Ref) :
    World R → List (Except Err (Dict Val) × (Ref → Val)) → World R → Prop
  | nil (w) : SharedHist str fields e w [] w
  | doc {w : World R} {ds w'} (fuel : Nat)
    (h : SharedHist str fields e (World.document str fuel fields w).2 ds w') :
    SharedHist str fields e w (((World.document str fuel fields w).1,
      (World.document str fuel fields w).2.lastValues) :: ds) w'
  | call {w : World R} {ds w'} (fuel : Nat) (r : Ref) (arg : Option Val) (ha : ArgOK arg)
    (hr : ¬ Below w r e) (h : SharedHist str fields e (World.call str fuel r arg w).2 ds w') :
    SharedHist str fields e w ds w'
  | reset {w : World R} {ds w'} (fuel : Nat) (r : Ref) (hr : ¬ Below w r e)
    (h : SharedHist str fields e (World.reset fuel r w).2 ds w') : SharedHist str fields e w ds w'
  | seed {w : World R} {ds w'} (fuel : Nat) (r : Ref) (s : Option Int) (hr : ¬ Below w r e)
    (h : SharedHist str fields e (World.seed fuel r s w).2 ds w') : SharedHist str fields e w ds w'

/-- A document and what it took from the shared emitter: if it could be made, each of the fields shows
its part. -/
def ShowsEach (users : Dict Ref) (hide : Ref → Bool) (d : Except Err (Dict Val) × (Ref → Val))
    (bs : List (List Val)) : Prop :=
  ∀ doc, d.1 = .ok doc → List.Forall₂ (fun (kf : String × Ref) b => Block (d.2 kf.2) b ∧
    (hide kf.2 = false → doc.get? kf.1 = some (d.2 kf.2))) users bs

/-- All single values that these fields have in documents that were made: document by document, in a
document field by field. -/
def madeBy (users : Dict Ref) (ds : List (Except Err (Dict Val) × (Ref → Val))) : List Val :=
  ds.flatMap fun d => match d.1 with
    | .ok _ => users.flatMap fun kf => (d.2 kf.2).parts
    | .error _ => []

/-- Every document could be made. -/
def NoneFailed (ds : List (Except Err (Dict Val) × (Ref → Val))) : Prop := ∀ d ∈ ds, ∃ doc, d.1 = .ok doc

/-- What holds of the documents when the shared emitter goes through `src` from the `k`-th item. -/
def RoundRobin (src : Src Val) (k : Nat) (users : Dict Ref) (hide : Ref → Bool)
    (ds : List (Except Err (Dict Val) × (Ref → Val))) : Prop :=
  (∃ bss, List.Forall₂ (ShowsEach users hide) ds bss ∧ IsCyclicFrom src k bss.flatten.flatten) ∧
  (NoneFailed ds → (∀ d ∈ ds, ∀ kf ∈ users, (d.2 kf.2).Plain) →
    ∀ (j : Nat) (hj : j < ds.length) (i : Nat) (hi : i < users.length),
      some (ds[j].2 users[i].2) = src.cycle (k + (j * users.length + i)) ∧
      (hide users[i].2 = false → ∃ doc, ds[j].1 = .ok doc ∧
        doc.get? users[i].1 = src.cycle (k + (j * users.length + i))))

end Fauxdoc
