import Verif.Spec.Alias
import Verif.Model.Profile
/-
The two ways to look at lists: as objects (`Model/Alias`) and as values (all other models).  Here the
emitters, fields and documents of one are paired with those of the other.
-/
namespace Fauxdoc.Alias
variable {G : Type}

mutual
/-- The value `v` is the value `x` when lists are taken as values. -/
inductive Shows (m : Mem) : PVal → Val → Prop
  | atom (a : Atom) : Shows m (.atom a) a.toVal
  | list {a : Nat} {l : List Val} (ha : a < m.next) (h : ShowsAll m (m.lists a) l) :
    Shows m (.list a) (.list l)

/-- The same for several values. -/
inductive ShowsAll (m : Mem) : List PVal → List Val → Prop
  | nil : ShowsAll m [] []
  | cons {v : PVal} {x : Val} {vs : List PVal} {xs : List Val} (h : Shows m v x)
    (hs : ShowsAll m vs xs) : ShowsAll m (v :: vs) (x :: xs)
end

/-- What is to be seen of a value to the given depth (compare `read`). -/
def view : Val → View
  | _, 0 => .none
  | .list l, d + 1 => .list (l.map fun x => view x d)
  | x, _ + 1 => x

/-- The state in which lists are values. -/
structure VS (G : Type) where
  cache : Ref → Val
  gen : G

/-- The state of everything but the fields. -/
def VS.genAttr : Attr (VS G) G where
  get σ := σ.gen
  set g σ := { σ with gen := g }
  get_set _ _ := rfl
  set_get _ := rfl
  set_set _ _ _ := rfl

/-- `_cache` of a field. -/
def VS.cacheAttr (f : Ref) : Attr (VS G) Val where
  get σ := σ.cache f
  set v σ := { σ with cache := fun x => if x = f then v else σ.cache x }
  get_set v σ := by simp
  set_get σ := by
    congr 1
    funext x
    by_cases h : x = f
    · simp [h]
    · simp [h]
  set_set v v' σ := by
    congr 1
    funext x
    by_cases h : x = f
    · simp [h]
    · simp [h]

/-- The value of a piece of a result, from the values of the arguments. -/
def Piece.ofVals (args : List Val) : Piece → Val
  | .arg i => args.getD i .none
  | .atom a => a.toVal

/-- The value of a result, from the values of the arguments. -/
def Out.ofVals (args : List Val) : Out → Val
  | .one p => p.ofVals args
  | .list ps => .list (ps.map (Piece.ofVals args))

/-- A callback `def f(*args, rng, **kwargs)` that does the same with values. -/
def byValue (cb : Callback G) : Fauxdoc.Callback G where
  sig := some [⟨"args", .varPos, false⟩, ⟨"rng", .kwOnly, false⟩, ⟨"kwargs", .varKw, false⟩]
  run _ _ := .error .typeError
  runRng args kw := do
    let o ← cb ((args ++ kw.map (·.2)).map view)
    return o.ofVals (args ++ kw.map (·.2))

/-- Names that keyword arguments may have. -/
def OkNames (names : List String) : Prop := names.Nodup ∧ "self" ∉ names ∧ "rng" ∉ names

/-- `one` and `many` do the same with references to lists in `m0` as `one'` and `many'` with values. -/
structure SameLeaf (m0 : Mem) (one : PyM G PVal) (many : Int → PyM G (List PVal)) (one' : PyM G Val)
    (many' : Int → PyM G (List Val)) : Prop where
  state : ∀ g, (one g).2 = (one' g).2
  states : ∀ n g, (many n g).2 = (many' n g).2
  value : ∀ g, match (one g).1, (one' g).1 with
    | .ok v, .ok x => Shows m0 v x
    | .error e, .error e' => e = e'
    | _, _ => False
  values : ∀ n g, match (many n g).1, (many' n g).1 with
    | .ok v, .ok x => ShowsAll m0 v x
    | .error e, .error e' => e = e'
    | _, _ => False

/-- An emitter that handles lists as objects, and the same emitter as the other models have it. -/
inductive Valued (m0 : Mem) : Emitter G → Child (VS G) → Prop
  | leaf {one : PyM G PVal} {many : Int → PyM G (List PVal)} {one' : PyM G Val}
    {many' : Int → PyM G (List Val)} (bad : Val → PyM (VS G) Val)
    (h : SameLeaf m0 one many one' many') :
    Valued m0 (leaf one many)
      (emitterCallOr bad (VS.genAttr.run one') fun n => VS.genAttr.run (many' n))
  | wrapOne {e : Emitter G} {c : Child (VS G)} (cb : Callback G) (h : Valued m0 e c) :
    Valued m0 (wrapOne e cb) (WrapOne.call VS.genAttr c (byValue cb))
  | wrapMany {es : List (String × Emitter G × Child (VS G))} (cb : Callback G)
    (hn : OkNames (es.map (·.1))) (h : ∀ x ∈ es, Valued m0 x.2.1 x.2.2) :
    Valued m0 (wrapMany (es.map (·.2.1)) cb)
      (WrapMany.call VS.genAttr (es.map fun x => (x.1, x.2.2)) (byValue cb))
  | copyFields (str : View → List Char) {source : List Ref} {single : Bool}
    (sep : Option (List Char)) {g : SourceGroup (VS G)}
    (hg : ∀ σ, g.fields.map (·.previous σ) = source.map σ.cache)
    (hs : ∀ σ, g.singleValued σ = single) :
    Valued m0 (copyFields str source single sep) (CopyFields.call (fun x => str (view x)) g sep)
  | basedOnFields {source : List Ref} (cb : Callback G) {g : SourceGroup (VS G)}
    (hg : ∀ σ, g.fields.map (·.previous σ) = source.map σ.cache)
    (hn : OkNames (g.fields.map (·.name))) :
    Valued m0 (basedOnFields source cb) (BasedOnFields.call VS.genAttr g (byValue cb))

/-- The emitters of a field, both ways. -/
structure FieldChildren (G : Type) where
  emitter : Child (VS G)
  rep : Child (VS G)
  gate : Child (VS G)

/-- A field, both ways.  The number of values is `None` or an integer. -/
structure ValuedField (m0 : Mem) (f : FieldObj G) (c : FieldChildren G) : Prop where
  emitter : Valued m0 f.emitter c.emitter
  rep : Valued m0 f.rep c.rep
  gate : Valued m0 f.gate c.gate
  number : ∀ σ v, (c.rep none σ).1 = .ok v → v = .none ∨ v.asInt.isSome = true

/-- `Field.__call__` with lists as values. -/
def callByValue (fc : FieldObj G × FieldChildren G) : PyM (VS G) Val :=
  Field.call (VS.cacheAttr fc.1.ref) fc.2.emitter fc.2.rep fc.2.gate

/-- `Schema.__call__` with lists as values. -/
def documentByValue (fs : List (FieldObj G × FieldChildren G)) : PyM (VS G) (Dict Val) :=
  Schema.call (fun fc => fc.1.hide) callByValue (fs.map fun fc => (fc.1.name, fc))

/-- The state `s` is the state `σ` when lists are taken as values. -/
structure ShowsState (m0 : Mem) (s : State G) (σ : VS G) : Prop where
  mem : Untouched m0 s.mem
  gen : s.gen = σ.gen
  cache : ∀ f, Shows s.mem (s.cache f) (σ.cache f)

end Fauxdoc.Alias
