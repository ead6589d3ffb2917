import Verif.Model.LiveSchema
/-
Schemas that are changed while a document is made.
-/
namespace Fauxdoc
variable {ι σ : Type} [DecidableEq ι]

/-- All maps have each key once and all schemas have maps that exist. -/
structure SchemaHeap.Sound (h : SchemaHeap ι σ) : Prop where
  nodup : ∀ r, (h.map r).keys.Nodup
  exist : ∀ s, h.fields s < h.next

/-- The keys of the map `r` and their order are the same all the time while the things happen. -/
def KeysSteady (r : Nat) (h : SchemaHeap ι σ) : List (SchemaAct ι σ) → Prop
  | [] => True
  | a :: as => ((h.act a).map r).keys = (h.map r).keys ∧ KeysSteady r (h.act a) as

/-- What making a document from the map `r` does, if the fields under the keys `ks` are still to come
and `doc` is what has been made: the fields are called in this order, each one as it is found under its
key when its turn comes, and enter the document unless they are hidden after the call; if there are
fields to come and one of the keys was added, removed or moved during a call, a `RuntimeError` ends it. -/
inductive MakesDoc (run : SchemaHeap.Behaviour ι σ) (r : Nat) :
    List String → Dict Val → SchemaHeap ι σ → Except Err (Dict Val) → SchemaHeap ι σ → Prop
  | done {doc : Dict Val} {h : SchemaHeap ι σ} : MakesDoc run r [] doc h (.ok doc) h
  | fails {k : String} {ks : List String} {doc : Dict Val} {h : SchemaHeap ι σ} {f : ι} {e : Err}
      {as : List (SchemaAct ι σ)} : (h.map r).entries.get? k = some f → run f h = (.error e, as) →
      MakesDoc run r (k :: ks) doc h (.error e) (h.acts as)
  | refused {k k' : String} {ks : List String} {doc : Dict Val} {h : SchemaHeap ι σ} {f : ι} {v : Val}
      {as : List (SchemaAct ι σ)} : (h.map r).entries.get? k = some f → run f h = (.ok v, as) →
      ¬ KeysSteady r h as → MakesDoc run r (k :: k' :: ks) doc h (.error .runtime) (h.acts as)
  | step {k : String} {ks : List String} {doc : Dict Val} {h h' : SchemaHeap ι σ} {f : ι} {v : Val}
      {as : List (SchemaAct ι σ)} {o : Except Err (Dict Val)} : (h.map r).entries.get? k = some f →
      run f h = (.ok v, as) → (ks = [] ∨ KeysSteady r h as) →
      MakesDoc run r ks (if (h.acts as).hide f then doc else doc ++ [(k, v)]) (h.acts as) o h' →
      MakesDoc run r (k :: ks) doc h o h'

end Fauxdoc
