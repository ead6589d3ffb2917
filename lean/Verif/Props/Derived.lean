import Verif.Proofs.Derived
import Verif.Spec.WorldDemo
/-
C100: fields derived from a hidden field (the last example of README.md, lines 188-281).
-/
set_option linter.unusedSectionVars false
namespace Fauxdoc
open PyM World
variable {K : Type} [Field K] [LinearOrder K] [FloorRing K] [IsStrictOrderedRing K] {R : Rng K}
variable {str : Val → List Char} {fuel : Nat} {name : String} {f : Factory Val} {kind : ItemsKind}
  {counts : List Nat} {weights : Option (List K)} {acts : List (String × Callback R.G)}
  {fields : Dict Ref} {w w1 w2 w3 : World R} {docs : List (Dict Val)}

theorem Ready.numbered {src : Src Val} {k : Nat} (hn : fields.keys.Nodup)
    (h : Ready name kind src counts acts fields k w1) (hd : Documents str fuel fields w1 docs w2) :
    Numbered src counts acts k docs ∧
      ∃ k', Ready name kind src counts acts fields k' w2 := by
  induction hd generalizing k with
  | nil => exact ⟨.nil _, _, h⟩
  | cons h1 _ ih =>
    obtain ⟨items, g1, g2, g3, g4⟩ := h.document hn h1
    obtain ⟨i1, i2⟩ := ih g4
    exact ⟨.cons g1 g2 g3 i1, i2⟩

/-- **C100 (documents).** The documents go through the items one after another, without gaps, each
takes one of the numbers of items that are possible, and all derived fields of a document show the
same items. They do not begin with the first item, though: as many batches of items as there are
derived fields are missing. -/
theorem C100_documents_partial (h : itemSchema str fuel name f kind counts weights acts w = (.ok fields, w1))
    (hn : fields.keys.Nodup) :
    ∃ missing : List Nat, missing.length = acts.length ∧ (∀ n ∈ missing, n ∈ counts) ∧
      ∀ docs w2, Documents str fuel fields w1 docs w2 → Numbered f.src counts acts missing.sum docs := by
  obtain ⟨ns, h1, h2, h3⟩ := itemSchema_ready h
  exact ⟨ns, h1, h2, fun docs w2 hd => (h3.numbered hn hd).1⟩

/-- **C100 (reset).** After `reset_fields()`, whatever documents have been made before, they begin with
the first item. -/
theorem C100_reset (h : itemSchema str fuel name f kind counts weights acts w = (.ok fields, w1))
    (hn : fields.keys.Nodup) {before : List (Dict Val)} (hb : Documents str fuel fields w1 before w2)
    (hr : World.resetFields fuel fields w2 = (.ok (), w3)) :
    ∀ docs w4, Documents str fuel fields w3 docs w4 → Numbered f.src counts acts 0 docs := by
  obtain ⟨ns, h1, h2, h3⟩ := itemSchema_ready h
  obtain ⟨-, k, hk⟩ := h3.numbered hn hb
  exact fun docs w4 hd => ((hk.reset hr).numbered hn hd).1

/-- **C100 (items shown).** A field whose action returns the items shows, in all documents together,
consecutive items. -/
theorem C100_consecutive {G : Type} {acts : List (String × Callback G)} {src : Src Val} {k j : Nat}
    (h : Numbered src counts acts k docs) {nm : String} {cb : Callback G} (hj : acts[j]? = some (nm, cb))
    (hc : ∀ l v, cb.Gives [.list l] v → v = .list l) :
    ∃ ls : List (List Val), docs.map (·[j]?) = ls.map (fun l => some (nm, .list l)) ∧
      (∀ l ∈ ls, l.length ∈ counts) ∧ IsCyclicFrom src k ls.flatten := by
  induction h with
  | nil => exact ⟨[], rfl, by simp, fun i hi => by cases hi⟩
  | @cons k items doc docs g1 g2 g3 _ ih =>
    obtain ⟨ls, e1, e2, e3⟩ := ih
    refine ⟨items :: ls, ?_, ?_, ?_⟩
    · rw [List.map_cons, List.map_cons, e1]
      congr 1
      obtain ⟨hlt, hj'⟩ := List.getElem?_eq_some_iff.1 hj
      have hlen := g3.length_eq
      have := (List.forall₂_iff_get.1 g3).2 j hlt (hlen ▸ hlt)
      rw [List.get_eq_getElem, List.get_eq_getElem, hj'] at this
      rw [List.getElem?_eq_getElem (hlen ▸ hlt)]
      exact congrArg some (Prod.ext this.1 (hc _ _ this.2))
    · intro l hl
      rcases List.mem_cons.1 hl with rfl | hl
      · exact g1
      · exact e2 l hl
    · rw [List.flatten_cons]
      exact g2.append e3

/-- **C100 (first items).** If every document has at least one item, the first document after
construction begins with an item whose position is at least the number of derived fields: the first
item is never seen. -/
theorem C100_first (h : itemSchema str fuel name f kind counts weights acts w = (.ok fields, w1))
    (hn : fields.keys.Nodup) (hp : ∀ n ∈ counts, 0 < n) {doc : Dict Val}
    (hd : World.document str fuel fields w1 = (.ok doc, w2)) :
    ∃ k, acts.length ≤ k ∧ ∃ v items, f.src.cycle k = some v ∧ ShowsItems acts (v :: items) doc := by
  obtain ⟨ns, h1, h2, h3⟩ := itemSchema_ready h
  have hsum : ns.length ≤ ns.sum := by
    clear h1 h3
    induction ns with
    | nil => simp
    | cons n ns ih =>
      have := hp n (h2 n (by simp))
      have := ih fun m hm => h2 m (List.mem_cons_of_mem _ hm)
      simp only [List.length_cons, List.sum_cons]
      omega
  obtain ⟨items, g1, g2, g3, -⟩ := h3.document hn hd
  cases items with
  | nil => exact absurd (hp _ g1) (by simp)
  | cons v items =>
    refine ⟨_, h1 ▸ hsum, v, items, ?_, g3⟩
    have := g2 0 (by simp)
    simpa using this.symm

/-! ### The schema of README.md, with the numbers of the items in place of the items -/

/-- A function of the items (`lambda items: ...`). -/
def ofItems (body : List Val → Val) : Callback demoRng.G where
  sig := some [⟨"items", .posOrKw, false⟩]
  run
    | [.list l], [] => .ok (body l)
    | _, _ => .error .typeError
  runRng _ _ := PyM.raise .typeError

/-- `item_data_generator`. -/
def numbers : Factory Val := ⟨.inf fun k => .int (k + 1), false⟩

def readmeActions : List (String × Callback demoRng.G) :=
  [("display_items", ofItems fun l => .list (l.take 3)),
   ("more_items", ofItems fun l => if l.length > 3 then .list (l.drop 3) else .none),
   ("has_more_items", ofItems fun l => .bool (l.length > 3)),
   ("item_ids", ofItems .list)]

def readmeSchema : PyM (World demoRng) (Dict Ref) :=
  itemSchema demoStr 5 "__all_items" numbers .other [1, 2, 3, 4, 5] none readmeActions

def readmeFields : Dict Ref := [("__all_items", 3), ("display_items", 7), ("more_items", 11),
  ("has_more_items", 15), ("item_ids", 19)]

/-- The documents, as they come out: they begin with item 14, and with item 1 after
`reset_fields()`. -/
def readmeShown1 : Dict Val := [("display_items", .list [.int 14, .int 15]), ("more_items", .none),
  ("has_more_items", .bool false), ("item_ids", .list [.int 14, .int 15])]
def readmeShown2 : Dict Val := [("display_items", .list [.int 16, .int 17, .int 18]),
  ("more_items", .none), ("has_more_items", .bool false),
  ("item_ids", .list [.int 16, .int 17, .int 18])]
def readmeShown3 : Dict Val := [("display_items", .list [.int 1]), ("more_items", .none),
  ("has_more_items", .bool false), ("item_ids", .list [.int 1])]

theorem ok_of_fst {α : Type} {p : Except Err α × World R} {a : α} (h : p.1 = .ok a) :
    ∃ w, p = (.ok a, w) := ⟨p.2, Prod.ext h rfl⟩

/-- A program: build the schema, make two documents, reset the fields, make another one. -/
def readmeProgram : PyM (World demoRng) (Dict Ref × List (Dict Val)) := do
  let fields ← readmeSchema
  let d1 ← World.document demoStr 5 fields
  let d2 ← World.document demoStr 5 fields
  World.resetFields 5 fields
  let d3 ← World.document demoStr 5 fields
  return (fields, [d1, d2, d3])

theorem readme_result :
    (readmeProgram emptyWorld).1 = .ok (readmeFields, [readmeShown1, readmeShown2, readmeShown3]) := by
  decide +kernel

theorem readme_run : ∃ w1 w2 w3 w4 w5 : World demoRng,
    readmeSchema emptyWorld = (.ok readmeFields, w1) ∧
    World.document demoStr 5 readmeFields w1 = (.ok readmeShown1, w2) ∧
    World.document demoStr 5 readmeFields w2 = (.ok readmeShown2, w3) ∧
    World.resetFields 5 readmeFields w3 = (.ok (), w4) ∧
    World.document demoStr 5 readmeFields w4 = (.ok readmeShown3, w5) := by
  have h : ∃ w, readmeProgram emptyWorld =
      (.ok (readmeFields, [readmeShown1, readmeShown2, readmeShown3]), w) :=
    ok_of_fst readme_result
  obtain ⟨w, h⟩ := h
  unfold readmeProgram at h
  obtain ⟨fs, w1, h1, h⟩ := PyM.bind_eq_ok h
  obtain ⟨d1, w2, h2, h⟩ := PyM.bind_eq_ok h
  obtain ⟨d2, w3, h3, h⟩ := PyM.bind_eq_ok h
  obtain ⟨u, w4, h4, h⟩ := PyM.bind_eq_ok h
  obtain ⟨d3, w5, h5, h⟩ := PyM.bind_eq_ok h
  rw [PyM.pure_apply, Prod.mk.injEq, Except.ok.injEq, Prod.mk.injEq, List.cons.injEq, List.cons.injEq,
    List.cons.injEq] at h
  obtain ⟨⟨rfl, rfl, rfl, rfl, -⟩, -⟩ := h
  exact ⟨w1, w2, w3, w4, w5, h1, h2, h3, h4, h5⟩

theorem ofItems_list {l : List Val} {v : Val} (h : (ofItems .list).Gives [.list l] v) : v = .list l := by
  have := h.1 (by
    rintro ⟨ps, h, p, hp, e⟩
    cases h
    rw [List.mem_singleton] at hp
    subst hp
    exact absurd e (by decide))
  cases this
  rfl

/-- **C100 (violated).** The documents of the schema of README.md do not begin with the first item. -/
theorem C100_violated : ∃ (w1 w2 : World demoRng) (docs : List (Dict Val)),
    readmeSchema emptyWorld = (.ok readmeFields, w1) ∧ Documents demoStr 5 readmeFields w1 docs w2 ∧
      ¬ Numbered numbers.src [1, 2, 3, 4, 5] readmeActions 0 docs := by
  obtain ⟨w1, w2, w3, w4, w5, h1, h2, -⟩ := readme_run
  refine ⟨w1, w2, [readmeShown1], h1, .cons h2 (.nil _), fun h => ?_⟩
  obtain ⟨ls, g1, -, g3⟩ := C100_consecutive h (j := 3) (nm := "item_ids") (cb := ofItems .list) rfl
    (fun l v => ofItems_list)
  rcases ls with _ | ⟨l, ls⟩
  · cases g1
  · rw [List.map_cons, List.map_cons] at g1
    have g2 : some (("item_ids", Val.list [.int 14, .int 15]) : String × Val) =
      some ("item_ids", .list l) := (List.cons.inj g1).1
    simp only [Option.some.injEq, Prod.mk.injEq, Val.list.injEq, true_and] at g2
    subst g2
    have := g3 0 (by simp)
    simp [numbers, Src.cycle] at this

/-- The theorems apply to it. -/
example : ∃ missing : List Nat, missing.length = 4 ∧
    Numbered numbers.src [1, 2, 3, 4, 5] readmeActions missing.sum [readmeShown1, readmeShown2] := by
  obtain ⟨w1, w2, w3, w4, w5, h1, h2, h3, -⟩ := readme_run
  obtain ⟨ns, g1, -, g3⟩ := C100_documents_partial h1 (by decide)
  exact ⟨ns, g1, g3 _ _ (.cons h2 (.cons h3 (.nil _)))⟩

example : Numbered numbers.src [1, 2, 3, 4, 5] readmeActions 0 [readmeShown3] := by
  obtain ⟨w1, w2, w3, w4, w5, h1, h2, h3, h4, h5⟩ := readme_run
  exact C100_reset h1 (by decide) (.cons h2 (.cons h3 (.nil _))) h4 _ _ (.cons h5 (.nil _))

example : ∃ k, 4 ≤ k ∧ ∃ v items, numbers.src.cycle k = some v ∧
    ShowsItems readmeActions (v :: items) readmeShown1 := by
  obtain ⟨w1, w2, w3, w4, w5, h1, h2, -⟩ := readme_run
  exact C100_first h1 (by decide) (by decide) h2

end Fauxdoc
