import Verif.Proofs.Recur
import Verif.Model.Assign
import Verif.Spec.WorldDemo
import Verif.Conform.Basic
import Mathlib.Data.Nat.Fib.Basic
/-
C104: fields that are based on each other, also in circles, are a system of recurrences.
-/
set_option linter.unusedSectionVars false
namespace Fauxdoc
open PyM World
variable {K : Type} [Field K] [LinearOrder K] [FloorRing K] [IsStrictOrderedRing K] {R : Rng K}
variable {str : Val → List Char} {fuel : Nat} {fields : Dict Ref} {eqs : List (Equation R.G)}
  {w w' w1 w2 : World R}

/-- **C104 (document).** A document is made exactly if the equations can be solved, beginning with
the first field; it shows their solution, and nothing but the last values of the fields changes. -/
theorem C104_document (h : Equations fields eqs w) (doc : Dict Val) :
    World.document str (fuel + 2) fields w = (.ok doc, w') ↔
      ∃ x, Follows eqs w.lastValues x ∧ doc = solution eqs (fun r => (w.obj r).hide) x ∧
        w' = w.withValues x := by
  have hk : fields.keys.Nodup := by
    rw [h.fields]
    unfold Dict.keys
    rw [List.map_map]
    exact h.keys
  rw [C49_store str (fuel + 2) hk, h.fields]
  have hr := fun vals t => runs_solves (str := str) (fuel := fuel) h.each h.refs w.lastValues vals t
  rw [withValues_self] at hr
  constructor
  · rintro ⟨vals, h1, rfl⟩
    obtain ⟨x, h2, rfl, rfl⟩ := (hr _ _).1 h1
    exact ⟨x, (solves_iff h.refs _ _).1 h2, visible_solution _ _ _, rfl⟩
  · rintro ⟨x, h1, rfl, rfl⟩
    exact ⟨_, (hr _ _).2 ⟨x, (solves_iff h.refs _ _).2 h1, rfl, rfl⟩, (visible_solution _ _ _).symm⟩

theorem Equations.withValues (h : Equations fields eqs w) (x : Ref → Val) :
    Equations fields eqs (w.withValues x) :=
  ⟨h.fields, h.keys, h.refs, fun q hq => (h.each q hq).withValues x⟩

/-- **C104 (documents).** The documents of a schema, one after the other, are the terms of the
sequence that the equations define, from the last values of the fields on: an equation sees earlier
fields as they are in the same document, and its own field and later ones as they were in the
document before. -/
theorem C104_documents (h : Equations fields eqs w) (docs : List (Dict Val)) :
    Documents str (fuel + 2) fields w docs w' ↔
      ∃ x : Nat → Ref → Val, x 0 = w.lastValues ∧ (∀ i < docs.length, Follows eqs (x i) (x (i + 1))) ∧
        docs = (List.range docs.length).map
          (fun i => solution eqs (fun r => (w.obj r).hide) (x (i + 1))) ∧
        w' = w.withValues (x docs.length) := by
  induction docs generalizing w with
  | nil =>
    constructor
    · intro h'; cases h'
      exact ⟨fun _ => World.lastValues _, rfl, fun i hi => by simp at hi, rfl, rfl⟩
    · rintro ⟨x, h1, -, -, rfl⟩
      change Documents str (fuel + 2) fields w [] (w.withValues (x 0))
      rw [h1, withValues_self]
      exact .nil _
  | cons doc docs ih =>
    constructor
    · intro h'
      cases h' with
      | cons g1 g2 =>
        obtain ⟨y, k1, rfl, rfl⟩ := (C104_document h doc).1 g1
        obtain ⟨x, i1, i2, i3, rfl⟩ := (ih (h.withValues y)).1 g2
        refine ⟨fun i => match i with | 0 => w.lastValues | i + 1 => x i, rfl, ?_, ?_, rfl⟩
        · intro i hi
          cases i with
          | zero =>
            change Follows eqs w.lastValues (x 0)
            rw [i1]; exact k1
          | succ i => exact i2 i (by simp at hi; omega)
        · rw [List.length_cons, List.range_succ_eq_map, List.map_cons, List.map_map]
          congr 1
          · change _ = solution _ _ (x 0)
            rw [i1]; rfl
    · rintro ⟨x, h1, h2, h3, rfl⟩
      rw [List.length_cons, List.range_succ_eq_map, List.map_cons, List.map_map, List.cons.injEq] at h3
      obtain ⟨rfl, h3⟩ := h3
      have g1 := (C104_document (str := str) (fuel := fuel) (w' := w.withValues (x 1)) h _).2
        ⟨x 1, h1 ▸ h2 0 (by simp), rfl, rfl⟩
      refine .cons g1 ((ih (h.withValues (x 1))).2 ⟨fun i => x (i + 1), rfl, fun i hi =>
        h2 (i + 1) (by simp; omega), ?_, rfl⟩)
      exact h3

/-- **C104 (deterministic).** Whatever generators and seeds there are, documents depend on the last
values only. -/
theorem C104_deterministic (h : Equations fields eqs w) (h1 : Equations fields eqs w1)
    (hv : ∀ q ∈ eqs, ∀ s ∈ q.sources, w1.lastValues s.2 = w.lastValues s.2)
    (hh : ∀ q ∈ eqs, (w1.obj q.field).hide = (w.obj q.field).hide) {doc : Dict Val}
    (hd : World.document str (fuel + 2) fields w = (.ok doc, w')) :
    ∃ w2, World.document str (fuel + 2) fields w1 = (.ok doc, w2) ∧
      ∀ q ∈ eqs, w2.lastValues q.field = w'.lastValues q.field := by
  obtain ⟨x, k1, rfl, rfl⟩ := (C104_document h doc).1 hd
  let y : Ref → Val := fun r => if r ∈ eqs.map (·.field) then x r else w1.lastValues r
  have hy : ∀ q ∈ eqs, y q.field = x q.field := fun q hq => if_pos (List.mem_map_of_mem hq)
  refine ⟨w1.withValues y, (C104_document h1 _).2 ⟨y, ⟨?_, fun r hr => if_neg hr⟩, ?_, rfl⟩, hy⟩
  · intro pre q post he
    have hq : q ∈ eqs := by rw [he]; simp
    rw [hy q hq, ← k1.solves pre q post he]
    rw [q.arguments_congr (y := fun g => if g ∈ pre.map (·.field) then x g else w.lastValues g)]
    intro s hs
    by_cases hm : s.2 ∈ pre.map (·.field)
    · rw [if_pos hm, if_pos hm]
      obtain ⟨p, hp, hp'⟩ := List.mem_map.1 hm
      rw [← hp']
      exact hy p (by rw [he]; simp [hp])
    · rw [if_neg hm, if_neg hm]
      exact hv q hq s hs
  · unfold solution
    have e1 : eqs.filter (fun q => !(w1.obj q.field).hide) = eqs.filter (fun q => !(w.obj q.field).hide) :=
      List.filter_congr fun q hq => by rw [hh q hq]
    rw [e1]
    exact (List.map_congr_left fun q hq => by rw [hy q (List.mem_filter.1 hq).1]).symm

/-- **C104 (reset).** After `reset_fields()`, whatever happened before, the sequence of the same
equations begins anew, with `None` as the values before the first document; fields that do not
belong to the schema keep their values. -/
theorem C104_reset (h : Equations fields eqs w)
    (hr : World.resetFields fuel fields w = (.ok (), w1)) :
    Equations fields eqs w1 ∧ (∀ q ∈ eqs, w1.lastValues q.field = .none) ∧
      (∀ f, f ∉ eqs.map (·.field) → (w.obj f).isField = true → w1.lastValues f = w.lastValues f) ∧
      ∀ q ∈ eqs, (w1.obj q.field).hide = (w.obj q.field).hide := by
  have e : fields.map (·.2) = eqs.map (·.field) := by rw [h.fields, List.map_map]; rfl
  rw [resetFields_eq, e] at hr
  obtain ⟨k1, k2, k3⟩ := resets_values h.each h.refs hr
  refine ⟨h.congr k1, k2, fun f hf hfield => ?_, fun q _ => ?_⟩
  · unfold World.lastValues
    rw [k3 f hf hfield]
  · unfold Attrs.hide
    rw [node_of_shape (k1 q.field)]

/-! ### Two sequences -/

/-- `lambda n: 0 if n is None else n + 1`. -/
def countUp {G : Type} : Callback G where
  sig := some [⟨"n", .posOrKw, false⟩]
  run
    | [.none], _ => .ok (.int 0)
    | [.int n], _ => .ok (.int (n + 1))
    | _, _ => .error .typeError
  runRng _ _ := PyM.raise .typeError

/-- **C104 (counter).** A field that is based on itself counts the documents, without end. -/
theorem C104_counter {k nm : String} {f : Ref}
    (h : Equations fields [⟨k, f, [(nm, f)], countUp⟩] w) (hh : (w.obj f).hide = false)
    (h0 : w.lastValues f = .none) (docs : List (Dict Val))
    (hd : Documents str (fuel + 2) fields w docs w') :
    docs = (List.range docs.length).map fun i => [(k, .int i)] := by
  obtain ⟨x, h1, h2, h3, -⟩ := (C104_documents h docs).1 hd
  have key : ∀ i < docs.length, x (i + 1) f = .int i := by
    intro i
    induction i with
    | zero =>
      intro hi
      have := (h2 0 hi).solves [] _ [] rfl
      simp only [Equation.arguments, List.map_nil, List.not_mem_nil, if_false] at this
      rw [h1, h0] at this
      injection this with this
      exact this.symm
    | succ i ih =>
      intro hi
      have := (h2 (i + 1) hi).solves [] _ [] rfl
      simp only [Equation.arguments, List.map_nil, List.not_mem_nil, if_false] at this
      rw [ih (by omega)] at this
      injection this with this
      rw [← this]
      push_cast
      rfl
  rw [h3, List.length_map, List.length_range]
  refine List.map_congr_left fun i hi => ?_
  unfold solution
  simp only [hh, Bool.not_false, List.filter_cons, if_true, List.filter_nil, List.map_cons, List.map_nil]
  rw [key i (List.mem_range.1 hi)]

/-- `lambda c: 0 if c is None else c`. -/
def orZero {G : Type} : Callback G where
  sig := some [⟨"c", .posOrKw, false⟩]
  run
    | [.none], _ => .ok (.int 0)
    | [v], _ => .ok v
    | _, _ => .error .typeError
  runRng _ _ := PyM.raise .typeError

/-- `lambda a, p: 1 if p is None else a + p`. -/
def sumUp {G : Type} : Callback G where
  sig := some [⟨"a", .posOrKw, false⟩, ⟨"p", .posOrKw, false⟩]
  run
    | [], [("a", _), ("p", .none)] => .ok (.int 1)
    | [], [("a", .int a), ("p", .int p)] => .ok (.int (a + p))
    | _, _ => .error .typeError
  runRng _ _ := PyM.raise .typeError

/-- `a` is based on the later field `c`, so on the document before; `c` on `a` and the later field
`p`; `p` on `a` of the same document. -/
def fibEquations {G : Type} (a c p : Ref) : List (Equation G) :=
  [⟨"a", a, [("c", c)], orZero⟩, ⟨"c", c, [("a", a), ("p", p)], sumUp⟩, ⟨"p", p, [("a", a)], orZero⟩]

/-- **C104 (Fibonacci).** These fields, in a circle, give the Fibonacci numbers. -/
theorem C104_fibonacci {a c p : Ref} (h : Equations fields (fibEquations a c p) w)
    (hh : (w.obj a).hide = true ∧ (w.obj c).hide = false ∧ (w.obj p).hide = true)
    (h0 : w.lastValues a = .none ∧ w.lastValues c = .none ∧ w.lastValues p = .none)
    (docs : List (Dict Val)) (hd : Documents str (fuel + 2) fields w docs w') :
    docs = (List.range docs.length).map fun i => [("c", .int (Nat.fib (i + 1) : Nat))] := by
  obtain ⟨x, h1, h2, h3, -⟩ := (C104_documents h docs).1 hd
  have hn := h.refs
  simp only [fibEquations, List.map_cons, List.map_nil, List.nodup_cons, List.mem_cons, List.not_mem_nil,
    or_false, not_or, List.nodup_nil, and_true] at hn
  obtain ⟨⟨hac, hap⟩, hcp, -⟩ := hn
  have step : ∀ i < docs.length,
      (orZero (G := R.G)).invoke [x i c] [] = .ok (x (i + 1) a) ∧
      (sumUp (G := R.G)).invoke [] [("a", x (i + 1) a), ("p", x i p)] = .ok (x (i + 1) c) ∧
      (orZero (G := R.G)).invoke [x (i + 1) a] [] = .ok (x (i + 1) p) := by
    intro i hi
    have s1 := (h2 i hi).solves [] _ _ rfl
    have s2 := (h2 i hi).solves [⟨"a", a, [("c", c)], orZero⟩] _ _ rfl
    have s3 := (h2 i hi).solves [⟨"a", a, [("c", c)], orZero⟩, ⟨"c", c, [("a", a), ("p", p)], sumUp⟩] _ _ rfl
    simp only [Equation.arguments, List.map_nil, List.not_mem_nil, if_false, List.map_cons, List.mem_cons,
      or_false, if_true, true_or, Ne.symm hap] at s1 s2 s3
    exact ⟨s1, s2, s3⟩
  have key : ∀ i < docs.length, x (i + 1) c = .int (Nat.fib (i + 1) : Nat) ∧
      x (i + 1) p = .int (Nat.fib i : Nat) := by
    intro i
    induction i with
    | zero =>
      intro hi
      obtain ⟨s1, s2, s3⟩ := step 0 hi
      rw [h1, h0.2.1] at s1
      injection s1 with s1
      rw [h1, ← s1, h0.2.2] at s2
      rw [← s1] at s3
      injection s2 with s2
      injection s3 with s3
      exact ⟨s2.symm, s3.symm⟩
    | succ i ih =>
      intro hi
      obtain ⟨i1, i2⟩ := ih (by omega)
      obtain ⟨s1, s2, s3⟩ := step (i + 1) hi
      rw [i1] at s1
      injection s1 with s1
      rw [← s1, i2] at s2
      rw [← s1] at s3
      injection s2 with s2
      injection s3 with s3
      refine ⟨?_, s3.symm⟩
      rw [← s2, Nat.fib_add_two]
      push_cast
      rw [add_comm]
  rw [h3, List.length_map, List.length_range]
  refine List.map_congr_left fun i hi => ?_
  unfold solution fibEquations
  simp only [hh.1, hh.2.1, hh.2.2, Bool.not_false, Bool.not_true, List.filter_cons, if_true, List.filter_nil,
    List.map_cons, List.map_nil, Bool.false_eq_true, if_false]
  rw [(key i (List.mem_range.1 hi)).1]

/-! ### Concrete cases -/

/-- A field that is made with another emitter at first:
`f = Field(name, Static(None), hide=hide)`. -/
def recurField (name : String) (hide : Bool) : PyM (World demoRng) Ref := do
  let e ← newStatic .none
  newField 5 name e none none hide none

/-- `BasedOnFields(sources, action)`. -/
def recurBased (sources : List Ref) (single : Bool) (cb : Callback demoRng.G) : PyM (World demoRng) Ref :=
  newBasedOnFields demoStr 5 sources single cb none

def fibSchema : PyM (World demoRng) (Dict Ref) := do
  let a ← recurField "a" true
  let c ← recurField "c" false
  let p ← recurField "p" true
  let ba ← recurBased [c] true orZero
  let bc ← recurBased [a, p] false sumUp
  let bp ← recurBased [a] true orZero
  setEmitter a ba
  setEmitter c bc
  setEmitter p bp
  return [("a", a), ("c", c), ("p", p)]

/-- The schema is built, and makes documents with 1, 1, 2, 3, 5, 8. -/
example : ((do
      let fields ← fibSchema
      let ds ← mapPyM (fun _ => World.document demoStr 5 fields) (List.replicate 6 ())
      return (fields, ds) : PyM (World demoRng) (Dict Ref × List (Dict Val))) emptyWorld).1 = .ok
    ([("a", 3), ("c", 7), ("p", 11)], [1, 1, 2, 3, 5, 8].map fun n : Int => [("c", .int n)]) := by
  decide +kernel

/-- The objects of this schema, written down. -/
def fibWorld : World demoRng where
  obj
    | 1 | 5 | 9 => { blank with node := some .static, static := ⟨.none, [.none]⟩ }
    | 2 | 6 | 10 => { blank with node := some .static, static := ⟨.bool true, [.bool true]⟩ }
    | 3 => { blank with node := some (.field "a" 12 1 2 true) }
    | 7 => { blank with node := some (.field "c" 13 5 6 false) }
    | 11 => { blank with node := some (.field "p" 14 9 10 true) }
    | 12 => { blank with node := some (.basedOn [7] true), wrapper := some orZero }
    | 13 => { blank with node := some (.basedOn [3, 11] false), wrapper := some sumUp }
    | 14 => { blank with node := some (.basedOn [3] true), wrapper := some orZero }
    | _ => blank
  next := 15
  entropy := 0

example : ∀ r ∈ [1, 2, 3, 5, 6, 7, 9, 10, 11, 12, 13, 14],
    ((fibSchema emptyWorld).2.obj r).node = (fibWorld.obj r).node ∧
    ((fibSchema emptyWorld).2.obj r).static = (fibWorld.obj r).static ∧
    ((fibSchema emptyWorld).2.obj r).cache = (fibWorld.obj r).cache := by
  decide +kernel

theorem orZero_plain : ¬ (orZero (G := demoRng.G)).DeclaresRng := by
  rintro ⟨ps, h, p, hp, e⟩
  cases h
  rw [List.mem_singleton] at hp
  subst hp
  exact absurd e (by decide)

theorem sumUp_plain : ¬ (sumUp (G := demoRng.G)).DeclaresRng := by
  rintro ⟨ps, h, p, hp, e⟩
  cases h
  simp only [List.mem_cons, List.not_mem_nil, or_false] at hp
  rcases hp with rfl | rfl <;> exact absurd e (by decide)

/-- The equations of this schema. -/
theorem fib_equations : Equations [("a", 3), ("c", 7), ("p", 11)] (fibEquations 3 7 11) fibWorld where
  fields := rfl
  keys := by decide
  refs := by decide
  each := by
    intro q hq
    simp only [fibEquations, List.mem_cons, List.not_mem_nil, or_false] at hq
    rcases hq with rfl | rfl | rfl
    · exact ⟨⟨"a", 12, 1, 2, true, true, rfl, rfl, rfl, rfl, rfl, rfl, rfl⟩, by decide, orZero_plain,
        by decide, by decide⟩
    · exact ⟨⟨"c", 13, 5, 6, false, false, rfl, rfl, rfl, rfl, rfl, rfl, rfl⟩, by decide, sumUp_plain,
        by decide, by decide⟩
    · exact ⟨⟨"p", 14, 9, 10, true, true, rfl, rfl, rfl, rfl, rfl, rfl, rfl⟩, by decide, orZero_plain,
        by decide, by decide⟩

/-- So the theorem applies, to any number of documents. -/
example (docs : List (Dict Val)) (w' : World demoRng)
    (h : Documents demoStr 5 [("a", 3), ("c", 7), ("p", 11)] fibWorld docs w') :
    docs = (List.range docs.length).map fun i => [("c", .int (Nat.fib (i + 1) : Nat))] :=
  C104_fibonacci fib_equations (by decide) ⟨rfl, rfl, rfl⟩ docs h

/-- Six documents, then `reset_fields()`: the numbers begin anew. -/
example : ((do
      let fields ← fibSchema
      let _ ← mapPyM (fun _ => World.document demoStr 5 fields) (List.replicate 6 ())
      World.resetFields 5 fields
      mapPyM (fun _ => World.document demoStr 5 fields) (List.replicate 4 ()) : PyM (World demoRng) (List (Dict Val)))
      emptyWorld).1 = .ok ([1, 1, 2, 3].map fun n : Int => [("c", .int n)]) := by
  decide +kernel

/-- A field that counts the documents. -/
example : ((do
      let f ← recurField "n" false
      let b ← recurBased [f] true countUp
      setEmitter f b
      mapPyM (fun _ => World.document demoStr 5 [("n", f)]) (List.replicate 4 ()) : PyM (World demoRng) (List (Dict Val)))
      emptyWorld).1 = .ok ([0, 1, 2, 3].map fun n : Int => [("n", .int n)]) := by
  decide +kernel

end Fauxdoc
