import Verif.Proofs.Batch4
/-
C82: values do not depend on how calls are batched.
-/
set_option linter.unusedSectionVars false
namespace Fauxdoc
open PyM World
variable {K : Type} [Field K] [LinearOrder K] [FloorRing K] [IsStrictOrderedRing K] {R : Rng K}
variable {V : Ref → Val → Prop} {str : Val → List Char}

namespace World

theorem inBatches_iff {w0 : World R} {r : Ref} (h : Batchable V w0 r) (fuel : Nat) (n : Nat)
    (ns : List Nat) (w : World R) (hw : Like w0 w) (ht : AllTyped V w) (l : List Val) (w' : World R) :
    call str fuel r (some (.int (n :: ns).sum)) w = (.ok (.list l), w') ↔
      ∃ ls, InBatches (call str fuel r) (n :: ns) w ls w' ∧ l = ls.flatten := by
  induction ns generalizing n w l with
  | nil =>
    rw [List.sum_singleton]
    constructor
    · intro hc
      exact ⟨[l], .cons hc (.nil _), by simp⟩
    · rintro ⟨ls, hb, rfl⟩
      cases hb with
      | cons h1 h2 =>
        cases h2
        simpa using h1
  | cons m ns ih =>
    rw [List.sum_cons, splits str h fuel w hw ht n (m :: ns).sum l w']
    constructor
    · rintro ⟨la, lb, w1, h1, h2, rfl⟩
      obtain ⟨ls, h3, rfl⟩ := (ih m w1 (like_call str hw h1) (many_ok str ht h1).2 lb).1 h2
      exact ⟨la :: ls, .cons h1 h3, rfl⟩
    · rintro ⟨ls, hb, rfl⟩
      cases hb with
      | @cons _ _ _ w1 _ la ls h1 h2 =>
        exact ⟨la, ls.flatten, w1, h1,
          (ih m w1 (like_call str hw h1) (many_ok str ht h1).2 _).2 ⟨ls, h2, rfl⟩, rfl⟩

theorem ones_iff {w0 : World R} {r : Ref} (h : Batchable V w0 r) (fuel : Nat) :
    ∀ (n : Nat) (w : World R), Like w0 w → ∀ (l : List Val) (w' : World R),
    ((∃ ls, InBatches (call str fuel r) (List.replicate n 1) w ls w' ∧ l = ls.flatten) ↔
      l.length = n ∧ OneByOne (call str fuel r) w l w') := by
  intro n
  induction n with
  | zero =>
    intro w _ l w'
    constructor
    · rintro ⟨ls, hb, rfl⟩
      cases hb
      exact ⟨rfl, .nil _⟩
    · rintro ⟨hl, ho⟩
      obtain rfl := List.length_eq_zero_iff.1 hl
      cases ho
      exact ⟨[], .nil _, rfl⟩
  | succ n ih =>
    intro w hw l w'
    have h1 : call str fuel r (some (.int (1 : Nat))) w = asOne (call str fuel r none w) :=
      call_one str fuel (hw.not_field h)
    rw [List.replicate_succ]
    constructor
    · rintro ⟨ls, hb, rfl⟩
      cases hb with
      | @cons _ _ _ w1 _ la ls hc hs =>
        have hw1 := like_call str hw hc
        rw [h1, asOne_eq] at hc
        obtain ⟨u, hc, e⟩ := hc
        cases e
        obtain ⟨h2, h3⟩ := (ih w1 hw1 ls.flatten w').1 ⟨ls, hs, rfl⟩
        exact ⟨by simp [h2], .cons hc h3⟩
    · rintro ⟨hl, ho⟩
      cases ho with
      | nil => cases hl
      | @cons _ w1 _ v l hc hs =>
        have hw1 := like_call str hw hc
        obtain ⟨ls, h2, rfl⟩ := (ih w1 hw1 l w').2 ⟨by simpa using hl, hs⟩
        refine ⟨[v] :: ls, .cons ?_ h2, rfl⟩
        rw [h1, hc]; rfl

end World

/-! ### The theorems -/

/-- **C82 (batches, partial).** In every reachable state, calling a batchable emitter for
`n₁ + … + nₖ` values succeeds exactly if calling it for `n₁`, then `n₂`, …, then `nₖ` values does; the
values are the same, in the same order, and so is the state of all objects afterwards.

Missing from the full statement: emitters that are not `Batchable` (the theorems `C82_…_violated` below
show that they are different). -/
theorem C82_batches_partial {w : World R} (hb : Built V str w) {r : Ref} (h : Batchable V w r)
    (fuel : Nat) (ns : List Nat) (hns : ns ≠ []) (l : List Val) (w' : World R) :
    World.call str fuel r (some (.int ns.sum)) w = (.ok (.list l), w') ↔
      ∃ ls, InBatches (World.call str fuel r) ns w ls w' ∧ l = ls.flatten := by
  cases ns with
  | nil => exact absurd rfl hns
  | cons n ns => exact inBatches_iff h fuel n ns w (.refl w) (built_typed hb) l w'

/-- **C82 (one by one, partial).** Calling a batchable emitter for `n` values is the same as calling it
`n` times for a single value. -/
theorem C82_one_by_one_partial {w : World R} (hb : Built V str w) {r : Ref} (h : Batchable V w r)
    (fuel : Nat) (n : Nat) (hn : 1 ≤ n) (l : List Val) (w' : World R) :
    World.call str fuel r (some (.int n)) w = (.ok (.list l), w') ↔
      l.length = n ∧ OneByOne (World.call str fuel r) w l w' := by
  have := C82_batches_partial (str := str) hb h fuel (List.replicate n 1)
    (fun e => by have := congrArg List.length e; simp at this; omega) l w'
  rw [show (List.replicate n 1).sum = n by simp] at this
  rw [this, ones_iff h fuel n w (.refl w)]

/-- **C82 (any two ways, partial).** Two ways of asking for the same number of values return the same
values and lead to the same state. -/
theorem C82_any_two_partial {w : World R} (hb : Built V str w) {r : Ref} (h : Batchable V w r)
    (fuel : Nat) (ns ms : List Nat) (hns : ns ≠ []) (hms : ms ≠ []) (hsum : ns.sum = ms.sum)
    (ls : List (List Val)) (w' : World R) (hl : InBatches (World.call str fuel r) ns w ls w') :
    ∃ ks, InBatches (World.call str fuel r) ms w ks w' ∧ ks.flatten = ls.flatten := by
  have h1 := (C82_batches_partial (str := str) hb h fuel ns hns ls.flatten w').2 ⟨ls, hl, rfl⟩
  rw [hsum] at h1
  obtain ⟨ks, h2, h3⟩ := (C82_batches_partial (str := str) hb h fuel ms hms _ w').1 h1
  exact ⟨ks, h2, h3.symm⟩

/-! ### What is not batchable -/

/-- The values emitted by `n` calls for one value. -/
def singles (r : Ref) : Nat → PyM (World demoRng) (List Val)
  | 0 => pure []
  | n + 1 => do
    let v ← World.call demoStr 5 r none
    let vs ← singles r n
    return v :: vs

/-- `Choice(['a', 'b', 'c'])`: unweighted, with replacement. -/
def plainChoice : World demoRng :=
  (World.newChoice .list [.str ['a'], .str ['b'], .str ['c']] none true false (some 1) none emptyWorld).2

/-- **C82 (violated).** An unweighted `Choice` with replacement draws a single value with
`random.choice` and several values with `random.choices`; the values are different. -/
theorem C82_unweighted_violated :
    (World.call demoStr 5 0 (some (.int 3)) plainChoice).1 =
      .ok (.list [.str ['c'], .str ['b'], .str ['a']]) ∧
    (singles 0 3 plainChoice).1 = .ok [.str ['b'], .str ['c'], .str ['a']] := by decide +kernel

/-- `Choice(['a', 'b'], replace_only_after_call=True)`. -/
def roacChoice : World demoRng :=
  (World.newChoice .list [.str ['a'], .str ['b']] none false true (some 1) none emptyWorld).2

/-- **C82 (violated).** With `replace_only_after_call`, values are unique per call. -/
theorem C82_roac_violated :
    (World.call demoStr 5 0 (some (.int 3)) roacChoice).1 = .error .valueError ∧
    (singles 0 3 roacChoice).1 = .ok [.str ['b'], .str ['a'], .str ['b']] := by decide +kernel

/-- `Sequential([1, 2], reset_after_call=True)`. -/
def restarting : World demoRng := (World.newSequential .list [.int 1, .int 2] true emptyWorld).2

/-- **C82 (violated).** With `reset_after_call`, every call begins with the first item. -/
theorem C82_reset_after_call_violated :
    (World.call demoStr 5 0 (some (.int 2)) restarting).1 = .ok (.list [.int 1, .int 2]) ∧
    (singles 0 2 restarting).1 = .ok [.int 1, .int 1] := by decide +kernel

/-- `lambda v, rng: rng.getrandbits(…)`. -/
def drawing : Callback Nat where
  sig := some [⟨"v", .posOrKw, false⟩, ⟨"rng", .posOrKw, false⟩]
  run _ _ := .error .typeError
  runRng _ _ := fun g => (.ok (.int g), g + 1)

/-- A field and a `BasedOnFields` whose action draws random numbers. -/
def drawingWorld : World demoRng := ((do
  let e ← World.newStatic (.int 7)
  let n ← World.newStatic .none
  let g ← World.newStatic (.bool true)
  let f ← World.newField 5 "f" e (some n) (some g) false none
  let _ ← World.newBasedOnFields demoStr 5 [f] true drawing (some 9)
  let _ ← World.call demoStr 5 f none
  return ()) emptyWorld).2

/-- **C82 (violated).** A `BasedOnFields` evaluates its action once per call, so that all values of a
batch are the same even if the action draws random numbers. -/
theorem C82_action_violated :
    (World.call demoStr 5 4 (some (.int 2)) drawingWorld).1 = .ok (.list [.int 9, .int 9]) ∧
    (singles 4 2 drawingWorld).1 = .ok [.int 9, .int 10] := by decide +kernel

/-! ### Example: a program of batchable emitters -/

/-- Declared values: counts, words, a separator, texts, and anything. -/
def batchV (r : Ref) (v : Val) : Prop :=
  match r with
  | 0 => ∃ k : Nat, 1 ≤ k ∧ v = .int k
  | 1 | 2 | 3 => ∃ s, v = .str s
  | _ => True

/-- `lambda t, k, rng: [t, k, rng.getrandbits(…)]`. -/
def tagged : Callback Nat where
  sig := some [⟨"t", .posOrKw, false⟩, ⟨"k", .posOrKw, false⟩, ⟨"rng", .posOrKw, false⟩]
  run _ _ := .error .typeError
  runRng _ kwargs := fun g => (.ok (.list (kwargs.map Prod.snd ++ [.int g])), g + 1)

/-- `n = Sequential([2, 1])`. -/
def batch1 : World demoRng := (World.newSequential .list [.int 2, .int 1] false emptyWorld).2
/-- `c = Choice(['a', 'b'], weights=[1, 2])`. -/
def batch2 : World demoRng :=
  (World.newChoice .list [.str ['a'], .str ['b']] (some [1, 2]) true false (some 1) none batch1).2
/-- `sep = Static(' ')`. -/
def batch3 : World demoRng := (World.newStatic (.str [' ']) batch2).2
/-- `t = Text(n, c, sep, rng_seed=5)`. -/
def batch4 : World demoRng := (World.newText 5 0 1 (some 2) (some 5) batch3).2
/-- `k = Choice([1, 2, 3], replace=False)`. -/
def batch5 : World demoRng :=
  (World.newChoice .list [.int 1, .int 2, .int 3] none false false (some 4) none batch4).2
/-- `m = WrapMany({'t': t, 'k': k}, lambda t, k, rng: [t, k, rng.getrandbits(…)])`. -/
def batch6 : World demoRng :=
  (World.newWrapMany demoStr 6 [("t", 3), ("k", 4)] tagged (some 7) batch5).2

theorem batch_built : Built batchV demoStr batch6 := by
  have h1 : Built batchV demoStr batch1 := .newSequential (.empty emptyWorld fun _ => rfl) _ _ _ (by
    intro x hx
    rw [show emptyWorld.next = 0 from rfl]
    simp only [List.mem_cons, List.not_mem_nil, or_false] at hx
    rcases hx with rfl | rfl
    · exact ⟨2, by decide, rfl⟩
    · exact ⟨1, by decide, rfl⟩)
  have h2 : Built batchV demoStr batch2 := .newChoice h1 _ _ _ _ _ _ _ (by
    intro _ x hx
    rw [show batch1.next = 1 by decide +kernel]
    simp only [List.mem_cons, List.not_mem_nil, or_false] at hx
    rcases hx with rfl | rfl <;> exact ⟨_, rfl⟩)
  have h3 : Built batchV demoStr batch3 := .newStatic h2 _ (by
    rw [show batch2.next = 2 by decide +kernel]; exact ⟨_, rfl⟩)
  have h4 : Built batchV demoStr batch4 := .newText h3 _ _ _ _ _ (by
    rintro v ⟨k, hk, rfl⟩ i hi
    cases hi
    exact_mod_cast hk) (by
    intro x _
    rw [show batch3.next = 3 by decide +kernel]; exact ⟨_, rfl⟩)
  have h5 : Built batchV demoStr batch5 := .newChoice h4 _ _ _ _ _ _ _ (by
    intro _ x hx
    rw [show batch4.next = 4 by decide +kernel]
    exact trivial)
  exact .newWrapMany h5 _ _ _ _ (by
    intro d _
    rw [show batch5.next = 5 by decide +kernel]
    exact ⟨fun _ _ => trivial, fun _ _ _ => trivial⟩)

theorem batch_needs {r x : Ref} (h : Needs batch6 r x) (S : List Ref) (hr : r ∈ S)
    (hS : ∀ y ∈ S, ∀ c ∈ (batch6.obj y).children ++ (batch6.obj y).sources, c ∈ S) : x ∈ S := by
  induction h with
  | self => exact hr
  | child hc _ ih => exact ih (hS _ hr _ (List.mem_append.2 (.inl hc)))
  | source hg _ ih => exact ih (hS _ hr _ (List.mem_append.2 (.inr hg)))

theorem batch_apart (a b : Ref) (S T : List Ref) (ha : a ∈ S) (hb : b ∈ T)
    (hS : ∀ y ∈ S, ∀ c ∈ (batch6.obj y).children ++ (batch6.obj y).sources, c ∈ S)
    (hT : ∀ y ∈ T, ∀ c ∈ (batch6.obj y).children ++ (batch6.obj y).sources, c ∈ T)
    (hST : ∀ x ∈ S, x ∉ T) : Apart batch6 a b :=
  ⟨fun _ h1 h2 => hST _ (batch_needs h1 S ha hS) (batch_needs h2.needs T hb hT),
    fun _ h1 h2 => hST _ (batch_needs h2.needs S ha hS) (batch_needs h1 T hb hT)⟩

/-- The conditions of the theorems are met by all emitters of this program, ... -/
theorem batch_batchable : Batchable batchV batch6 3 ∧ Batchable batchV batch6 5 := by
  have hs : Batchable batchV batch6 0 := .sequential (k := .list) (by decide +kernel) (by decide +kernel)
  have hc : Batchable batchV batch6 1 := .choice (k := .list) (by decide +kernel)
    ⟨by decide +kernel, .inr (.inl (by decide +kernel))⟩
  have hp : Batchable batchV batch6 2 := .static (by decide +kernel)
  have ht : Batchable batchV batch6 3 := .text (n := 0) (wd := 1) (s := 2) (by decide +kernel) hs hc hp
    (batch_apart 0 1 [0] [1] (by decide) (by decide) (by decide +kernel) (by decide +kernel) (by decide))
    (batch_apart 0 2 [0] [2] (by decide) (by decide) (by decide +kernel) (by decide +kernel) (by decide))
    (batch_apart 1 2 [1] [2] (by decide) (by decide) (by decide +kernel) (by decide +kernel) (by decide))
    (fun v hv => hv) (fun v hv => hv) (fun v hv => hv)
  have hk : Batchable batchV batch6 4 := .choice (k := .list) (by decide +kernel)
    ⟨by decide +kernel, .inl (by decide +kernel)⟩
  refine ⟨ht, .wrapMany (ss := [("t", 3), ("k", 4)]) (by decide +kernel) (by decide) ?_ ?_ ?_⟩
  · intro ks hks
    simp only [List.mem_cons, List.not_mem_nil, or_false] at hks
    rcases hks with rfl | rfl
    · exact ht
    · exact hk
  · intro ks hks h
    simp only [List.mem_cons, List.not_mem_nil, or_false] at hks
    rcases hks with rfl | rfl
    · exact absurd (batch_needs h [0, 1, 2, 3] (by decide) (by decide +kernel)) (by decide)
    · exact absurd (batch_needs h [4] (by decide) (by decide +kernel)) (by decide)
  · rw [List.pairwise_pair]
    exact batch_apart 3 4 [0, 1, 2, 3] [4] (by decide) (by decide) (by decide +kernel) (by decide +kernel)
      (by decide)

/-- ... which return values, the same for every way of asking for them. -/
example : (World.call demoStr 6 5 (some (.int 3)) batch6).1 = .ok (.list
      [.list [.str ['b', ' ', 'b'], .int 1, .int 7], .list [.str ['a'], .int 2, .int 8],
        .list [.str ['b', ' ', 'a'], .int 3, .int 9]]) := by decide +kernel
example (l : List Val) (w' : World demoRng)
    (h : World.call demoStr 6 5 (some (.int 3)) batch6 = (.ok (.list l), w')) :
    OneByOne (World.call demoStr 6 5) batch6 l w' ∧
    ∃ ls, InBatches (World.call demoStr 6 5) [2, 0, 1] batch6 ls w' ∧ l = ls.flatten :=
  ⟨((C82_one_by_one_partial batch_built batch_batchable.2 6 3 (by decide) l w').1 h).2,
    (C82_batches_partial batch_built batch_batchable.2 6 [2, 0, 1] (by decide) l w').1 h⟩

end Fauxdoc
