import Verif.Spec.PySet
import Verif.Props.Choice
import Verif.Spec.WorldDemo
/-
C109: what counts as unique is Python's equality.
-/
set_option linter.unusedSectionVars false
namespace Fauxdoc
open PyM Choice
section
variable {α : Type} [PyEq α] [LawfulPyEq α]

theorem mk_eq_iff {x y : α} : (Quotient.mk (pySetoid α) x = Quotient.mk (pySetoid α) y) ↔
    PyEq.same x y = true := by
  rw [Quotient.eq]
  rfl

theorem pyDistinct_iff {l : List α} :
    PyDistinct l ↔ (l.map (Quotient.mk (pySetoid α))).Nodup := by
  unfold PyDistinct List.Nodup
  rw [List.pairwise_map]
  refine List.Pairwise.iff fun {x y} => ?_
  rw [ne_eq, mk_eq_iff, Bool.not_eq_true]

theorem pySetAdd_ok {s : List α} {x : α} {h : Int} (hx : PyEq.hash x = some h) :
    pySetAdd s x = .ok (if ∃ y ∈ s, PyEq.same y x = true then s else s ++ [x]) := by
  unfold pySetAdd
  rw [hx]
  have : (s.any fun y => decide (PyEq.hash y = some h) && PyEq.same y x) = true ↔
      ∃ y ∈ s, PyEq.same y x = true := by
    rw [List.any_eq_true]
    constructor
    · rintro ⟨y, hy, hs⟩
      simp only [Bool.and_eq_true] at hs
      exact ⟨y, hy, hs.2⟩
    · rintro ⟨y, hy, hs⟩
      refine ⟨y, hy, ?_⟩
      simp [LawfulPyEq.hash hs, hx, hs]
  simp only [this]

theorem pySet_fold (l s : List α) (hl : ∀ x ∈ l, (PyEq.hash x).isSome) (hs : PyDistinct s) :
    ∃ t, l.foldlM pySetAdd s = .ok t ∧ PyDistinct t ∧
      (∀ c, c ∈ t.map (Quotient.mk (pySetoid α)) ↔
        c ∈ (s ++ l).map (Quotient.mk (pySetoid α))) := by
  induction l generalizing s with
  | nil => exact ⟨s, rfl, hs, by simp⟩
  | cons x l ih =>
    obtain ⟨h, hx⟩ := Option.isSome_iff_exists.1 (hl x List.mem_cons_self)
    rw [List.foldlM_cons, pySetAdd_ok hx]
    have hl' : ∀ y ∈ l, (PyEq.hash y).isSome := fun y hy => hl y (List.mem_cons_of_mem _ hy)
    by_cases he : ∃ y ∈ s, PyEq.same y x = true
    · rw [if_pos he]
      obtain ⟨t, h1, h2, h3⟩ := ih s hl' hs
      refine ⟨t, h1, h2, fun c => ?_⟩
      rw [h3]
      obtain ⟨y, hy, hyx⟩ := he
      simp only [List.map_append, List.mem_append, List.map_cons, List.mem_cons]
      constructor
      · rintro (h | h)
        · exact .inl h
        · exact .inr (.inr h)
      · rintro (h | rfl | h)
        · exact .inl h
        · exact .inl (by rw [← mk_eq_iff.2 hyx]; exact List.mem_map_of_mem hy)
        · exact .inr h
    · rw [if_neg he]
      have hd : PyDistinct (s ++ [x]) := by
        refine List.pairwise_append.2 ⟨hs, List.pairwise_singleton _ _, fun y hy z hz => ?_⟩
        rw [List.mem_singleton.1 hz]
        exact Bool.eq_false_iff.2 fun hyx => he ⟨y, hy, hyx⟩
      obtain ⟨t, h1, h2, h3⟩ := ih (s ++ [x]) hl' hd
      refine ⟨t, h1, h2, fun c => ?_⟩
      rw [h3]
      simp

theorem pySet_unhashable (l s : List α) (hl : ∃ x ∈ l, PyEq.hash x = none) :
    l.foldlM pySetAdd s = .error .typeError := by
  induction l generalizing s with
  | nil => obtain ⟨x, hx, _⟩ := hl; cases hx
  | cons y l ih =>
    rw [List.foldlM_cons]
    unfold pySetAdd
    cases hy : PyEq.hash y with
    | none => rfl
    | some h =>
      obtain ⟨x, hx, hn⟩ := hl
      rcases List.mem_cons.1 hx with rfl | hx
      · rw [hy] at hn; cases hn
      · exact ih _ ⟨x, hx, hn⟩

/-- **C109 (the count).** `len(set(l))` is the number of values that are different in the sense of
`==`, and a `TypeError` exactly if one of them has no hash. -/
theorem C109_len_set (l : List α) : pySetLen l =
    if ∀ x ∈ l, (PyEq.hash x).isSome then .ok (pyDifferent l) else .error .typeError := by
  unfold pySetLen pySet
  split_ifs with hl
  · obtain ⟨t, h1, h2, h3⟩ := pySet_fold l [] hl List.Pairwise.nil
    rw [h1]
    have h4 : t.length = pyDifferent l := by
      classical
      unfold pyDifferent
      rw [← List.length_map (Quotient.mk (pySetoid α)), ← List.toFinset_card_of_nodup (pyDistinct_iff.1 h2)]
      congr 1
      · ext c
        rw [List.mem_toFinset, List.mem_toFinset, h3, List.nil_append]
    rw [← h4]
    rfl
  · push Not at hl
    obtain ⟨x, hx, hn⟩ := hl
    rw [pySet_unhashable l [] ⟨x, hx, by simpa using hn⟩]
    rfl

theorem pyDifferent_congr {l m : List α} (h : ∀ x, x ∈ l ↔ x ∈ m) : pyDifferent l = pyDifferent m := by
  classical
  unfold pyDifferent
  congr 1
  ext c
  simp only [List.mem_toFinset, List.mem_map, h]

theorem pyDifferent_perm {l m : List α} (h : l.Perm m) : pyDifferent l = pyDifferent m :=
  pyDifferent_congr fun _ => h.mem_iff

theorem PyDistinct.subperm {l m : List α} (h : PyDistinct l) (hm : m.Subperm l) : PyDistinct m := by
  obtain ⟨t, ht, hs⟩ := hm
  have h1 : PyDistinct t := List.Pairwise.sublist hs h
  rw [pyDistinct_iff] at h1 ⊢
  exact ((ht.map _).nodup_iff).1 h1

theorem pyDifferent_eq_length {l : List α} : pyDifferent l = l.length ↔ PyDistinct l := by
  classical
  rw [pyDistinct_iff]
  unfold pyDifferent
  rw [← List.length_map (as := l) (Quotient.mk (pySetoid α)), List.card_toFinset]
  constructor
  · intro h
    rw [← List.dedup_eq_self]
    exact (List.dedup_sublist _).eq_of_length h
  · intro h
    rw [h.dedup]
end

/-- **C109 (structural equality).** Where equal values are the same value, this is the count of
`Model/Choice`, so that everything proved about that one holds. -/
theorem C109_structural {α : Type} [PyEq α] [DecidableEq α] [PyHash α]
    (hs : ∀ x y : α, PyEq.same x y = true ↔ x = y)
    (hh : ∀ x : α, PyHash.hashable x = (PyEq.hash x).isSome) (l : List α) :
    pySetLen l = pyLenSet l := by
  have : LawfulPyEq α := ⟨fun x => (hs x x).2 rfl, fun h => (hs _ _).2 ((hs _ _).1 h).symm,
    fun h h' => (hs _ _).2 (((hs _ _).1 h).trans ((hs _ _).1 h')), fun h => by rw [(hs _ _).1 h]⟩
  rw [C109_len_set, pyLenSet]
  have h1 : allHashable l = true ↔ ∀ x ∈ l, (PyEq.hash x).isSome = true := by
    rw [allHashable_iff]
    simp only [hh]
  have h2 : pyDifferent l = l.dedup.length := by
    rw [pyDifferent_congr (m := l.dedup) fun x => List.mem_dedup.symm, pyDifferent_eq_length]
    refine (List.nodup_dedup l).imp fun {x y} hxy => ?_
    exact Bool.eq_false_iff.2 fun h => hxy ((hs x y).1 h)
  simp only [h1, h2]

variable {K : Type} [Field K] [LinearOrder K] [FloorRing K] {α : Type} [PyHash α] {R : Rng K}
variable [PyEq α] [LawfulPyEq α]

/-- **C109 (without replacement).** Whatever is still to come (`rest`): `num_unique_values` is the
number of different values in it, and `emits_unique_values` says whether no two of them are equal. -/
theorem C109_without_replacement {items : List α} {s : ChoiceSt α R × Nat} {E : List α}
    (h : ChoiceRun R items s E) (hr : s.1.replace = false) (rest : List α)
    (hrest : (E ++ rest).Perm items) (hh : ∀ v ∈ rest, (PyEq.hash v).isSome) :
    pyNumUniqueValues s = (.ok (pyDifferent rest), s) ∧
    ∃ b, pyEmitsUniqueValues s = (.ok b, s) ∧ (b = true ↔ PyDistinct rest) := by
  obtain ⟨hp, hle, hE, hi, hn⟩ := (run_good h).norepl hr
  have hlen : E.length + rest.length = items.length := by
    rw [← hrest.length_eq, List.length_append]
  have hperm := rest_perm h hr hrest
  have h1 : Choice.numUniqueItems s = (.ok (rest.length : Int), s) := by
    unfold Choice.numUniqueItems
    simp only [self_bind]
    change (Except.ok s.1.numUniqueItems, s) = _
    rw [hn]; congr 2; omega
  have h2 : pyNumUniqueValues s = (.ok (pyDifferent rest), s) := by
    unfold pyNumUniqueValues
    simp only [self_bind]
    rw [if_pos (by simp [hr]), shuffledIndex_bind, hi]
    simp only
    rw [pyListSlice1_toEnd _ _ (by rw [hp.length_eq]; exact hle), C109_len_set,
      if_pos fun x hx => hh x (hperm.mem_iff.1 hx), pyDifferent_perm hperm]
    rfl
  refine ⟨h2, decide ((rest.length : Int) = (pyDifferent rest : Nat)), ?_, ?_⟩
  · unfold pyEmitsUniqueValues
    simp only [self_bind]
    rw [if_pos (by simp [hr]), PyM.bind_ok h1, PyM.bind_ok h2]
    rfl
  · rw [decide_eq_true_iff, ← pyDifferent_eq_length]
    omega

/-- **C109 (unhashable values).** -/
theorem C109_unhashable {items : List α} {s : ChoiceSt α R × Nat} {E : List α}
    (h : ChoiceRun R items s E) (hr : s.1.replace = false) (rest : List α)
    (hrest : (E ++ rest).Perm items) (hh : ∃ v ∈ rest, PyEq.hash v = none) :
    pyNumUniqueValues s = (.error .typeError, s) ∧ pyEmitsUniqueValues s = (.error .typeError, s) := by
  obtain ⟨hp, hle, hE, hi, hn⟩ := (run_good h).norepl hr
  have h2 : pyNumUniqueValues s = (.error .typeError, s) := by
    unfold pyNumUniqueValues
    simp only [self_bind]
    rw [if_pos (by simp [hr]), shuffledIndex_bind, hi]
    simp only
    rw [pyListSlice1_toEnd _ _ (by rw [hp.length_eq]; exact hle), C109_len_set, if_neg]
    · rfl
    · intro ha
      obtain ⟨v, hv, hf⟩ := hh
      have := ha v ((rest_perm h hr hrest).mem_iff.2 hv)
      rw [hf] at this; cases this
  refine ⟨h2, ?_⟩
  unfold pyEmitsUniqueValues
  simp only [self_bind]
  rw [if_pos (by simp [hr]), PyM.bind_ok (rfl : Choice.numUniqueItems s = _), PyM.bind_err h2]

/-- **C109 (the promise).** When `emits_unique_values` has been true, no two of the values emitted from
then on until the next shuffle are equal. -/
theorem C109_promise {items : List α} {s s' : ChoiceSt α R × Nat} {E F : List α}
    (h : ChoiceRun R items s E) (hr : s.1.replace = false)
    (hu : (pyEmitsUniqueValues s).1 = .ok true) (h' : ChoiceRun R items s' (E ++ F))
    (hr' : s'.1.replace = false) : PyDistinct F := by
  obtain ⟨hp, hle, hE, -, -⟩ := (run_good h).norepl hr
  obtain ⟨hp', -, hE', -, -⟩ := (run_good h').norepl hr'
  have hrest : (E ++ s.1.shuffled.drop E.length).Perm items := by
    have : E ++ s.1.shuffled.drop E.length = s.1.shuffled := by
      conv_lhs => rw [hE]
      rw [List.length_take, min_eq_left (by rw [hp.length_eq]; exact hle)]
      exact List.take_append_drop _ _
    rw [this]; exact hp
  have hsub : F.Subperm (s.1.shuffled.drop E.length) := by
    rw [← List.subperm_append_left E]
    refine List.Subperm.trans ?_ hrest.symm.subperm
    rw [hE']
    exact (List.take_sublist _ _).subperm.trans hp'.subperm
  by_cases hh : ∀ v ∈ s.1.shuffled.drop E.length, (PyEq.hash v).isSome
  · obtain ⟨-, b, h1, h2⟩ := C109_without_replacement h hr _ hrest hh
    rw [h1] at hu
    exact (h2.1 (Except.ok.inj hu)).subperm hsub
  · push Not at hh
    obtain ⟨v, hv, hn⟩ := hh
    rw [(C109_unhashable h hr _ hrest ⟨v, hv, by simpa using hn⟩).2] at hu
    cases hu

/-- **C109 (with replacement).** -/
theorem C109_with_replacement {items : List α} {s : ChoiceSt α R × Nat} (h : ChoiceReach R items s)
    (hr : s.1.replace = true) :
    pyNumUniqueValues s = (if ∀ v ∈ items, (PyEq.hash v).isSome then .ok (pyDifferent items)
      else .error .typeError, s) ∧ pyEmitsUniqueValues s = (.ok false, s) := by
  have hwf := reach_wf h
  refine ⟨?_, ?_⟩
  · unfold pyNumUniqueValues
    simp only [self_bind]
    rw [if_neg (by simp [hr]), hwf.items_eq, C109_len_set]
    rfl
  · unfold pyEmitsUniqueValues
    simp only [self_bind]
    rw [if_neg (by simp [hr])]
    rfl

/-! ### Values of built-in types -/

mutual
/-- All numbers written as floats. -/
def PyConst.norm : PyConst → PyConst
  | .bool b => .float (if b then 1 else 0)
  | .int i => .float i
  | .tuple l => .tuple (PyConst.normAll l)
  | .list l => .list (PyConst.normAll l)
  | x => x
def PyConst.normAll : List PyConst → List PyConst
  | [] => []
  | x :: xs => PyConst.norm x :: PyConst.normAll xs
end

mutual
theorem PyConst.same_iff : ∀ x y : PyConst, PyConst.same x y = true ↔ x.norm = y.norm
  | .tuple l, y => by
    cases y <;> simp [PyConst.same, PyConst.norm, PyConst.number, PyConst.sameAll_iff l]
  | .list l, y => by
    cases y <;> simp [PyConst.same, PyConst.norm, PyConst.number, PyConst.sameAll_iff l]
  | .none, y => by cases y <;> simp [PyConst.same, PyConst.norm, PyConst.number]
  | .bool b, y => by cases y <;> simp [PyConst.same, PyConst.norm, PyConst.number]
  | .int b, y => by cases y <;> simp [PyConst.same, PyConst.norm, PyConst.number]
  | .float b, y => by cases y <;> simp [PyConst.same, PyConst.norm, PyConst.number]
  | .nan b, y => by cases y <;> simp [PyConst.same, PyConst.norm, PyConst.number]
  | .str b, y => by cases y <;> simp [PyConst.same, PyConst.norm, PyConst.number]
theorem PyConst.sameAll_iff : ∀ l m : List PyConst,
    PyConst.sameAll l m = true ↔ PyConst.normAll l = PyConst.normAll m
  | [], m => by cases m <;> simp [PyConst.sameAll, PyConst.normAll]
  | x :: l, m => by
    cases m with
    | nil => simp [PyConst.sameAll, PyConst.normAll]
    | cons y m => simp [PyConst.sameAll, PyConst.normAll, PyConst.same_iff x y, PyConst.sameAll_iff l m]
end

mutual
theorem PyConst.hash_norm (H : Hashes) : ∀ x : PyConst, PyConst.hash H x.norm = PyConst.hash H x
  | .tuple l => by simp [PyConst.norm, PyConst.hash, PyConst.hashAll_norm H l]
  | .list l => by simp [PyConst.norm, PyConst.hash]
  | .none => rfl
  | .bool b => by simp [PyConst.norm, PyConst.hash]
  | .int b => by simp [PyConst.norm, PyConst.hash]
  | .float b => rfl
  | .nan b => rfl
  | .str b => rfl
theorem PyConst.hashAll_norm (H : Hashes) : ∀ l : List PyConst,
    PyConst.hashAll H (PyConst.normAll l) = PyConst.hashAll H l
  | [] => rfl
  | x :: l => by simp [PyConst.normAll, PyConst.hashAll, PyConst.hash_norm H x, PyConst.hashAll_norm H l]
end

/-- **C109 (built-in values).** Values of built-in types keep to the conventions, whatever the hash
functions. -/
theorem C109_builtin (H : Hashes) : @LawfulPyEq PyConst (PyConst.eq H) :=
  @LawfulPyEq.mk _ (PyConst.eq H) (fun x => (PyConst.same_iff x x).2 rfl)
    (fun h => (PyConst.same_iff _ _).2 ((PyConst.same_iff _ _).1 h).symm)
    (fun h h' => (PyConst.same_iff _ _).2
      (((PyConst.same_iff _ _).1 h).trans ((PyConst.same_iff _ _).1 h')))
    fun {x y} h => by
      change PyConst.hash H x = PyConst.hash H y
      rw [← PyConst.hash_norm H x, (PyConst.same_iff _ _).1 h, PyConst.hash_norm H y]

/-! ### Values that do not keep to the conventions -/

/-- Objects with `__eq__` but a hash by identity: `(value, identity)`. -/
@[reducible] def identityHash : PyEq (Int × Int) := ⟨fun x => some x.2, fun x y => x.1 == y.1⟩

/-- **C109 (violated for inconsistent hashes).** Two equal objects are counted as two values, so
`emits_unique_values` is true although equal values are emitted. -/
theorem C109_hash_violated : @pySetLen _ identityHash [(7, 0), (7, 1)] = .ok 2 ∧
    @PyEq.same _ identityHash (7, 0) (7, 1) = true := by decide

/-- Numbers that are equal if they differ by at most one, with one hash for all. -/
@[reducible] def nearlyEqual : PyEq Int := ⟨fun _ => some 0, fun x y => decide (|x - y| ≤ 1)⟩

/-- **C109 (violated for equality that is not transitive).** The count depends on the order, and so on
the shuffle. -/
theorem C109_order_violated : @pySetLen _ nearlyEqual [1, 2, 3] = .ok 2 ∧
    @pySetLen _ nearlyEqual [2, 1, 3] = .ok 1 := by decide

/-! ### Examples -/

/-- Some hash functions. -/
def demoHashes : Hashes := ⟨0, fun q => q.num, fun i => i, fun s => s.length, fun l => l.sum⟩

instance : PyEq PyConst := PyConst.eq demoHashes
instance : LawfulPyEq PyConst := C109_builtin demoHashes
instance : PyHash PyConst := ⟨fun x => (PyConst.hash demoHashes x).isSome⟩

/-- `set([1, True, 1.0, 'a', nan, nan, float('nan'), (1,), (1.0,)])` has 5 entries. -/
example : pySetLen [.int 1, .bool true, .float 1, .str ['a'], .nan 0, .nan 0, .nan 1,
    .tuple [.int 1], PyConst.tuple [.float 1]] = .ok 5 := by decide +kernel
def mixedItems : List PyConst := [.int 1, .bool true, .int 2]

/-- The state of `Choice([1, True, 2], replace=False, rng_seed=1)`. -/
def mixedState : ChoiceSt PyConst demoRng :=
  match (Choice.init mixedItems none false false (some 1) none 0 :
      Except Err (ChoiceSt PyConst demoRng) × Nat).1 with
  | .ok st => st
  | .error _ => ⟨[], none, none, false, false, [], none, 0, none, (0 : Nat)⟩

theorem mixedState_run : ChoiceRun demoRng mixedItems (mixedState, 0) [] := by
  have h1 : (Choice.init (R := demoRng) mixedItems none false false (some 1) none 0).1.isOk = true := by
    decide +kernel
  have h2 : (Choice.init (R := demoRng) mixedItems none false false (some 1) none 0).2 = 0 := by
    decide +kernel
  refine .init none false false (some 1) none 0 0 _ (Prod.ext ?_ h2)
  unfold mixedState
  rcases hi : (Choice.init (R := demoRng) mixedItems none false false (some 1) none 0).1 with x | st
  · rw [hi] at h1; cases h1
  · rfl

/-- Two different values among three items, so they are not unique. -/
example : (pyNumUniqueValues (mixedState, 0)).1 = .ok 2 ∧ (pyEmitsUniqueValues (mixedState, 0)).1 = .ok false := by
  decide +kernel
/-- After one of the equal ones is gone, what is left is unique. -/
example : ((ChoiceOp.call (some 2) : ChoiceOp ℚ).run (mixedState, 0)).1.isOk = true ∧
    (pyEmitsUniqueValues ((ChoiceOp.call (some 2) : ChoiceOp ℚ).run (mixedState, 0)).2).1 = .ok true := by
  decide +kernel
/-- Lists cannot be counted. -/
example : pySetLen [PyConst.list []] = .error .typeError := by decide +kernel

end Fauxdoc
