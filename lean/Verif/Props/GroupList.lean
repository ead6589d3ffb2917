import Verif.Model.GroupList
/-
Property C72: an `ObjectGroup` is operated on like a list.  It holds for the operations that change
the group in place and for access to single members (`_partial`).  It fails for every operation that
builds a new group: slices, `+`, `*` and `copy()` give a group whose only member is a list (or the
old group), so `do_method` on it does nothing.
-/
namespace Fauxdoc
namespace GroupList
variable {σ ι : Type}

/-- The same operation on a group of the members `ms` made directly, `ObjectGroup(*ms)`: one after
the other, skipping what has no such method.  This is what C58 says about `do_method`. -/
def Visits (run : ι → PyM σ Unit) (is : List ι) : PyM σ Unit :=
  is.foldr (fun i rest => PyM.ignoring .attributeError (run i) >>= fun _ => rest) (pure ())

/-- A group that contains objects only. -/
def objs (is : List ι) : List (Member ι) := is.map .obj

theorem visits (run : ι → PyM σ Unit) (o : List (Member ι) → PyM σ Unit) (is : List ι) :
    doMethod (objs is) run o = Visits run is := by
  induction is with
  | nil => rfl
  | cons i is ih =>
    exact congrArg (fun r => PyM.ignoring .attributeError (run i) >>= fun _ => r) ih

theorem objs_slice (is : List ι) (s : PySlice) :
    pyListSlice (objs is) s = (pyListSlice is s).map objs := by
  unfold pyListSlice objs
  rw [List.length_map]
  cases s.indices is.length with
  | error e => rfl
  | ok r =>
    change Except.ok _ = Except.ok _
    simp only [List.map_filterMap, List.getElem?_map]

theorem insertPos_le (n : Nat) (i : Int) : insertPos n i ≤ n := by
  unfold insertPos
  dsimp only
  repeat' split
  all_goals omega

/-- **C72 (part that holds).** For a group of any objects: `group[i]`, `copy.copy(group)`, and the
operations that change the group itself do what they do on a list, and a later `do_method` visits
the members of that list in order. -/
theorem C72_group_list_partial (run : ι → PyM σ Unit) (o : List (Member ι) → PyM σ Unit)
    (is js : List ι) (n i : Int) (x : ι) :
    getItem (objs is) i = (pyListGet is i).map .obj ∧
    doMethod (copyCopy (objs is)) run o = Visits run is ∧
    doMethod (iadd (objs is) (objs js)) run o = Visits run (is ++ js) ∧
    doMethod (imul (objs is) n) run o = Visits run (List.replicate n.toNat is).flatten ∧
    doMethod (append (objs is) (.obj x)) run o = Visits run (is ++ [x]) ∧
    (∃ front back, is = front ++ back ∧
      (front.length : Int) = (if 0 ≤ i then min i is.length else max 0 (is.length + i)) ∧
      doMethod (insert (objs is) i (.obj x)) run o = Visits run (front ++ x :: back)) ∧
    doMethod (reverse (objs is)) run o = Visits run is.reverse := by
  refine ⟨?_, visits run o is, ?_, ?_, ?_, ?_, ?_⟩
  · unfold getItem pyListGet objs
    rw [List.length_map]
    dsimp only
    generalize (if i < 0 then i + (is.length : Int) else i) = j
    by_cases hj : j < 0
    · rw [if_pos hj, if_pos hj]; rfl
    · rw [if_neg hj, if_neg hj, List.getElem?_map]
      cases is[j.toNat]? <;> rfl
  · rw [← visits run o]; unfold iadd objs; rw [List.map_append]
  · rw [← visits run o]; unfold imul objs; rw [List.map_flatten, List.map_replicate]
  · rw [← visits run o]; unfold append objs; rw [List.map_append]; rfl
  · refine ⟨is.take (insertPos is.length i), is.drop (insertPos is.length i),
      (List.take_append_drop _ _).symm, ?_, ?_⟩
    · rw [List.length_take, Nat.min_eq_left (insertPos_le _ _)]
      unfold insertPos
      dsimp only
      repeat' split
      all_goals omega
    · rw [← visits run o]
      unfold insert objs
      rw [List.length_map]
      simp only [List.map_append, List.map_cons, List.map_take, List.map_drop]
  · rw [← visits run o]; unfold reverse objs; rw [List.map_reverse]

theorem ignoring_noSuch (ms : List (Member ι)) :
    PyM.ignoring .attributeError (noSuchMethod (σ := σ) ms) = pure () := rfl

/-- **C72 is violated (slices).** Every slice of every group is a group with one member, the list.
Unless lists have a method of that name, `do_method` on the slice does nothing at all. -/
theorem C72_slice_violated (g r : List (Member ι)) (s : PySlice) (h : getSlice g s = .ok r)
    (run : ι → PyM σ Unit) : r.length = 1 ∧ doMethod r run noSuchMethod = pure () := by
  unfold getSlice at h
  cases hs : pyListSlice g s with
  | error e => rw [hs] at h; cases h
  | ok l => rw [hs] at h; cases h; exact ⟨rfl, rfl⟩

/-- **C72 is violated (`+`, `*`, `copy()`).** The same for sums, multiples and copies. -/
theorem C72_new_violated (g h : List (Member ι)) (n : Int) (run : ι → PyM σ Unit) :
    ((add g h).length = 1 ∧ (mul g n).length = 1 ∧ (copy g).length = 1) ∧
    doMethod (add g h) run noSuchMethod = pure () ∧
    doMethod (mul g n) run noSuchMethod = pure () ∧
    doMethod (copy g) run noSuchMethod = pure () :=
  ⟨⟨rfl, rfl, rfl⟩, rfl, rfl, rfl⟩

/-- A slice works only if it reaches nobody: for objects whose method changes every state, `do_method`
on a slice of a group does what it does on a group of the sliced objects iff there are none. -/
theorem C72_slice_iff [Inhabited σ] (is l : List ι) (s : PySlice) (r : List (Member ι))
    (hl : pyListSlice is s = .ok l) (hr : getSlice (objs is) s = .ok r)
    (run : ι → PyM σ Unit) (rank : σ → Nat)
    (hrank : ∀ i s, rank s < rank (run i s).2) (hrun : ∀ i s, (run i s).1 = .ok ()) :
    doMethod r run noSuchMethod = Visits run l ↔ l = [] := by
  rw [(C72_slice_violated _ r s hr run).2]
  have mono : ∀ (l : List ι) (s : σ), rank s ≤ rank (Visits run l s).2 := by
    intro l
    induction l with
    | nil => intro s; exact Nat.le_refl _
    | cons i l ih =>
      intro s
      have h1 : Visits run (i :: l) s = Visits run l (run i s).2 := by
        change (PyM.ignoring .attributeError (run i) >>= fun _ => Visits run l) s = _
        have : PyM.ignoring .attributeError (run i) s = (.ok (), (run i s).2) := by
          unfold PyM.ignoring
          rcases hi : run i s with ⟨e | u, s₁⟩
          · have := hrun i s; rw [hi] at this; cases this
          · rfl
        rw [PyM.bind_ok this]
      rw [h1]
      exact Nat.le_trans (Nat.le_of_lt (hrank i s)) (ih _)
  constructor
  · intro h
    cases l with
    | nil => rfl
    | cons i l =>
      exfalso
      have h0 := congrFun h default
      have h1 : Visits run (i :: l) default = Visits run l (run i default).2 := by
        change (PyM.ignoring .attributeError (run i) >>= fun _ => Visits run l) default = _
        have : PyM.ignoring .attributeError (run i) default = (.ok (), (run i default).2) := by
          unfold PyM.ignoring
          rcases hi : run i default with ⟨e | u, s₁⟩
          · have := hrun i default; rw [hi] at this; cases this
          · rfl
        rw [PyM.bind_ok this]
      rw [h1] at h0
      have h2 := mono l (run i default).2
      rw [← h0] at h2
      exact absurd (hrank i default) (Nat.not_lt.2 h2)
  · rintro rfl; rfl

/-- A method that counts its calls. -/
def tick (_ : Nat) : PyM Nat Unit := fun s => (.ok (), s + 1)

/-- A method that records on which object it is called. -/
def note (i : Nat) : PyM (List Nat) Unit := fun s => (.ok (), s ++ [i])

/-- **C72 is violated**: `ObjectGroup(a, b, c)[1:].do_method('reset')` calls nothing, while
`ObjectGroup(b, c).do_method('reset')` calls twice. -/
theorem C72_group_list_violated : ∃ (is l : List Nat) (s : PySlice) (r : List (Member Nat)),
    pyListSlice is s = .ok l ∧ getSlice (objs is) s = .ok r ∧
    doMethod r tick noSuchMethod 0 = (.ok (), 0) ∧
    doMethod (objs l) tick noSuchMethod 0 = (.ok (), 2) :=
  ⟨[10, 11, 12], [11, 12], ⟨some 1, none, none⟩, [.list (objs [11, 12])], rfl, rfl, rfl, rfl⟩

example : doMethod (iadd (objs [1, 2]) (objs [3])) tick noSuchMethod 0 = (.ok (), 3) := rfl
example : doMethod (add (objs [1, 2]) (objs [3])) tick noSuchMethod 0 = (.ok (), 0) := rfl
example : insertPos 3 (-1) = 2 := by decide
example : doMethod (insert (objs [7, 8, 9]) (-1) (.obj 5)) note noSuchMethod [] =
    (.ok (), [7, 8, 5, 9]) := rfl
example : doMethod (insert (objs [7, 8, 9]) 0 (.obj 5)) note noSuchMethod [] =
    (.ok (), [5, 7, 8, 9]) := rfl

end GroupList
end Fauxdoc
