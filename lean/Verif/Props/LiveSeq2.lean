import Verif.Props.LiveSeq
/-
Properties C95 (a list that is not changed) and C96: `iterator_factory` of a `Sequential` saved and
assigned again.
-/
namespace Fauxdoc
namespace LiveSeq
open PyM
variable {α : Type}

/-- What is left of the iterator in use. -/
def rest (s : St α) : List α :=
  match s.cur with
  | none => []
  | some (h, i) => (h.now s.lists).drop i

/-- The state of `Model/Fixed` that a state stands for as long as no list is changed. -/
def frozen (s : St α) : SeqSt α :=
  ⟨itemsNow s, ⟨⟨.fin (source s), true⟩, s.resetAfterCall, .fin (rest s)⟩⟩

theorem nextItem_frozen (s : St α) :
    Iterative.nextItem (frozen s).it = ((nextItem s).1, (frozen (nextItem s).2).it) := by
  have hround : ∀ s : St α, rest s = [] →
      Iterative.nextItem (frozen s).it = ((nextRound s).1, (frozen (nextRound s).2).it) := by
    intro s hr
    unfold Iterative.nextItem frozen
    dsimp only
    rw [hr]
    unfold nextRound source
    dsimp only [Src.next]
    cases hl : (target s s.factory).now s.lists with
    | nil => dsimp only [Src.next]; rw [hr, hl]
    | cons a l =>
      dsimp only [Src.next]
      rw [target_cur, hl]
      simp only [rest, hl, List.drop_succ_cons, List.drop_zero]
  unfold nextItem
  cases hc : s.cur with
  | none => exact hround s (by unfold rest; rw [hc])
  | some hi =>
    obtain ⟨h, i⟩ := hi
    dsimp only
    have hrest : rest s = (h.now s.lists).drop i := by unfold rest; rw [hc]
    cases hg : (h.now s.lists)[i]? with
    | none =>
      refine hround s ?_
      rw [hrest]
      exact List.drop_eq_nil_of_le (List.getElem?_eq_none_iff.mp hg)
    | some a =>
      obtain ⟨hlt, ha⟩ := List.getElem?_eq_some_iff.mp hg
      have hd : rest s = a :: (h.now s.lists).drop (i + 1) := by
        rw [hrest, List.drop_eq_getElem_cons hlt, ha]
      unfold Iterative.nextItem frozen
      dsimp only
      rw [hd]
      dsimp only [Src.next]
      rw [source_cur]
      rfl

theorem takeItems_frozen (n : Nat) (s : St α) :
    Iterative.takeItems n (frozen s).it = ((takeItems n s).1, (frozen (takeItems n s).2).it) := by
  induction n generalizing s with
  | zero => rfl
  | succ n ih =>
    have h := nextItem_frozen s
    unfold Iterative.takeItems takeItems
    generalize hq : nextItem s = q at h
    obtain ⟨e | a, s1⟩ := q
    · rw [PyM.bind_err hq, PyM.bind_err h]
    · rw [PyM.bind_ok hq, PyM.bind_ok h]
      have h2 := ih s1
      dsimp only
      generalize hq2 : takeItems n s1 = q2 at h2
      obtain ⟨e | as, s2⟩ := q2
      · rw [PyM.bind_err hq2, PyM.bind_err h2]
      · rw [PyM.bind_ok hq2, PyM.bind_ok h2]; rfl

theorem afterCall_frozen (s : St α) :
    Iterative.afterCall (frozen s).it = ((afterCall s).1, (frozen (afterCall s).2).it) := by
  obtain ⟨l, i, f, rac, c⟩ := s
  cases rac
  · rfl
  · cases f <;> rfl

theorem call_frozen (n : Option Int) (s : St α) :
    Iterative.call n (frozen s).it = ((call n s).1, (frozen (call n s).2).it) := by
  have hemit : Iterative.emit (frozen s).it = ((emit s).1, (frozen (emit s).2).it) := by
    unfold Iterative.emit emit
    have h := nextItem_frozen s
    generalize hq : nextItem s = q at h
    obtain ⟨e | a, s1⟩ := q
    · rw [PyM.bind_err hq, PyM.bind_err h]
    · rw [PyM.bind_ok hq, PyM.bind_ok h]
      have h2 := afterCall_frozen s1
      dsimp only
      generalize hq2 : afterCall s1 = q2 at h2
      obtain ⟨e | as, s2⟩ := q2
      · rw [PyM.bind_err hq2, PyM.bind_err h2]
      · rw [PyM.bind_ok hq2, PyM.bind_ok h2]; rfl
  have one : (do return [← Iterative.emit] : PyM (IterSt α) (List α)) (frozen s).it =
      (((do return [← emit] : PyM (St α) (List α)) s).1,
        (frozen ((do return [← emit] : PyM (St α) (List α)) s).2).it) := by
    generalize hq : emit s = q at hemit
    obtain ⟨e | a, s1⟩ := q
    · rw [PyM.bind_err hq, PyM.bind_err hemit]
    · rw [PyM.bind_ok hq, PyM.bind_ok hemit]; rfl
  cases n with
  | none => exact one
  | some n =>
    unfold Iterative.call call
    by_cases h1 : n = 1
    · subst h1; exact one
    · simp only [h1, if_false]
      unfold Iterative.emitMany emitMany
      by_cases hn : n < 0
      · rw [if_pos hn, if_pos hn]; rfl
      · rw [if_neg hn, if_neg hn]
        have h := takeItems_frozen n.toNat s
        generalize hq : takeItems n.toNat s = q at h
        obtain ⟨e | as, s1⟩ := q
        · rw [PyM.bind_err hq, PyM.bind_err h]
        · rw [PyM.bind_ok hq, PyM.bind_ok h]
          have h2 := afterCall_frozen s1
          dsimp only
          generalize hq2 : afterCall s1 = q2 at h2
          obtain ⟨e | as, s2⟩ := q2
          · rw [PyM.bind_err hq2, PyM.bind_err h2]
          · rw [PyM.bind_ok hq2, PyM.bind_ok h2]; rfl

/-- One operation other than a change of a list. -/
theorem run_frozen (o : Op α) (s : St α) (ho : o.keepsLists) :
    (o.toIter s).runSeq (frozen s) = ((o.run s).1, frozen (o.run s).2) := by
  cases o with
  | change r l => cases ho
  | call n =>
    change Sequential.onIt (Iterative.call n) (frozen s) = _
    unfold Sequential.onIt
    rw [call_frozen]
    obtain ⟨r, c, h⟩ := call_keeps s n
    change _ = ((call n s).1, frozen (call n s).2)
    rw [h]
    rfl
  | reset =>
    change (_, _) = (_, _)
    refine Prod.ext rfl ?_
    change (⟨_, ⟨⟨.fin (source s), true⟩, _, _⟩⟩ : SeqSt α) = frozen { s with cur := none }
    unfold frozen
    rw [source_cur]; rfl
  | setResetAfterCall b =>
    refine Prod.ext rfl ?_
    change (⟨_, ⟨⟨.fin (source s), true⟩, _, _⟩⟩ : SeqSt α) = frozen { s with resetAfterCall := b }
    unfold frozen
    rw [show source { s with resetAfterCall := b } = source s by
      unfold source; cases hf : s.factory <;> rfl]
    rfl
  | setFactory f =>
    rw [setFactory_run]
    change (Sequential.setFactory ⟨.fin ((target s f).now s.lists), true⟩ >>= fun _ => pure [])
      (frozen s) = _
    cases hl : (target s f).now s.lists with
    | nil => rfl
    | cons a l =>
      rw [if_neg (by simp)]
      refine Prod.ext rfl ?_
      change (⟨a :: l, ⟨⟨.fin (a :: l), true⟩, s.resetAfterCall, .fin []⟩⟩ : SeqSt α) = frozen _
      unfold frozen
      dsimp only
      have hs : source { s with items := Held.tuple (a :: l), factory := f, cur := none } =
          a :: l := by
        unfold source
        cases f with
        | own => rfl
        | ext r => exact hl
      rw [hs]; rfl

/-- **C95 (a list that is not changed).** Then the results of every history are those that
`Model/Fixed` gives for it, where sequences are immutable. -/
theorem C95_unchanged (s : St α) (ops : List (Op α)) (hk : ∀ o ∈ ops, o.keepsLists) :
    results s ops = seqResults (frozen s) (toIters s ops) := by
  induction ops generalizing s with
  | nil => rfl
  | cons o ops ih =>
    unfold results toIters seqResults
    rw [run_frozen o s (hk o (List.mem_cons_self ..)),
      ih _ fun o' ho => hk o' (List.mem_cons_of_mem _ ho)]

/-- The construction agrees, too. -/
theorem C95_unchanged_init (lists : Nat → List α) (r : Nat) (rac : Bool) :
    (LiveSeq.init lists r rac).map frozen = Sequential.init (lists r) rac := by
  unfold LiveSeq.init Sequential.init
  split <;> rfl

/-! ### C96 -/

/-- States that stand for the same state as long as no list is changed. -/
structure Same (s t : St α) : Prop where
  lists : s.lists = t.lists
  factory : s.factory = t.factory
  frozen : frozen s = frozen t

theorem same_results {s t : St α} (h : Same s t) (ops : List (Op α))
    (hk : ∀ o ∈ ops, o.keepsLists) : results s ops = results t ops := by
  induction ops generalizing s t with
  | nil => rfl
  | cons o ops ih =>
    have ho := hk o (List.mem_cons_self ..)
    have hit : itemsNow s = itemsNow t := congrArg SeqSt.items h.frozen
    have htgt : ∀ f, (target s f).now s.lists = (target t f).now t.lists := by
      intro f
      cases f with
      | own => exact hit
      | ext r => exact congrFun h.lists r
    have hiter : o.toIter s = o.toIter t := by
      cases o with
      | setFactory f => change IterOp.setFactory _ = IterOp.setFactory _; rw [htgt]
      | _ => rfl
    have e : ((o.run s).1, LiveSeq.frozen (o.run s).2) = ((o.run t).1, LiveSeq.frozen (o.run t).2) := by
      rw [← run_frozen o s ho, ← run_frozen o t ho, hiter, h.frozen]
    injection e with e1 e2
    have hl : (o.run s).2.lists = (o.run t).2.lists ∧ (o.run s).2.factory = (o.run t).2.factory := by
      cases o with
      | change r l => cases ho
      | call n =>
        obtain ⟨_, _, h1⟩ := call_keeps s n
        obtain ⟨_, _, h2⟩ := call_keeps t n
        change (call n s).2.lists = (call n t).2.lists ∧ (call n s).2.factory = (call n t).2.factory
        rw [h1, h2]; exact ⟨h.lists, h.factory⟩
      | reset => exact ⟨h.lists, h.factory⟩
      | setResetAfterCall b => exact ⟨h.lists, h.factory⟩
      | setFactory f =>
        rw [setFactory_run, setFactory_run, htgt]
        split
        · exact ⟨h.lists, h.factory⟩
        · exact ⟨h.lists, rfl⟩
    unfold results
    rw [e1, ih ⟨hl.1, hl.2, e2⟩ fun o' ho' => hk o' (List.mem_cons_of_mem _ ho')]

/-- **C96 (itself), partial.** `em.iterator_factory = em.iterator_factory` is a reset, as long as
no list is changed later. (In every history in which the values come from `items`, that is when the
factory was not assigned, or `items` is what the list of the factory holds.) -/
theorem C96_same_partial {s : St α} (hne : source s ≠ []) (hit : itemsNow s = source s)
    (ops : List (Op α)) (hk : ∀ o ∈ ops, o.keepsLists) :
    results s (.setFactory s.factory :: ops) = results s (.reset :: ops) := by
  unfold results
  have hrun := setFactory_run s s.factory
  rw [if_neg (by rw [List.isEmpty_iff]; exact hne)] at hrun
  rw [hrun]
  change _ :: results _ ops = _ :: results { s with cur := none } ops
  congr 1
  apply same_results _ ops hk
  refine ⟨rfl, rfl, ?_⟩
  unfold frozen
  have h1 : source { s with
      items := Held.tuple ((target s s.factory).now s.lists), factory := s.factory, cur := none } = source s := by
    unfold source
    cases hf : s.factory <;> rfl
  rw [h1, source_cur]
  have h2 : itemsNow { s with
      items := Held.tuple ((target s s.factory).now s.lists), factory := s.factory, cur := none } = itemsNow s := hit.symm
  rw [h2]
  rfl

/-- **C96 violated (itself).** The emitter no longer follows its list: an item appended later is
never emitted. -/
theorem C96_same_violated :
    ∃ (s : St Nat), Run s 0 ∧
      results s [.reset, .change 0 [1, 2], .call (some 3)] = [.ok [], .ok [], .ok [1, 2, 1]] ∧
      results s [.setFactory s.factory, .change 0 [1, 2], .call (some 3)] =
        [.ok [], .ok [], .ok [1, 1, 1]] :=
  ⟨⟨fun _ => [1], .list 0, .own, false, none⟩, .init (fun _ => [1]) 0 false _ rfl,
    by decide +kernel, by decide +kernel⟩

/-- **C96 (restoring the first factory).** A saved `em.iterator_factory` of the constructor,
assigned after a factory for the list `x`, gives what `x` held when its factory was assigned; and
so it stays, whatever happens to the lists. -/
theorem C96_restore_exact {s : St α} {x : Nat} (hx : s.lists x ≠ []) (ops ops' : List (Op α))
    (hk : ∀ o ∈ ops, o.keepsFactory) (hk' : ∀ o ∈ ops', o.keepsFactory) :
    source (after (after s (.setFactory (.ext x) :: ops)) (.setFactory .own :: ops')) =
      s.lists x := by
  have h1 := (C95_factory hx ops hk).2
  generalize after s (.setFactory (.ext x) :: ops) = t at h1
  have hrun := setFactory_run t .own
  have ht : (target t .own).now t.lists = s.lists x := h1
  rw [ht, if_neg (by rw [List.isEmpty_iff]; exact hx)] at hrun
  unfold after
  rw [hrun]
  have key : ∀ u : St α, u.items = .tuple (s.lists x) → u.factory = .own → ∀ ops : List (Op α),
      (∀ o ∈ ops, o.keepsFactory) →
      (after u ops).items = .tuple (s.lists x) ∧ (after u ops).factory = .own := by
    intro u hi hf ops
    induction ops generalizing u with
    | nil => exact fun _ => ⟨hi, hf⟩
    | cons o ops ih =>
      intro hk
      have hkeep := run_keeps u o (hk _ (List.mem_cons_self ..))
      exact ih _ (hkeep.1.trans hi) (hkeep.2.trans hf) fun o ho => hk o (List.mem_cons_of_mem _ ho)
  obtain ⟨h2, h3⟩ := key { t with items := .tuple (s.lists x), factory := .own, cur := none }
    rfl rfl ops' hk'
  dsimp only
  unfold source
  rw [h3]
  unfold target
  rw [h2]; rfl

/-- **C96 violated (restoring).** With `f = em.iterator_factory`, assigning another factory and then
`f` does not bring the first items back. -/
theorem C96_restore_violated :
    ∃ (s : St Nat), Run s 0 ∧ s.factory = .own ∧ (call (some 2) s).1 = .ok [7, 7] ∧
      results s [.setFactory (.ext 1), .setFactory s.factory, .call (some 2)] =
        [.ok [], .ok [], .ok [5, 5]] :=
  ⟨⟨fun k => if k = 0 then [7] else [5], .list 0, .own, false, none⟩,
    .init (fun k => if k = 0 then [7] else [5]) 0 false _ rfl, rfl, by decide +kernel,
    by decide +kernel⟩

/-- **C96 (restoring), partial.** It does for a factory that the user made: if `items` is what the
list of the factory holds, then after another factory and the old one again, everything is as after
a reset. -/
theorem C96_restore_partial {s : St α} {x y : Nat} (hf : s.factory = .ext y)
    (hi : s.items = .tuple (s.lists y)) (hx : s.lists x ≠ []) (hy : s.lists y ≠ [])
    (ops : List (Op α)) :
    results s (.setFactory (.ext x) :: .setFactory s.factory :: ops) =
      .ok [] :: results s (.reset :: ops) := by
  obtain ⟨l, i, f, rac, c⟩ := s
  dsimp only at hf hi hx hy
  subst hf hi
  have e1 : (Op.setFactory (.ext x)).run ⟨l, .tuple (l y), .ext y, rac, c⟩ =
      (.ok [], ⟨l, .tuple (l x), .ext x, rac, none⟩) :=
    (setFactory_run _ _).trans (if_neg (by rw [List.isEmpty_iff]; exact hx))
  have e2 : (Op.setFactory (.ext y)).run ⟨l, .tuple (l x), .ext x, rac, none⟩ =
      (.ok [], ⟨l, .tuple (l y), .ext y, rac, none⟩) :=
    (setFactory_run _ _).trans (if_neg (by rw [List.isEmpty_iff]; exact hy))
  have h : ∀ (s : St α) (o : Op α) (os : List (Op α)),
      results s (o :: os) = (o.run s).1 :: results (o.run s).2 os := fun _ _ _ => rfl
  rw [h, h, h, e1, e2]
  rfl

example : results (⟨fun k => if k = 0 then [7] else [5, 6], .list 0, .own, false, none⟩ : St Nat)
    [.setFactory (.ext 1), .call (some 3), .setFactory (.ext 0), .call none, .setFactory (.ext 1),
      .call (some 3)] = [.ok [], .ok [5, 6, 5], .ok [], .ok [7], .ok [], .ok [5, 6, 5]] := by
  decide +kernel

end LiveSeq
end Fauxdoc
