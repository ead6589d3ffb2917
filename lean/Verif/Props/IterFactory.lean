import Verif.Spec.IterFactory
import Verif.Py.Rel
/-
C84: `Iterative` hands on what its factory's iterators give.
-/
namespace Fauxdoc
variable {σ H α : Type}

theorem given_append (l m : List (ItEvent H α)) : given (l ++ m) = given l ++ given m := by
  induction l with
  | nil => rfl
  | cons e l ih => cases e <;> simp [given, ih]

theorem Orderly.append {b c d : Option H} {l m : List (ItEvent H α)} (h : Orderly b l c)
    (h' : Orderly c m d) : Orderly b (l ++ m) d := by
  induction h with
  | nil => exact h'
  | made _ ih => exact .made (ih h')
  | gave _ ih => exact .gave (ih h')
  | ended _ ih => exact .ended (ih h')

namespace IterObj

/-- The outcome of asking the generator for a value, with the events since. -/
def Asking (c : Option H) (o : IterObj (σ × List (ItEvent H α)) H α) (l : List (ItEvent H α)) :
    Except Err α × (IterObj (σ × List (ItEvent H α)) H α × (σ × List (ItEvent H α))) → Prop
  | (.ok a, (o', (_, l'))) => ∃ evs it, l' = l ++ evs ∧ o' = { o with gen := .inside it } ∧
      Orderly c evs (some it) ∧ given evs = [a] ∧ evs.getLast? = some (.gave it a)
  | (.error e, (o', (_, l'))) => e = .diverges ∨ (o' = { o with gen := .dead } ∧
      ∃ evs x d, l' = l ++ evs ++ [.failed x] ∧ Orderly c evs d ∧ given evs = [] ∧
        (e = x ∨ x = .stopIteration ∧ e = .runtime))

theorem Asking.prepend {c d : Option H} {o : IterObj (σ × List (ItEvent H α)) H α}
    {l pre : List (ItEvent H α)} {p} (hp : Orderly c pre d) (hg : given pre = [])
    (h : Asking d o (l ++ pre) p) : Asking c o l p := by
  obtain ⟨_ | a, o', s', l'⟩ := p
  · rcases h with h | ⟨h1, evs, x, d', h2, h3, h4, h5⟩
    · exact .inl h
    · exact .inr ⟨h1, pre ++ evs, x, d', by rw [h2]; simp, hp.append h3,
        by rw [given_append, hg, h4]; rfl, h5⟩
  · obtain ⟨evs, it, h1, h2, h3, h4, h5⟩ := h
    refine ⟨pre ++ evs, it, by rw [h1]; simp, h2, hp.append h3, by rw [given_append, hg, h4]; rfl, ?_⟩
    rw [List.getLast?_append, h5]
    rfl

theorem loop_succ (fuel : Nat) (o : IterObj σ H α) (s : σ) :
    loop (fuel + 1) (o, s) = match o.factory.make s with
      | (.error e, t) =>
        (.error (if e = .stopIteration then .runtime else e), ({ o with gen := .dead }, t))
      | (.ok it, t) => match o.factory.next it t with
        | (.error e, t') => (.error e, ({ o with gen := .dead }, t'))
        | (.ok none, t') => loop fuel (o, t')
        | (.ok (some a), t') => (.ok a, ({ o with gen := .inside it }, t')) := by
  rcases hm : o.factory.make s with ⟨e | it, t⟩
  · have h1 : inGen (notStop o.factory.make) (o, s) =
        (.error (if e = .stopIteration then .runtime else e), ({ o with gen := .dead }, t)) := by
      unfold inGen notStop
      simp only [hm]
      by_cases he : e = .stopIteration
      · subst he; rfl
      · rw [if_neg he]
        cases e <;> first | rfl | exact absurd rfl he
    exact PyM.bind_err (m := inGen (notStop o.factory.make)) h1
  · have h1 : inGen (notStop o.factory.make) (o, s) = (.ok it, (o, t)) := by
      unfold inGen notStop
      simp only [hm]
    refine (PyM.bind_ok (m := inGen (notStop o.factory.make)) h1).trans ?_
    refine (PyM.bind_ok (m := self) (s := (o, t)) rfl).trans ?_
    dsimp only
    rcases hn : o.factory.next it t with ⟨e | _ | a, t'⟩
    · exact PyM.bind_err (m := inGen (o.factory.next it)) (s := (o, t))
        (s' := ({ o with gen := .dead }, t')) (by unfold inGen; simp only [hn])
    · exact PyM.bind_ok (m := inGen (o.factory.next it)) (s := (o, t)) (s' := (o, t')) (a := none)
        (by unfold inGen; simp only [hn])
    · exact PyM.bind_ok (m := inGen (o.factory.next it)) (s := (o, t)) (s' := (o, t')) (a := some a)
        (by unfold inGen; simp only [hn])

theorem nextItem_fresh (fuel : Nat) (o : IterObj σ H α) (ho : o.gen = .fresh) (s : σ) :
    nextItem fuel (o, s) = loop fuel (o, s) := by
  refine (PyM.bind_ok (m := self) (s := (o, s)) rfl).trans ?_
  rw [ho]

theorem nextItem_dead (fuel : Nat) (o : IterObj σ H α) (ho : o.gen = .dead) (s : σ) :
    nextItem fuel (o, s) = (.error .stopIteration, (o, s)) := by
  refine (PyM.bind_ok (m := self) (s := (o, s)) rfl).trans ?_
  rw [ho]
  rfl

theorem nextItem_inside (fuel : Nat) (o : IterObj σ H α) {it : H} (ho : o.gen = .inside it) (s : σ) :
    nextItem fuel (o, s) = match o.factory.next it s with
      | (.error e, t) => (.error e, ({ o with gen := .dead }, t))
      | (.ok none, t) => loop fuel (o, t)
      | (.ok (some a), t) => (.ok a, (o, t)) := by
  refine (PyM.bind_ok (m := self) (s := (o, s)) rfl).trans ?_
  rw [ho]
  rcases hn : o.factory.next it s with ⟨e | _ | a, t'⟩
  · exact PyM.bind_err (m := inGen (o.factory.next it)) (by unfold inGen; simp only [hn])
  · exact PyM.bind_ok (m := inGen (o.factory.next it)) (s' := (o, t')) (a := none)
      (by unfold inGen; simp only [hn])
  · exact PyM.bind_ok (m := inGen (o.factory.next it)) (s' := (o, t')) (a := some a)
      (by unfold inGen; simp only [hn])

theorem takeItems_dead (fuel n : Nat) (o : IterObj σ H α) (ho : o.gen = .dead) (s : σ) :
    takeItems fuel n (o, s) = (.ok [], (o, s)) := by
  cases n with
  | zero => rfl
  | succ n =>
    refine (PyM.bind_ok (m := self) (s := (o, s)) rfl).trans ?_
    rw [ho]
    rfl

theorem takeItems_succ (fuel n : Nat) (o : IterObj σ H α) (ho : o.gen ≠ .dead) (s : σ) :
    takeItems fuel (n + 1) (o, s) = (do
      let a ← nextItem fuel
      let as ← takeItems fuel n
      return a :: as : IterObjM σ H α (List α)) (o, s) := by
  refine (PyM.bind_ok (m := self) (s := (o, s)) rfl).trans ?_
  rcases h : o.gen with _ | it | _
  · rfl
  · rfl
  · exact absurd h ho

theorem afterCall_run (o : IterObj σ H α) (s : σ) :
    afterCall (o, s) = (.ok ⟨⟩, ({ o with gen := if o.resetAfterCall then .fresh else o.gen }, s)) := by
  obtain ⟨f, b, g⟩ := o
  cases b <;> rfl

theorem asking_loop (F : IterFac σ H α) (o : IterObj (σ × List (ItEvent H α)) H α)
    (ho : o.factory = F.logged) (fuel : Nat) (s : σ) (l : List (ItEvent H α)) :
    Asking none o l (loop fuel (o, (s, l))) := by
  induction fuel generalizing s l with
  | zero => exact .inl rfl
  | succ fuel ih =>
    have hmake : o.factory.make = F.logged.make := by rw [ho]
    have hnext : o.factory.next = F.logged.next := by rw [ho]
    rw [loop_succ, hmake, hnext]
    simp only [IterFac.logged]
    rcases hm : F.make s with ⟨e | it, t⟩
    · dsimp only
      refine .inr ⟨rfl, [], e, none, by simp, .nil _, rfl, ?_⟩
      by_cases he : e = .stopIteration
      · exact .inr ⟨he, if_pos he⟩
      · exact .inl (if_neg he)
    · dsimp only
      rcases hn : F.next it t with ⟨e | _ | a, t'⟩
      · exact .inr ⟨rfl, [.made it], e, some it, rfl, .made (.nil _), rfl, .inl rfl⟩
      · dsimp only
        have := ih t' (l ++ [.made it] ++ [.ended it])
        rw [List.append_assoc] at this ⊢
        exact this.prepend (.made (.ended (.nil _))) rfl
      · exact ⟨[.made it, .gave it a], it, by simp, rfl, .made (.gave (.nil _)), rfl, rfl⟩

theorem asking_next (F : IterFac σ H α) (o : IterObj (σ × List (ItEvent H α)) H α)
    (ho : o.factory = F.logged) (hd : o.gen ≠ .dead) (fuel : Nat) (s : σ)
    (l : List (ItEvent H α)) :
    Asking o.gen.current o l (nextItem fuel (o, (s, l))) := by
  rcases hg : o.gen with _ | it | _
  · rw [nextItem_fresh fuel o hg]
    exact asking_loop F o ho fuel s l
  · have hnext : o.factory.next = F.logged.next := by rw [ho]
    rw [nextItem_inside fuel o hg, hnext]
    simp only [IterFac.logged]
    rcases hn : F.next it s with ⟨e | _ | a, t'⟩
    · exact .inr ⟨rfl, [], e, some it, by simp, .nil _, rfl, .inl rfl⟩
    · exact (asking_loop F o ho fuel t' _).prepend (.ended (.nil _)) rfl
    · exact ⟨[.gave it a], it, rfl, by rw [← hg], .gave (.nil _), rfl, rfl⟩
  · exact absurd hg hd

/-- The outcome of asking for several values. -/
def Taking (n : Nat) (c : Option H) (o : IterObj (σ × List (ItEvent H α)) H α)
    (l : List (ItEvent H α)) :
    Except Err (List α) × (IterObj (σ × List (ItEvent H α)) H α × (σ × List (ItEvent H α))) → Prop
  | (.ok as, (o', (_, l'))) => ∃ evs, l' = l ++ evs ∧ o'.factory = o.factory ∧
      o'.resetAfterCall = o.resetAfterCall ∧ o'.gen ≠ .dead ∧ Orderly c evs o'.gen.current ∧
      given evs = as ∧ as.length = n ∧
      (n ≠ 0 → ∃ it a, evs.getLast? = some (.gave it a)) ∧ (n = 0 → evs = [])
  | (.error e, (o', (_, l'))) => e = .diverges ∨ (o' = { o with gen := .dead } ∧
      ∃ evs x d, l' = l ++ evs ++ [.failed x] ∧ Orderly c evs d ∧ (given evs).length < n ∧
        (e = x ∨ x = .stopIteration ∧ e = .runtime))

theorem taking_items (F : IterFac σ H α) (fuel n : Nat) :
    ∀ (o : IterObj (σ × List (ItEvent H α)) H α) (_ : o.factory = F.logged) (_ : o.gen ≠ .dead)
      (s : σ) (l : List (ItEvent H α)),
      Taking n o.gen.current o l (takeItems fuel n (o, (s, l))) := by
  induction n with
  | zero =>
    intro o ho hd s l
    exact ⟨[], by simp, rfl, rfl, hd, .nil _, rfl, rfl, by simp, by simp⟩
  | succ n ih =>
    intro o ho hd s l
    rw [takeItems_succ fuel n o hd, PyM.bind_apply]
    have h := asking_next F o ho hd fuel s l
    revert h
    rcases nextItem fuel (o, (s, l)) with ⟨e | a, o1, s1, l1⟩
    · rintro (h | ⟨h1, evs, x, d, h2, h3, h4, h5⟩)
      · exact .inl h
      · exact .inr ⟨h1, evs, x, d, h2, h3, by rw [h4]; simp, h5⟩
    · rintro ⟨evs, it, h1, h2, h3, h4, h5⟩
      subst h2
      dsimp only
      rw [PyM.bind_apply]
      have h := ih { o with gen := .inside it } ho (by simp) s1 l1
      revert h
      rcases takeItems fuel n (({ o with gen := .inside it } :
        IterObj (σ × List (ItEvent H α)) H α), (s1, l1)) with ⟨e | as, o2, s2, l2⟩
      · rintro (h | ⟨g1, evs', x, d, g2, g3, g4, g5⟩)
        · exact .inl h
        · refine .inr ⟨g1, evs ++ evs', x, d, by rw [g2, h1]; simp, h3.append g3, ?_, g5⟩
          rw [given_append, h4]
          simpa using g4
      · rintro ⟨evs', g1, g2, g3, g4, g5, g6, g7, g8, g9⟩
        refine ⟨evs ++ evs', by rw [g1, h1]; simp, g2, g3, g4, h3.append g5,
          by rw [given_append, h4, g6]; rfl, by simp [g7], fun _ => ?_, fun h => by omega⟩
        by_cases hn : n = 0
        · rw [g9 hn, List.append_nil]; exact ⟨it, a, h5⟩
        · obtain ⟨it', a', h⟩ := g8 hn
          exact ⟨it', a', by rw [List.getLast?_append, h]; rfl⟩

theorem call_none (fuel : Nat) (p : IterObj σ H α × σ) :
    call fuel none p = (do let a ← nextItem fuel; afterCall; return [a] : IterObjM σ H α (List α)) p := by
  change ((nextItem fuel >>= fun a => afterCall >>= fun _ => pure a) >>= fun a => pure [a]) p = _
  simp only [bind_assoc, pure_bind]

theorem call_one (fuel : Nat) (p : IterObj σ H α × σ) : call fuel (some 1) p = call fuel none p := rfl

theorem call_many (fuel n : Nat) (hn : n ≠ 1) (p : IterObj σ H α × σ) :
    call fuel (some (n : Int)) p =
      (do let as ← takeItems fuel n; afterCall; return as : IterObjM σ H α (List α)) p := by
  change (if (n : Int) = 1 then _ else emitMany fuel (n : Int) : IterObjM σ H α (List α)) p = _
  rw [if_neg (by exact_mod_cast hn)]
  unfold emitMany
  rw [if_neg (by omega), Int.toNat_natCast]

/-- A call takes items and then possibly resets. -/
theorem call_eq (fuel : Nat) (n : Option Nat) (o : IterObj σ H α) (hd : o.gen ≠ .dead) (s : σ) :
    call fuel (n.map Int.ofNat) (o, s) =
      (do let as ← takeItems fuel (n.getD 1); afterCall; return as : IterObjM σ H α (List α)) (o, s) := by
  have h1 : call fuel none (o, s) =
      (do let as ← takeItems fuel 1; afterCall; return as : IterObjM σ H α (List α)) (o, s) := by
    rw [call_none, PyM.bind_apply, PyM.bind_apply, takeItems_succ fuel 0 o hd, PyM.bind_apply]
    rcases nextItem fuel (o, s) with ⟨e | a, p⟩ <;> rfl
  rcases n with _ | n
  · exact h1
  · by_cases hn : n = 1
    · subst hn; exact h1
    · exact call_many fuel n hn (o, s)

end IterObj

open IterObj

/-- **C84.** A call that succeeds emits exactly the values that the iterators gave during the call, in
that order, as many as were asked for.  Nothing is asked for in advance: the last event is a value
being given.  Only the current iterator is asked, and the factory is called only when there is none
or the current one has ended.  The factory and its iterators may do anything. -/
theorem C84_call (F : IterFac σ H α) (o : IterObj (σ × List (ItEvent H α)) H α)
    (ho : o.factory = F.logged) (hd : o.gen ≠ .dead) (fuel : Nat) (n : Option Nat) (s t : σ)
    (l l' : List (ItEvent H α)) (vs : List α) (o' : IterObj (σ × List (ItEvent H α)) H α)
    (h : call fuel (n.map Int.ofNat) (o, (s, l)) = (.ok vs, (o', (t, l')))) :
    ∃ evs c, l' = l ++ evs ∧ given evs = vs ∧ vs.length = n.getD 1 ∧
      Orderly o.gen.current evs c ∧ (vs ≠ [] → ∃ it a, evs.getLast? = some (.gave it a)) ∧
      (vs = [] → evs = []) ∧
      o'.gen.current = (if o.resetAfterCall then none else c) ∧ o'.gen ≠ .dead ∧
      o'.factory = o.factory ∧ o'.resetAfterCall = o.resetAfterCall := by
  rw [call_eq fuel n o hd, PyM.bind_apply] at h
  have ht := taking_items F fuel (n.getD 1) o ho hd s l
  revert h ht
  rcases takeItems fuel (n.getD 1) (o, (s, l)) with ⟨e | as, o1, s1, l1⟩
  · intro h; cases h
  · intro h ht
    obtain ⟨evs, h1, h2, h3, h4, h5, h6, h7, h8, h9⟩ := ht
    dsimp only at h
    rw [PyM.bind_ok (afterCall_run o1 (s1, l1))] at h
    cases h
    refine ⟨evs, o1.gen.current, h1, h6, h7, h5, fun hv => h8 ?_, fun hv => h9 ?_, ?_, ?_, h2, h3⟩
    · intro h0; rw [h0] at h7; exact hv (List.length_eq_zero_iff.1 h7)
    · rw [hv] at h7; exact h7.symm
    · dsimp only
      rw [h3]
      split <;> rfl
    · dsimp only
      split
      · simp
      · exact h4

/-- The calls of a program, all of which succeed; the values of all of them, in order. -/
def callsOf (fuel : Nat) : List (Option Nat) → IterObjM σ H α (List α)
  | [] => pure []
  | n :: ns => do
    let vs ← call fuel (n.map Int.ofNat)
    let ws ← callsOf fuel ns
    return vs ++ ws

/-- **C84.** The same for any number of calls in a row (without `reset_after_call`): no value is lost,
repeated or moved between calls. -/
theorem C84_calls (F : IterFac σ H α) (fuel : Nat) (ns : List (Option Nat)) :
    ∀ (o : IterObj (σ × List (ItEvent H α)) H α) (_ : o.factory = F.logged) (_ : o.gen ≠ .dead)
      (_ : o.resetAfterCall = false) (s t : σ) (l l' : List (ItEvent H α)) (vs : List α)
      (o' : IterObj (σ × List (ItEvent H α)) H α)
      (_ : callsOf fuel ns (o, (s, l)) = (.ok vs, (o', (t, l')))),
    ∃ evs, l' = l ++ evs ∧ given evs = vs ∧ vs.length = (ns.map (·.getD 1)).sum ∧
      Orderly o.gen.current evs o'.gen.current := by
  induction ns with
  | nil =>
    intro o _ _ _ s t l l' vs o' h
    cases h
    exact ⟨[], by simp, rfl, rfl, .nil _⟩
  | cons n ns ih =>
    intro o ho hd hr s t l l' vs o' h
    obtain ⟨vs1, ⟨o1, s1, l1⟩, h1, h2⟩ := PyM.bind_eq_ok h
    obtain ⟨vs2, ⟨o2, s2, l2⟩, h3, h4⟩ := PyM.bind_eq_ok h2
    cases h4
    obtain ⟨evs, c, a1, a2, a3, a4, _, _, a5, a6, a7, a8⟩ := C84_call F o ho hd fuel n s s1 l l1 vs1 o1 h1
    obtain ⟨evs', b1, b2, b3, b4⟩ := ih o1 (a7.trans ho) a6 (a8.trans hr) s1 t l1 l' vs2 o' h3
    rw [hr] at a5
    have hc : o1.gen.current = c := a5
    rw [hc] at b4
    exact ⟨evs ++ evs', by rw [b1, a1]; simp, by rw [given_append, a2, b2], by simp [a3, b3],
      a4.append b4⟩

theorem Orderly.none_cons {l : List (ItEvent H α)} {c : Option H} (h : Orderly none l c)
    (hl : l ≠ []) : ∃ it l', l = .made it :: l' ∧ Orderly (some it) l' c := by
  cases h with
  | nil => exact absurd rfl hl
  | made h => exact ⟨_, _, rfl, h⟩

/-- **C84.** After a reset the next call starts with calling the factory; what is left of the iterator
used before is not asked for any more. -/
theorem C84_reset (F : IterFac σ H α) (o : IterObj (σ × List (ItEvent H α)) H α)
    (ho : o.factory = F.logged) (fuel : Nat) (n : Option Nat) (hn : n.getD 1 ≠ 0) (s t : σ)
    (l l' : List (ItEvent H α)) (vs : List α) (o' : IterObj (σ × List (ItEvent H α)) H α)
    (h : (do reset; call fuel (n.map Int.ofNat)) (o, (s, l)) = (.ok vs, (o', (t, l')))) :
    ∃ it evs c, l' = l ++ .made it :: evs ∧ given evs = vs ∧ Orderly (some it) evs c := by
  have h' : call fuel (n.map Int.ofNat) ({ o with gen := .fresh }, (s, l)) = (.ok vs, (o', (t, l'))) := h
  obtain ⟨evs, c, h1, h2, h3, h4, _⟩ := C84_call F { o with gen := .fresh } ho (by simp) fuel n s t l
    l' vs o' h'
  obtain ⟨it, evs', rfl, h5⟩ := Orderly.none_cons h4 (by
    rintro rfl
    rw [← h2] at h3
    exact hn h3.symm)
  exact ⟨it, evs', c, h1, h2, h5⟩

theorem IterObj.setFactory_run (f : IterFac σ H α) (o : IterObj σ H α) (s : σ) :
    setFactory f (o, s) = match checkIterFactory f s with
      | (.ok _, t) => (.ok ⟨⟩, ({ o with factory := f, gen := .fresh }, t))
      | (.error e, t) => (.error e, (o, t)) := by
  unfold setFactory
  rw [PyM.bind_apply]
  unfold outside
  rcases checkIterFactory f s with ⟨e | _, t⟩ <;> rfl

/-- **C84.** The constructor takes one value from an iterator of its own and nothing else. -/
theorem C84_init (F : IterFac σ H α) (rac : Bool) (s t : σ) (l l' : List (ItEvent H α))
    (o : IterObj (σ × List (ItEvent H α)) H α)
    (h : init F.logged rac (s, l) = (.ok o, (t, l'))) :
    o = ⟨F.logged, rac, .fresh⟩ ∧ ∃ it a, l' = l ++ [.made it, .gave it a] := by
  unfold IterObj.init at h
  rw [IterObj.setFactory_run] at h
  unfold checkIterFactory at h
  simp only [IterFac.logged] at h
  rcases hm : F.make s with ⟨e | it, t1⟩
  · rw [hm] at h; cases h
  · rw [hm] at h
    dsimp only at h
    rcases hn : F.next it t1 with ⟨e | _ | a, t2⟩
    · rw [hn] at h; cases h
    · rw [hn] at h; cases h
    · rw [hn] at h
      cases h
      exact ⟨rfl, it, a, by simp⟩

/-- **C84.** A factory whose first iterator has no value is refused with a `ValueError`. -/
theorem C84_init_empty (F : IterFac σ H α) (rac : Bool) (s t u : σ) (it : H)
    (hm : F.make s = (.ok it, t)) (hn : F.next it t = (.ok none, u)) :
    init F rac s = (.error .valueError, u) := by
  unfold IterObj.init
  rw [IterObj.setFactory_run]
  unfold checkIterFactory
  rw [hm]
  dsimp only
  rw [hn]

/-- **C84.** An exception of the factory or of its first iterator reaches whoever sets the factory, a
`StopIteration` of the factory as a `ValueError`; the emitter is as it was. -/
theorem C84_refused (F : IterFac σ H α) (o : IterObj σ H α) (s t : σ) (e : Err)
    (h : F.make s = (.error e, t) ∨ ∃ it u, F.make s = (.ok it, u) ∧ F.next it u = (.error e, t)) :
    ∃ x, setFactory F (o, s) = (.error x, (o, t)) ∧ (e ≠ .stopIteration → x = e) ∧
      (F.make s = (.error .stopIteration, t) → x = .valueError) := by
  rw [IterObj.setFactory_run]
  unfold checkIterFactory
  rcases h with h | ⟨it, u, h1, h2⟩
  · rw [h]
    refine ⟨_, rfl, fun he => if_neg he, fun he => ?_⟩
    cases he
    rfl
  · rw [h1]
    dsimp only
    rw [h2]
    exact ⟨_, rfl, fun _ => rfl, fun he => by cases he⟩

/-- A factory that raises, and one whose iterator does. -/
example : (setFactory (⟨PyM.raise .stopIteration, fun _ => pure (some 0)⟩ : IterFac Nat Nat Nat)
    (⟨⟨pure 0, fun _ => pure (some 0)⟩, false, .fresh⟩, 5)).1 = .error .valueError ∧
    (setFactory (⟨pure 0, fun _ => PyM.raise (.user 3)⟩ : IterFac Nat Nat Nat)
    (⟨⟨pure 0, fun _ => pure (some 0)⟩, false, .fresh⟩, 5)).1 = .error (.user 3) := by decide +kernel

/-- **C84.** A call that fails does so because of an exception of the factory or an iterator, which is
passed on (a `StopIteration` of the factory as a `RuntimeError`, PEP 479), or never ends.  The values
the iterators gave during the call are lost. -/
theorem C84_exception (F : IterFac σ H α) (o : IterObj (σ × List (ItEvent H α)) H α)
    (ho : o.factory = F.logged) (hd : o.gen ≠ .dead) (fuel : Nat) (n : Option Nat) (s t : σ)
    (l l' : List (ItEvent H α)) (e : Err) (o' : IterObj (σ × List (ItEvent H α)) H α)
    (h : call fuel (n.map Int.ofNat) (o, (s, l)) = (.error e, (o', (t, l')))) :
    e = .diverges ∨ (o' = { o with gen := .dead } ∧
      ∃ evs x c, l' = l ++ evs ++ [.failed x] ∧ Orderly o.gen.current evs c ∧
        (given evs).length < n.getD 1 ∧ (e = x ∨ x = .stopIteration ∧ e = .runtime)) := by
  rw [call_eq fuel n o hd, PyM.bind_apply] at h
  have ht := taking_items F fuel (n.getD 1) o ho hd s l
  revert h ht
  rcases takeItems fuel (n.getD 1) (o, (s, l)) with ⟨e | as, o1, s1, l1⟩
  · intro h ht
    cases h
    exact ht
  · intro h _
    dsimp only at h
    rw [PyM.bind_ok (afterCall_run o1 (s1, l1))] at h
    cases h

/-- After such an exception the emitter is of no use until it is reset: one value is refused with
`StopIteration`, several are answered with an empty list, and the factory and its iterators are not
asked any more. -/
theorem C84_after_exception (o : IterObj σ H α) (hd : o.gen = .dead) (fuel : Nat) (s : σ) :
    call fuel none (o, s) = (.error .stopIteration, (o, s)) ∧
    call fuel (some 1) (o, s) = (.error .stopIteration, (o, s)) ∧
    ∀ n : Nat, n ≠ 1 → call fuel (some (n : Int)) (o, s) =
      (.ok [], ({ o with gen := if o.resetAfterCall then .fresh else .dead }, s)) := by
  have h1 : call fuel none (o, s) = (.error .stopIteration, (o, s)) := by
    rw [call_none]
    exact PyM.bind_err (nextItem_dead fuel o hd s)
  refine ⟨h1, h1, fun n hn => ?_⟩
  rw [call_many fuel n hn, PyM.bind_ok (takeItems_dead fuel n o hd s), PyM.bind_ok (afterCall_run o s),
    hd]
  rfl

/-! The record of events changes nothing. -/

/-- The operation with a record of the events at the factory it assigns. -/
def IterObjOp.logged : IterObjOp σ H α → IterObjOp (σ × List (ItEvent H α)) H α
  | .call n => .call n
  | .reset => .reset
  | .setFactory f => .setFactory f.logged
  | .setResetAfterCall b => .setResetAfterCall b

/-- The same emitter with and without a record. -/
def SameBut (p : IterObj σ H α × σ) (q : IterObj (σ × List (ItEvent H α)) H α × (σ × List (ItEvent H α))) :
    Prop :=
  q.1 = ⟨p.1.factory.logged, p.1.resetAfterCall, p.1.gen⟩ ∧ q.2.1 = p.2

theorem rel_loop (fuel : Nat) : PyM.Rel (SameBut (σ := σ) (H := H) (α := α)) (loop fuel) (loop fuel) := by
  induction fuel with
  | zero => exact .raise _ _
  | succ fuel ih =>
    rintro ⟨o, s⟩ ⟨o', s', l⟩ ⟨h1, h2⟩
    dsimp only at h1 h2
    subst h1 h2
    rw [loop_succ, loop_succ]
    simp only [IterFac.logged]
    rcases o.factory.make s' with ⟨e | it, t⟩
    · exact ⟨rfl, rfl, rfl⟩
    · dsimp only
      rcases o.factory.next it t with ⟨e | _ | a, t'⟩
      · exact ⟨rfl, rfl, rfl⟩
      · exact ih _ _ ⟨rfl, rfl⟩
      · exact ⟨rfl, rfl, rfl⟩

theorem rel_next (fuel : Nat) :
    PyM.Rel (SameBut (σ := σ) (H := H) (α := α)) (nextItem fuel) (nextItem fuel) := by
  rintro ⟨o, s⟩ ⟨o', s', l⟩ ⟨h1, h2⟩
  dsimp only at h1 h2
  subst h1 h2
  rcases hg : o.gen with _ | it | _
  · rw [nextItem_fresh fuel o hg, nextItem_fresh fuel _ rfl]
    exact rel_loop fuel _ _ ⟨by rw [hg], rfl⟩
  · rw [nextItem_inside fuel o hg, nextItem_inside fuel _ rfl]
    simp only [IterFac.logged]
    rcases o.factory.next it s' with ⟨e | _ | a, t'⟩
    · exact ⟨rfl, rfl, rfl⟩
    · exact rel_loop fuel _ _ ⟨by rw [hg]; rfl, rfl⟩
    · exact ⟨rfl, by rw [hg]; rfl, rfl⟩
  · rw [nextItem_dead fuel o hg, nextItem_dead fuel _ rfl]
    exact ⟨rfl, by rw [hg], rfl⟩

theorem rel_take (fuel n : Nat) :
    PyM.Rel (SameBut (σ := σ) (H := H) (α := α)) (takeItems fuel n) (takeItems fuel n) := by
  induction n with
  | zero => exact .pure _ _
  | succ n ih =>
    rintro ⟨o, s⟩ q h
    by_cases hg : o.gen = .dead
    · obtain ⟨o', s'⟩ := q
      have e : o' = _ := h.1
      have hg' : o'.gen = .dead := by rw [e]; exact hg
      rw [takeItems_dead fuel _ o hg, takeItems_dead fuel _ o' hg']
      exact ⟨rfl, h⟩
    · obtain ⟨o', s'⟩ := q
      have e : o' = _ := h.1
      have hg' : o'.gen ≠ .dead := by rw [e]; exact hg
      rw [takeItems_succ fuel _ o hg, takeItems_succ fuel _ o' hg']
      exact PyM.Rel.bind (rel_next fuel) (fun a => PyM.Rel.bind ih fun as => .pure _ _) _ _ h

theorem rel_after : PyM.Rel (SameBut (σ := σ) (H := H) (α := α)) afterCall afterCall := by
  rintro ⟨o, s⟩ ⟨o', s', l⟩ ⟨h1, h2⟩
  dsimp only at h1 h2
  subst h1 h2
  rw [afterCall_run, afterCall_run]
  exact ⟨rfl, rfl, rfl⟩

theorem rel_call (fuel : Nat) (n : Option Int) :
    PyM.Rel (SameBut (σ := σ) (H := H) (α := α)) (call fuel n) (call fuel n) := by
  have h1 : PyM.Rel (SameBut (σ := σ) (H := H) (α := α)) (call fuel none) (call fuel none) :=
    .bind (.bind (rel_next fuel) fun a => .bind rel_after fun _ => .pure _ _) fun a => .pure _ _
  rcases n with _ | n
  · exact h1
  · by_cases hn : n = 1
    · subst hn; exact h1
    · unfold call
      simp only [if_neg hn]
      unfold emitMany
      by_cases h0 : n < 0
      · simp only [if_pos h0]; exact .raise _ _
      · simp only [if_neg h0]
        exact .bind (rel_take fuel _) fun as => .bind rel_after fun _ => .pure _ _

theorem rel_setFactory (f : IterFac σ H α) :
    PyM.Rel (SameBut (σ := σ) (H := H) (α := α)) (setFactory f) (setFactory f.logged) := by
  rintro ⟨o, s⟩ ⟨o', s', l⟩ ⟨h1, h2⟩
  dsimp only at h1 h2
  subst h1 h2
  rw [IterObj.setFactory_run, IterObj.setFactory_run]
  unfold checkIterFactory
  simp only [IterFac.logged]
  rcases f.make s' with ⟨e | it, t⟩
  · exact ⟨rfl, rfl, rfl⟩
  · dsimp only
    rcases f.next it t with ⟨e | _ | a, t'⟩
    · exact ⟨rfl, rfl, rfl⟩
    · exact ⟨rfl, rfl, rfl⟩
    · exact ⟨rfl, rfl, rfl⟩

/-- **C84.** Recording the events does not change what an emitter does: every operation has the same
outcome with and without. -/
theorem C84_recorded (fuel : Nat) (ops : List (IterObjOp σ H α)) :
    ∀ (o : IterObj σ H α) (s : σ) (l : List (ItEvent H α)),
      iterObjOutputs fuel (ops.map IterObjOp.logged)
        (⟨o.factory.logged, o.resetAfterCall, o.gen⟩, (s, l)) = iterObjOutputs fuel ops (o, s) := by
  have key : ∀ (p : IterObj σ H α × σ) (q), SameBut p q →
      iterObjOutputs fuel (ops.map IterObjOp.logged) q = iterObjOutputs fuel ops p := by
    induction ops with
    | nil => intros; rfl
    | cons op ops ih =>
      intro p q h
      have hop : PyM.Rel (SameBut (σ := σ) (H := H) (α := α)) (op.run fuel) (op.logged.run fuel) := by
        cases op with
        | call n => exact rel_call fuel n
        | reset =>
          refine .bind ?_ fun _ => .pure _ _
          rintro ⟨o, s⟩ ⟨o', s', l⟩ ⟨h1, h2⟩
          dsimp only at h1 h2
          subst h1 h2
          exact ⟨rfl, rfl, rfl⟩
        | setFactory f => exact .bind (rel_setFactory f) fun _ => .pure _ _
        | setResetAfterCall b =>
          refine .bind ?_ fun _ => .pure _ _
          rintro ⟨o, s⟩ ⟨o', s', l⟩ ⟨h1, h2⟩
          dsimp only at h1 h2
          subst h1 h2
          exact ⟨rfl, rfl, rfl⟩
      have h1 := hop p q h
      change _ :: iterObjOutputs fuel (ops.map IterObjOp.logged) _ = _ :: iterObjOutputs fuel ops _
      rw [h1.1, ih _ _ h1.2]
  intro o s l
  exact key _ _ ⟨rfl, rfl⟩

/-! ### Factories with another sequence every time -/

/-- The items of the iterators number `k`, `k + 1`, ..., `k + m - 1`. -/
def itemsOf (ls : Nat → List α) (k m : Nat) : List α := ((List.range m).map fun j => ls (k + j)).flatten

theorem itemsOf_succ (ls : Nat → List α) (k m : Nat) :
    itemsOf ls k (m + 1) = ls k ++ itemsOf ls (k + 1) m := by
  unfold itemsOf
  rw [List.range_succ_eq_map, List.map_cons, List.flatten_cons, List.map_map]
  simp [Function.comp_def, Nat.add_assoc, Nat.add_comm 1]

/-- What is still to come after the next `m` calls of the factory. -/
def pending (ls : Nat → List α) (p : IterObj (Nat × (Nat → Src α)) Nat α × (Nat × (Nat → Src α)))
    (m : Nat) : List α :=
  (match p.1.gen with
    | .inside it => (match p.2.2 it with | .fin l => l | .inf _ => [])
    | _ => []) ++ itemsOf ls p.2.1 m

/-- States of an emitter whose factory gives the lists `ls`. -/
def OfLists (ls : Nat → List α)
    (p : IterObj (Nat × (Nat → Src α)) Nat α × (Nat × (Nat → Src α))) : Prop :=
  p.1.factory = .ofSources (fun k => .fin (ls k)) ∧ p.1.gen ≠ .dead ∧
    ∀ it, p.1.gen = .inside it → ∃ l, p.2.2 it = .fin l

theorem ofLists_loop (ls : Nat → List α) (hne : ∀ k, ls k ≠ []) (fuel : Nat)
    (o : IterObj (Nat × (Nat → Src α)) Nat α) (s : Nat × (Nat → Src α))
    (ho : o.factory = .ofSources (fun k => .fin (ls k))) :
    ∃ a o' s', loop (fuel + 1) (o, s) = (.ok a, (o', s')) ∧ OfLists ls (o', s') ∧
      o'.resetAfterCall = o.resetAfterCall ∧
      ∀ m, itemsOf ls s.1 (m + 1) = a :: pending ls (o', s') m := by
  obtain ⟨k, rest⟩ := s
  obtain ⟨a, l, hl⟩ := List.exists_cons_of_ne_nil (hne k)
  obtain ⟨f, b, g⟩ := o
  dsimp only at ho
  subst ho
  refine ⟨a, ⟨.ofSources fun k => .fin (ls k), b, .inside k⟩, (k + 1, fun i => if i = k then .fin l else
    if i = k then .fin (ls k) else rest i), ?_, ?_, ?_, ?_⟩
  · rw [loop_succ]
    simp only [IterFac.ofSources, if_true, hl, Src.next]
  · refine ⟨rfl, by simp, ?_⟩
    intro it h
    cases h
    exact ⟨l, by simp⟩
  · rfl
  · intro m
    rw [itemsOf_succ, hl]
    simp [pending]

theorem ofLists_next (ls : Nat → List α) (hne : ∀ k, ls k ≠ []) (fuel : Nat)
    (p : IterObj (Nat × (Nat → Src α)) Nat α × (Nat × (Nat → Src α))) (hp : OfLists ls p) :
    ∃ a p', nextItem (fuel + 1) p = (.ok a, p') ∧ OfLists ls p' ∧
      p'.1.resetAfterCall = p.1.resetAfterCall ∧
      ∃ d, ∀ m, pending ls p (d + m) = a :: pending ls p' m := by
  obtain ⟨o, s⟩ := p
  obtain ⟨h1, h2, h3⟩ := hp
  dsimp only at h1 h2 h3
  rcases hg : o.gen with _ | it | _
  · rw [nextItem_fresh _ o hg]
    obtain ⟨a, o', s', g1, g2, g3, g4⟩ := ofLists_loop ls hne fuel o s h1
    refine ⟨a, (o', s'), g1, g2, g3, 1, fun m => ?_⟩
    rw [← g4 m, Nat.add_comm]
    simp [pending, hg]
  · obtain ⟨l, hl⟩ := h3 it hg
    rw [nextItem_inside _ o hg]
    have hnext : o.factory.next it s = match (s.2 it).next with
      | none => (.ok none, s)
      | some (a, r) => (.ok (some a), (s.1, fun i => if i = it then r else s.2 i)) := by
      rw [h1]; rfl
    cases l with
    | nil =>
      rw [hnext, hl]
      obtain ⟨a, o', s', g1, g2, g3, g4⟩ := ofLists_loop ls hne fuel o s h1
      refine ⟨a, (o', s'), g1, g2, g3, 1, fun m => ?_⟩
      rw [← g4 m, Nat.add_comm]
      simp [pending, hg, hl]
    | cons a l =>
      rw [hnext, hl]
      refine ⟨a, _, rfl, ⟨h1, h2, ?_⟩, rfl, 0, fun m => ?_⟩
      · intro it' h
        dsimp only at h
        rw [hg] at h
        cases h
        exact ⟨l, by simp⟩
      · simp [pending, hg, hl]
  · exact absurd hg h2

theorem ofLists_take (ls : Nat → List α) (hne : ∀ k, ls k ≠ []) (fuel n : Nat) :
    ∀ (p : IterObj (Nat × (Nat → Src α)) Nat α × (Nat × (Nat → Src α))) (_ : OfLists ls p),
    ∃ as p', takeItems (fuel + 1) n p = (.ok as, p') ∧ OfLists ls p' ∧
      p'.1.resetAfterCall = p.1.resetAfterCall ∧ as.length = n ∧
      ∃ d, ∀ m, pending ls p (d + m) = as ++ pending ls p' m := by
  induction n with
  | zero => intro p hp; exact ⟨[], p, rfl, hp, rfl, rfl, 0, fun m => by simp⟩
  | succ n ih =>
    intro p hp
    obtain ⟨a, p1, h1, h2, h3, d, h4⟩ := ofLists_next ls hne fuel p hp
    obtain ⟨as, p2, g1, g2, g3, g4, d', g5⟩ := ih p1 h2
    refine ⟨a :: as, p2, ?_, g2, g3.trans h3, by simp [g4], d + d', fun m => ?_⟩
    · rw [show p = (p.1, p.2) from rfl, takeItems_succ _ n p.1 hp.2.1, PyM.bind_ok h1, PyM.bind_ok g1]
      rfl
    · rw [Nat.add_assoc, h4, g5]; rfl

/-- **C84.** With a factory that returns an iterator over a new non-empty list every time, the calls of
a program all succeed and emit the concatenation of these lists, beginning with the second (the first
serves the constructor to check that it is not empty). -/
theorem C84_concatenation (ls : Nat → List α) (hne : ∀ k, ls k ≠ []) (fuel : Nat)
    (rest : Nat → Src α) (ns : List (Option Nat)) :
    ∃ o s, init (.ofSources fun k => .fin (ls k)) false (0, rest) = (.ok o, s) ∧
      ∃ vs p', callsOf (fuel + 1) ns (o, s) = (.ok vs, p') ∧
        vs.length = (ns.map (·.getD 1)).sum ∧ ∃ m, vs <+: itemsOf ls 1 m := by
  have hcalls : ∀ (ns : List (Option Nat))
      (p : IterObj (Nat × (Nat → Src α)) Nat α × (Nat × (Nat → Src α))), OfLists ls p →
      p.1.resetAfterCall = false →
      ∃ vs p', callsOf (fuel + 1) ns p = (.ok vs, p') ∧ vs.length = (ns.map (·.getD 1)).sum ∧
        ∃ d, ∀ m, pending ls p (d + m) = vs ++ pending ls p' m := by
    intro ns
    induction ns with
    | nil => intro p hp _; exact ⟨[], p, rfl, rfl, 0, fun m => by simp⟩
    | cons n ns ih =>
      intro p hp hr
      obtain ⟨as, p1, h1, h2, h3, h4, d, h5⟩ := ofLists_take ls hne fuel (n.getD 1) p hp
      have hc : call (fuel + 1) (n.map Int.ofNat) p = (.ok as, p1) := by
        rw [show p = (p.1, p.2) from rfl, call_eq _ n p.1 hp.2.1, PyM.bind_ok h1,
          show p1 = (p1.1, p1.2) from rfl, PyM.bind_ok (afterCall_run p1.1 p1.2), h3.trans hr]
        have h6 := h3.trans hr
        revert h6
        obtain ⟨⟨f, b, g⟩, s⟩ := p1
        rintro rfl
        rfl
      obtain ⟨vs, p2, g1, g2, d', g3⟩ := ih p1 h2 (h3.trans hr)
      refine ⟨as ++ vs, p2, ?_, by simp [h4, g2], d + d', fun m => ?_⟩
      · unfold callsOf
        rw [PyM.bind_ok hc, PyM.bind_ok g1]
        rfl
      · rw [Nat.add_assoc, h5, g3, List.append_assoc]
  obtain ⟨a, l, hl⟩ := List.exists_cons_of_ne_nil (hne 0)
  refine ⟨⟨.ofSources fun k => .fin (ls k), false, .fresh⟩,
    (1, fun i => if i = 0 then .fin l else if i = 0 then .fin (ls 0) else rest i), ?_, ?_⟩
  · unfold IterObj.init
    rw [IterObj.setFactory_run]
    simp only [checkIterFactory, IterFac.ofSources, if_true, hl, Src.next]
  · obtain ⟨vs, p', h1, h2, d, h3⟩ := hcalls ns (⟨.ofSources fun k => .fin (ls k), false, .fresh⟩,
      (1, fun i => if i = 0 then .fin l else if i = 0 then .fin (ls 0) else rest i))
      ⟨rfl, by simp, by simp⟩ rfl
    refine ⟨vs, p', ?_, h2, d, ?_⟩
    · simpa using h1
    · have := h3 0
      rw [show pending ls _ (d + 0) = itemsOf ls 1 d by simp [pending]] at this
      exact ⟨_, this.symm⟩

/-! ### Factories with the same sequence every time -/

/-- The operation of `Model/IterFactory` for one of `Model/Fixed`: the factory returns an equal
iterator every time. -/
def IterOp.constant : IterOp α → IterObjOp (Nat × (Nat → Src α)) Nat α
  | .call n => .call n
  | .reset => .reset
  | .setFactory f => .setFactory (.ofSources fun _ => f.src)
  | .setResetAfterCall b => .setResetAfterCall b

/-- The same emitter in the two models. -/
def SameConst (p : IterSt α) (q : IterObj (Nat × (Nat → Src α)) Nat α × (Nat × (Nat → Src α))) : Prop :=
  p.factory.src.next ≠ none ∧ q.1.factory = .ofSources (fun _ => p.factory.src) ∧
    q.1.resetAfterCall = p.resetAfterCall ∧
    ((q.1.gen = .fresh ∧ p.cur = .fin []) ∨ ∃ it, q.1.gen = .inside it ∧ it < q.2.1 ∧ q.2.2 it = p.cur)

theorem const_loop (fuel : Nat) (p : IterSt α)
    (o : IterObj (Nat × (Nat → Src α)) Nat α) (s : Nat × (Nat → Src α)) (a : α) (r : Src α)
    (hr : p.factory.src.next = some (a, r))
    (hf : o.factory = .ofSources (fun _ => p.factory.src)) (hb : o.resetAfterCall = p.resetAfterCall) :
    (loop (fuel + 1) (o, s)).1 = .ok a ∧ SameConst { p with cur := r } (loop (fuel + 1) (o, s)).2 := by
  obtain ⟨f, b, g⟩ := o
  dsimp only at hf hb
  subst hf hb
  obtain ⟨k, rest⟩ := s
  rw [loop_succ]
  simp only [IterFac.ofSources, if_true, hr]
  exact ⟨trivial, by simp [hr], rfl, rfl, .inr ⟨k, rfl, Nat.lt_succ_self k, by simp⟩⟩

theorem const_next (fuel : Nat) :
    PyM.Rel (SameConst (α := α)) Iterative.nextItem (nextItem (fuel + 1)) := by
  rintro p ⟨o, s⟩ ⟨h1, h2, h3, h4⟩
  dsimp only at h2 h3 h4
  rcases hr : p.factory.src.next with _ | ⟨a, r⟩
  · exact absurd hr h1
  have hl := fun s => const_loop fuel p o s a r hr h2 h3
  rcases h4 with ⟨hg, hc⟩ | ⟨it, hg, hlt, hc⟩
  · rw [nextItem_fresh _ o hg]
    unfold Iterative.nextItem
    rw [hc, hr]
    exact ⟨(hl s).1.symm, (hl s).2⟩
  · have hnext : o.factory.next it s = match (s.2 it).next with
      | none => (.ok none, s)
      | some (a, r) => (.ok (some a), (s.1, fun i => if i = it then r else s.2 i)) := by
      rw [h2]; rfl
    rw [nextItem_inside _ o hg, hnext, hc]
    unfold Iterative.nextItem
    rcases hn : p.cur.next with _ | ⟨b, q⟩
    · simp only [hr]
      exact ⟨(hl s).1.symm, (hl s).2⟩
    · exact ⟨rfl, h1, h2, h3, .inr ⟨it, hg, hlt, by simp⟩⟩

theorem const_take (fuel n : Nat) :
    PyM.Rel (SameConst (α := α)) (Iterative.takeItems n) (takeItems (fuel + 1) n) := by
  induction n with
  | zero => exact .pure _ _
  | succ n ih =>
    rintro p ⟨o, s⟩ h
    have hg : o.gen ≠ .dead := by
      rcases h.2.2.2 with ⟨hg, -⟩ | ⟨it, hg, -⟩ <;> (dsimp only at hg; rw [hg]; simp)
    rw [takeItems_succ _ n o hg]
    exact PyM.Rel.bind (const_next fuel) (fun a => PyM.Rel.bind ih fun as => .pure _ _) _ _ h

theorem const_after : PyM.Rel (SameConst (α := α)) Iterative.afterCall afterCall := by
  rintro ⟨pf, pb, pc⟩ ⟨⟨f, b, g⟩, s⟩ ⟨h1, h2, h3, h4⟩
  rw [afterCall_run]
  dsimp only at h1 h2 h3 h4
  subst h3
  cases b with
  | false => exact ⟨rfl, h1, h2, rfl, h4⟩
  | true => exact ⟨rfl, h1, h2, rfl, .inl ⟨rfl, rfl⟩⟩

theorem const_call (fuel : Nat) (n : Option Int) :
    PyM.Rel (SameConst (α := α)) (Iterative.call n) (call (fuel + 1) n) := by
  have h1 : PyM.Rel (SameConst (α := α)) (Iterative.call none) (call (fuel + 1) none) :=
    .bind (.bind (const_next fuel) fun a => .bind const_after fun _ => .pure _ _) fun a => .pure _ _
  rcases n with _ | n
  · exact h1
  · by_cases hn : n = 1
    · subst hn; exact h1
    · unfold Iterative.call call
      simp only [if_neg hn]
      unfold Iterative.emitMany emitMany
      by_cases h0 : n < 0
      · simp only [if_pos h0]; exact .raise _ _
      · simp only [if_neg h0]
        exact .bind (const_take fuel _) fun as => .bind const_after fun _ => .pure _ _

theorem const_check (f : Factory α) (s : Nat × (Nat → Src α)) :
    ∃ t, checkIterFactory (.ofSources fun _ => f.src) s = (Iterative.checkIterFactory f, t) ∧
      t.1 = s.1 + 1 ∧ ∀ it < s.1, t.2 it = s.2 it := by
  unfold checkIterFactory Iterative.checkIterFactory
  simp only [IterFac.ofSources, if_true]
  rcases f.src.next with _ | ⟨a, r⟩
  · refine ⟨_, rfl, rfl, fun it h => ?_⟩
    dsimp only
    rw [if_neg (by omega)]
  · refine ⟨_, rfl, rfl, fun it h => ?_⟩
    dsimp only
    rw [if_neg (by omega), if_neg (by omega)]

theorem const_setFactory (f : Factory α) :
    PyM.Rel (SameConst (α := α)) (Iterative.setFactory f) (setFactory (.ofSources fun _ => f.src)) := by
  rintro p ⟨o, s⟩ ⟨h1, h2, h3, h4⟩
  rw [IterObj.setFactory_run]
  obtain ⟨t, ht, ht1, ht2⟩ := const_check f s
  rw [ht]
  unfold Iterative.setFactory
  rw [PyM.bind_apply]
  unfold PyM.lift Iterative.checkIterFactory
  rcases hf : f.src.next with _ | ⟨a, r⟩
  · refine ⟨rfl, h1, h2, h3, ?_⟩
    rcases h4 with h | ⟨it, hg, hlt, hc⟩
    · exact .inl h
    · exact .inr ⟨it, hg, by dsimp only at hlt ⊢; omega, (ht2 it hlt).trans hc⟩
  · exact ⟨rfl, by change f.src.next ≠ none; rw [hf]; simp, rfl, h3, .inl ⟨rfl, rfl⟩⟩

/-- What a user sees of a number of operations, in `Model/Fixed`. -/
def iterOutputs : List (IterOp α) → IterSt α → List (Except Err (List α))
  | [], _ => []
  | o :: os, s => (o.runIter s).1 :: iterOutputs os (o.runIter s).2

/-- **C84.** With factories that return an equal iterator every time, the emitter behaves as the
`Iterative` of `Model/Fixed`, for every history: the properties proved for that model hold for
this one. -/
theorem C84_constant (fuel : Nat) (f : Factory α) (rac : Bool) (s : Nat × (Nat → Src α))
    (ops : List (IterOp α)) :
    match Iterative.init f rac, IterObj.init (.ofSources fun _ => f.src) rac s with
    | .ok st, (.ok o, t) => iterObjOutputs (fuel + 1) (ops.map IterOp.constant) (o, t) = iterOutputs ops st
    | .error e, (.error e', _) => e = e'
    | _, _ => False := by
  have key : ∀ (p : IterSt α) (q), SameConst p q →
      iterObjOutputs (fuel + 1) (ops.map IterOp.constant) q = iterOutputs ops p := by
    induction ops with
    | nil => intros; rfl
    | cons op ops ih =>
      intro p q h
      have hop : PyM.Rel (SameConst (α := α)) op.runIter (op.constant.run (fuel + 1)) := by
        cases op with
        | call n => exact const_call fuel n
        | reset =>
          refine .bind ?_ fun _ => .pure _ _
          rintro p q ⟨h1, h2, h3, h4⟩
          exact ⟨rfl, h1, h2, h3, .inl ⟨rfl, rfl⟩⟩
        | setFactory f => exact .bind (const_setFactory f) fun _ => .pure _ _
        | setResetAfterCall b =>
          refine .bind ?_ fun _ => .pure _ _
          rintro p q ⟨h1, h2, h3, h4⟩
          exact ⟨rfl, h1, h2, rfl, h4⟩
      have h1 := hop p q h
      change _ :: iterObjOutputs (fuel + 1) (ops.map IterOp.constant) _ = _ :: iterOutputs ops _
      rw [h1.1, ih _ _ h1.2]
  unfold Iterative.init IterObj.init
  rw [IterObj.setFactory_run]
  obtain ⟨t, ht, ht1, ht2⟩ := const_check f s
  rw [ht]
  unfold Iterative.setFactory
  rw [PyM.bind_apply]
  unfold PyM.lift Iterative.checkIterFactory
  rcases hf : f.src.next with _ | ⟨a, r⟩
  · rfl
  · exact key _ _ ⟨by change f.src.next ≠ none; rw [hf]; simp, rfl, rfl, .inl ⟨rfl, rfl⟩⟩

/-! ### Where it goes wrong -/

/-- `def f(): yield 1; raise Error`: a factory whose iterators give one value and then raise an
exception.  The state is whether the last iterator has given its value. -/
def brittle : IterFac Bool Unit Nat where
  make _ := (.ok ⟨⟩, false)
  next _ s := if s then (.error (.user 0), true) else (.ok (some 1), true)

/-- **C84 violated.** After an exception of an iterator the emitter does not go on: until a reset it
raises `StopIteration` when asked for one value, and returns an empty list whatever number of values
it is asked for. -/
theorem C84_exception_violated :
    ∃ o, IterObj.init brittle false false = (.ok o, true) ∧
      ∀ fuel, iterObjOutputs (fuel + 1)
        [.call none, .call none, .call none, .call (some 3), .call none, .reset, .call none] (o, true) =
        [.ok [1], .error (.user 0), .error .stopIteration, .ok [], .error .stopIteration, .ok [], .ok [1]] := by
  refine ⟨⟨brittle, false, .fresh⟩, rfl, fun fuel => ?_⟩
  have h1 : IterObjOp.run (fuel + 1) (.call none) (⟨brittle, false, .fresh⟩, true) =
      (.ok [1], (⟨brittle, false, .inside ⟨⟩⟩, true)) := rfl
  have h2 : IterObjOp.run (fuel + 1) (.call none) (⟨brittle, false, .inside ⟨⟩⟩, true) =
      (.error (.user 0), (⟨brittle, false, .dead⟩, true)) := rfl
  have h3 : IterObjOp.run (fuel + 1) (.call none) (⟨brittle, false, .dead⟩, true) =
      (.error .stopIteration, (⟨brittle, false, .dead⟩, true)) := rfl
  have h4 : IterObjOp.run (fuel + 1) (.call (some 3)) (⟨brittle, false, .dead⟩, true) =
      (.ok [], (⟨brittle, false, .dead⟩, true)) := rfl
  have h5 : IterObjOp.run (fuel + 1) .reset (⟨brittle, false, .dead⟩, true) =
      (.ok [], (⟨brittle, false, .fresh⟩, true)) := rfl
  simp only [iterObjOutputs, h1, h2, h3, h4, h5]

/-- **C84 violated.** With `lambda: it` the check in the constructor takes the first value away, and
when the iterator is used up, a call never returns. -/
theorem C84_shared_violated :
    ∃ o, IterObj.init .shared false (Src.fin [1, 2, 3]) = (.ok o, Src.fin [2, 3]) ∧
      ∀ fuel, iterObjOutputs (fuel + 1) [.call none, .call (some 3)] (o, Src.fin [2, 3]) =
        [.ok [2], .error .diverges] := by
  have hl : ∀ (fuel : Nat) (b : Bool) (g : GenSt Unit),
      loop fuel (⟨.shared, b, g⟩, Src.fin ([] : List Nat)) =
        (.error .diverges, (⟨.shared, b, g⟩, Src.fin [])) := by
    intro fuel b g
    induction fuel with
    | zero => rfl
    | succ fuel ih => rw [loop_succ]; exact ih
  refine ⟨⟨.shared, false, .fresh⟩, rfl, fun fuel => ?_⟩
  have h1 : IterObjOp.run (fuel + 1) (.call none) (⟨.shared, false, .fresh⟩, Src.fin [2, 3]) =
      (.ok [2], (⟨.shared, false, .inside ⟨⟩⟩, Src.fin [3])) := rfl
  have h2 : (IterObjOp.run (fuel + 1) (.call (some 3)) (⟨.shared, false, .inside ⟨⟩⟩, Src.fin [3])).1 =
      (.error .diverges : Except Err (List Nat)) := by
    change (call (fuel + 1) (Option.map Int.ofNat (some 3)) _).1 = _
    rw [call_eq _ _ _ (by simp), PyM.bind_apply]
    have : takeItems (fuel + 1) 3 (⟨.shared, false, .inside ⟨⟩⟩, Src.fin [3]) =
        (.error .diverges, (⟨.shared, false, .inside ⟨⟩⟩, Src.fin ([] : List Nat))) := by
      rw [takeItems_succ _ _ _ (by simp)]
      have g1 : nextItem (fuel + 1) (⟨.shared, false, .inside ⟨⟩⟩, Src.fin [3]) =
          (.ok 3, (⟨.shared, false, .inside ⟨⟩⟩, Src.fin [])) := rfl
      have g2 : nextItem (fuel + 1) (⟨.shared, false, .inside ⟨⟩⟩, Src.fin []) =
          (.error .diverges, (⟨.shared, false, .inside ⟨⟩⟩, Src.fin ([] : List Nat))) := by
        rw [nextItem_inside _ _ rfl]
        exact hl _ _ _
      have g3 : takeItems (fuel + 1) 2 (⟨.shared, false, .inside ⟨⟩⟩, Src.fin []) =
          (.error .diverges, (⟨.shared, false, .inside ⟨⟩⟩, Src.fin ([] : List Nat))) := by
        rw [takeItems_succ _ _ _ (by simp)]
        exact PyM.bind_err g2
      rw [PyM.bind_ok g1]
      exact PyM.bind_err g3
    rw [show (some 3 : Option Nat).getD 1 = 3 from rfl, this]
  change [_, _] = _
  rw [h1, h2]

/-! Concrete cases. -/

/-- Lists of growing length: `[0]`, `[1, 1]`, `[2, 2, 2]`, ... -/
def growing (k : Nat) : List Nat := List.replicate (k + 1) k

example : iterObjOutputs 1 [.call (some 3), .call none, .reset, .call (some 2), .call (some (-1)),
    .setResetAfterCall true, .call (some 3), .call none]
    (⟨.ofSources fun k => .fin (growing k), false, .fresh⟩, (1, fun _ => .fin [])) =
    [.ok [1, 1, 2], .ok [2], .ok [], .ok [3, 3], .error .valueError, .ok [], .ok [3, 3, 4], .ok [5]] := by
  decide +kernel

/-- The record of a call: an empty iterator is passed over. -/
example : (call 2 (some 3) (⟨(IterFac.ofSources fun k => if k = 1 then .fin [] else .fin [k, k]).logged,
    false, .fresh⟩, ((0, fun _ => .fin []), []))).2.2.2 =
    [.made 0, .gave 0 0, .gave 0 0, .ended 0, .made 1, .ended 1, .made 2, .gave 2 2] := by
  decide +kernel

example : ∃ o s, init (.ofSources fun k => .fin (growing k)) false (0, fun _ => .fin []) = (.ok o, s) ∧
    ∃ vs p', callsOf 1 [some 4, none, some 2] (o, s) = (.ok vs, p') ∧
      vs.length = 7 ∧ ∃ m, vs <+: itemsOf growing 1 m :=
  C84_concatenation growing (by simp [growing]) 0 _ [some 4, none, some 2]

end Fauxdoc
