import Verif.Spec.Alias
/-
C86: the lists in documents as objects.
-/
namespace Fauxdoc.Alias
variable {G : Type}
open PyM

/-! ### Nothing that is in use is changed -/

theorem Untouched.refl (m : Mem) : Untouched m m := ⟨le_rfl, fun _ _ => rfl⟩
theorem Untouched.trans {a b c : Mem} (h : Untouched a b) (h' : Untouched b c) : Untouched a c :=
  ⟨h.1.trans h'.1, fun x hx => (h'.2 x (lt_of_lt_of_le hx h.1)).trans (h.2 x hx)⟩

/-- A computation that leaves the list objects alone. -/
def Quiet {α : Type} (m : PyM (State G) α) : Prop := ∀ s, Untouched s.mem (m s).2.mem

theorem quiet_same {α : Type} {m : PyM (State G) α} (h : ∀ s, (m s).2.mem = s.mem) : Quiet m :=
  fun s => by rw [h s]; exact .refl _

theorem Quiet.bind {α β : Type} {m : PyM (State G) α} {k : α → PyM (State G) β} (h : Quiet m)
    (hk : ∀ a, Quiet (k a)) : Quiet (m >>= k) := by
  intro s
  have := h s
  rw [bind_apply]
  revert this
  rcases m s with ⟨x | a, t⟩
  · exact id
  · exact fun h => h.trans (hk a t)

theorem quiet_pure {α : Type} (a : α) : Quiet (pure a : PyM (State G) α) := quiet_same fun _ => rfl
theorem quiet_raise {α : Type} (x : Err) : Quiet (raise x : PyM (State G) α) := quiet_same fun _ => rfl
theorem quiet_get : Quiet (get : PyM (State G) (State G)) := quiet_same fun _ => rfl
theorem quiet_onGen {α : Type} (m : PyM G α) : Quiet (onGen m) := quiet_same fun _ => rfl
theorem quiet_members (v : PVal) : Quiet (members (G := G) v) :=
  quiet_same fun s => by unfold members; cases v <;> rfl
theorem quiet_setCache (f : Ref) (v : PVal) : Quiet (setCache (G := G) f v) := quiet_same fun _ => rfl

theorem untouched_new (m : Mem) (l : List PVal) :
    Untouched m ⟨fun a => if a = m.next then l else m.lists a, m.next + 1⟩ :=
  ⟨Nat.le_succ _, fun _ ha => if_neg (Nat.ne_of_lt ha)⟩

theorem quiet_new (l : List PVal) : Quiet (new (G := G) l) := fun s => untouched_new s.mem l

theorem quiet_apply (cb : Callback G) (args : List PVal) : Quiet (apply cb args) := by
  unfold apply
  refine quiet_get.bind fun s => (quiet_onGen _).bind fun o => ?_
  cases o with
  | one p => exact quiet_pure _
  | list ps => exact quiet_new _

theorem quiet_call {e : Emitter G} (h1 : Quiet e.emit) (h2 : ∀ n, Quiet (e.emitMany n)) (arg : PVal) :
    Quiet (e.call arg) := by
  cases arg with
  | list x => exact quiet_raise _
  | atom a =>
    have key : ∀ n : Int, Quiet (if n = 1 then e.emit >>= fun v => new [v] else e.emitMany n) := by
      intro n
      split
      · exact h1.bind fun v => quiet_new _
      · exact h2 n
    cases a with
    | none => exact h1
    | bool b => cases b <;> exact key _
    | int i => exact key i
    | str s => exact quiet_raise _
    | other n => exact quiet_raise _

theorem quiet_applyAll (cb : Callback G) : ∀ l, Quiet (applyAll cb l)
  | [] => quiet_pure _
  | v :: vs => (quiet_apply cb v).bind fun _ => (quiet_applyAll cb vs).bind fun _ => quiet_pure _

theorem quiet_callAll (arg : PVal) : ∀ es : List (Emitter G), (∀ e ∈ es, Quiet (e.call arg)) →
    Quiet (callAll arg es)
  | [], _ => quiet_pure _
  | e :: es, h => (h e (by simp)).bind fun _ =>
    (quiet_callAll arg es fun x hx => h x (List.mem_cons_of_mem _ hx)).bind fun _ => quiet_pure _

theorem quiet_membersAll : ∀ vs : List PVal, Quiet (membersAll (G := G) vs)
  | [] => quiet_pure _
  | v :: vs => (quiet_members v).bind fun _ => (quiet_membersAll vs).bind fun _ => quiet_pure _

theorem quiet_column (i : Nat) : ∀ ls : List (List PVal), Quiet (column (G := G) i ls)
  | [] => quiet_pure _
  | l :: ls => by
    unfold column
    cases l[i]? with
    | none => exact quiet_raise _
    | some v => exact (quiet_column i ls).bind fun _ => quiet_pure _

theorem quiet_rows (cb : Callback G) (ls : List (List PVal)) : ∀ k i, Quiet (rows cb ls i k)
  | 0, _ => quiet_pure _
  | k + 1, i => (quiet_column i ls).bind fun a => (quiet_apply cb a).bind fun _ =>
    (quiet_rows cb ls k (i + 1)).bind fun _ => quiet_pure _

theorem quiet_copyEmit (str : View → List Char) (source : List Ref) (single : Bool)
    (sep : Option (List Char)) : Quiet (copyEmit (G := G) str source single sep) := by
  unfold copyEmit
  refine quiet_get.bind fun s => ?_
  split
  · split
    · exact quiet_raise _
    · exact quiet_pure _
  · split
    · dsimp only
      split
      · exact quiet_pure _
      · exact quiet_new _
    · exact quiet_pure _

theorem quiet_repeated {m : PyM (State G) PVal} (h : Quiet m) (n : Int) : Quiet (repeated m n) :=
  h.bind fun _ => quiet_new _

theorem Lib.quiet {e : Emitter G} (h : Lib e) : Quiet e.emit ∧ ∀ n, Quiet (e.emitMany n) := by
  induction h with
  | leaf one many => exact ⟨quiet_onGen _, fun n => (quiet_onGen _).bind fun _ => quiet_new _⟩
  | wrapOne cb _ ih =>
    exact ⟨ih.1.bind fun v => quiet_apply cb _, fun n => (quiet_call ih.1 ih.2 _).bind fun l =>
      (quiet_members l).bind fun vs => (quiet_applyAll cb _).bind fun xs => quiet_new _⟩
  | wrapMany cb _ ih =>
    exact ⟨(quiet_callAll _ _ fun e he => quiet_call (ih e he).1 (ih e he).2 _).bind fun vs =>
      quiet_apply cb _, fun n =>
      (quiet_callAll _ _ fun e he => quiet_call (ih e he).1 (ih e he).2 _).bind fun vs =>
        (quiet_membersAll _).bind fun ls => (quiet_rows cb _ _ _).bind fun xs => quiet_new _⟩
  | copyFields str source single sep =>
    exact ⟨quiet_copyEmit _ _ _ _, fun n => quiet_repeated (quiet_copyEmit _ _ _ _) n⟩
  | basedOnFields source cb =>
    have : Quiet (basedOnEmit source cb) := quiet_get.bind fun s => quiet_apply cb _
    exact ⟨this, fun n => quiet_repeated this n⟩

theorem Lib.quiet_call {e : Emitter G} (h : Lib e) (arg : PVal) : Quiet (e.call arg) :=
  Alias.quiet_call h.quiet.1 h.quiet.2 arg

theorem quiet_field {f : FieldObj G} (h1 : Lib f.emitter) (h2 : Lib f.rep) (h3 : Lib f.gate) :
    Quiet f.call := by
  unfold FieldObj.call
  refine h3.quiet.1.bind fun g => quiet_get.bind fun s => ?_
  split
  · exact h2.quiet.1.bind fun n => (h1.quiet_call n).bind fun v =>
      (quiet_setCache _ _).bind fun _ => quiet_pure _
  · exact (quiet_setCache _ _).bind fun _ => quiet_pure _

/-- **C86.** Making a document, or anything else emitters do, changes no list that exists: no list in
a document made earlier, and none that the user gave to an emitter. -/
theorem C86_never_changed (fields : List (FieldObj G))
    (h : ∀ f ∈ fields, Lib f.emitter ∧ Lib f.rep ∧ Lib f.gate) (s : State G) :
    Untouched s.mem (document fields s).2.mem := by
  suffices Quiet (document fields) from this s
  clear s
  induction fields with
  | nil => exact quiet_pure _
  | cons f fs ih =>
    obtain ⟨h1, h2, h3⟩ := h f (by simp)
    exact (quiet_field h1 h2 h3).bind fun v =>
      (ih fun f hf => h f (List.mem_cons_of_mem _ hf)).bind fun d => quiet_pure _

theorem C86_emitter_never_changes {e : Emitter G} (h : Lib e) (arg : PVal) (s : State G) :
    Untouched s.mem (e.call arg s).2.mem := h.quiet_call arg s

/-- A computation that ends by making a list returns a new one. -/
theorem bind_new {α : Type} {m : PyM (State G) α} (h : Quiet m) {k : α → PyM (State G) PVal}
    (hk : ∀ a s v, (k a s).1 = .ok v → ∃ x, v = .list x ∧ s.mem.next ≤ x) (s : State G) (v : PVal)
    (hv : ((m >>= k) s).1 = .ok v) : ∃ x, v = .list x ∧ s.mem.next ≤ x := by
  have := (h s).1
  rw [bind_apply] at hv
  revert this hv
  rcases m s with ⟨x | a, t⟩
  · intro hv _; cases hv
  · intro hv h1
    obtain ⟨x, h2, h3⟩ := hk a t v hv
    exact ⟨x, h2, h1.trans h3⟩

theorem new_new (l : List PVal) (s : State G) (v : PVal) (hv : (new l s).1 = .ok v) :
    ∃ x, v = .list x ∧ s.mem.next ≤ x := by
  cases hv; exact ⟨_, rfl, le_rfl⟩

/-- **C86.** Called with a number, every emitter returns a list of its own, whatever its items are. -/
theorem C86_new_list {e : Emitter G} (h : Lib e) (n : Int) (s : State G) (v : PVal)
    (hv : (e.call (.atom (.int n)) s).1 = .ok v) : ∃ x, v = .list x ∧ s.mem.next ≤ x := by
  by_cases hn : n = 1
  · have : e.call (.atom (.int n)) = e.emit >>= fun v => new [v] := if_pos hn
    rw [this] at hv
    exact bind_new h.quiet.1 (fun a => new_new _) s v hv
  · have : e.call (.atom (.int n)) = e.emitMany n := if_neg hn
    rw [this] at hv
    clear this
    cases h with
    | leaf one many => exact bind_new (quiet_onGen _) (fun a => new_new _) s v hv
    | wrapOne cb h =>
      exact bind_new (h.quiet_call _) (fun l s v hv => bind_new (quiet_members l) (fun vs s v hv =>
        bind_new (quiet_applyAll cb _) (fun xs => new_new _) s v hv) s v hv) s v hv
    | wrapMany cb h =>
      exact bind_new (quiet_callAll _ _ fun e he => (h e he).quiet_call _) (fun l s v hv =>
        bind_new (quiet_membersAll l) (fun vs s v hv =>
        bind_new (quiet_rows cb _ _ _) (fun xs => new_new _) s v hv) s v hv) s v hv
    | copyFields str source single sep =>
      exact bind_new (quiet_copyEmit _ _ _ _) (fun a => new_new _) s v hv
    | basedOnFields source cb =>
      exact bind_new (quiet_get.bind fun s => quiet_apply cb _) (fun a => new_new _) s v hv

/-! ### Two runs -/

/-- Values that look the same and consist of new list objects (`n`, `n'` and above) only; `d` bounds the
depth. -/
def Rel (n n' : Nat) (m m' : Mem) : Nat → PVal → PVal → Prop
  | 0 => fun v w => ∃ a, v = .atom a ∧ w = .atom a
  | d + 1 => fun v w => (∃ a, v = .atom a ∧ w = .atom a) ∨ ∃ x y, v = .list x ∧ w = .list y ∧
      n ≤ x ∧ x < m.next ∧ n' ≤ y ∧ y < m'.next ∧ List.Forall₂ (Rel n n' m m' d) (m.lists x) (m'.lists y)

section
variable {n n' : Nat}

theorem Rel.atom {m m' : Mem} (d : Nat) (a : Atom) : Rel n n' m m' d (.atom a) (.atom a) := by
  cases d with
  | zero => exact ⟨a, rfl, rfl⟩
  | succ d => exact .inl ⟨a, rfl, rfl⟩

theorem Rel.succ {m m' : Mem} : ∀ {d : Nat} {v w : PVal}, Rel n n' m m' d v w → Rel n n' m m' (d + 1) v w
  | 0, _, _, h => .inl h
  | _ + 1, _, _, .inl h => .inl h
  | _ + 1, _, _, .inr ⟨x, y, h1, h2, h3, h4, h5, h6, h7⟩ =>
    .inr ⟨x, y, h1, h2, h3, h4, h5, h6, h7.imp fun _ _ h => Rel.succ h⟩

theorem Rel.le {m m' : Mem} {d e : Nat} (hde : d ≤ e) {v w : PVal} (h : Rel n n' m m' d v w) :
    Rel n n' m m' e v w := by
  induction hde with
  | refl => exact h
  | step _ ih => exact ih.succ

theorem Rel.ext {m m' t t' : Mem} (h1 : Untouched m t) (h2 : Untouched m' t') :
    ∀ {d : Nat} {v w : PVal}, Rel n n' m m' d v w → Rel n n' t t' d v w
  | 0, _, _, h => h
  | _ + 1, _, _, .inl h => .inl h
  | _ + 1, _, _, .inr ⟨x, y, g1, g2, g3, g4, g5, g6, g7⟩ =>
    .inr ⟨x, y, g1, g2, g3, lt_of_lt_of_le g4 h1.1, g5, lt_of_lt_of_le g6 h2.1, by
      rw [h1.2 x g4, h2.2 y g6]; exact g7.imp fun _ _ h => Rel.ext h1 h2 h⟩

theorem Rel.read {m m' : Mem} : ∀ {d : Nat} {v w : PVal}, Rel n n' m m' d v w →
    ∀ k, read m k v = read m' k w
  | _, _, _, _, 0 => rfl
  | 0, _, _, ⟨a, h1, h2⟩, k + 1 => by rw [h1, h2]; rfl
  | _ + 1, _, _, .inl ⟨a, h1, h2⟩, k + 1 => by rw [h1, h2]; rfl
  | d + 1, _, _, .inr ⟨x, y, g1, g2, _, _, _, _, g7⟩, k + 1 => by
    rw [g1, g2]
    simp only [Alias.read]
    congr 1
    have : ∀ {l l' : List PVal}, List.Forall₂ (Rel n n' m m' d) l l' →
        l.map (Alias.read m k) = l'.map (Alias.read m' k) := by
      intro l l' h
      induction h with
      | nil => rfl
      | cons h _ ih => rw [List.map_cons, List.map_cons, Rel.read h k, ih]
    exact this g7

/-- Values that look the same and consist of new list objects only. -/
def Same (n n' : Nat) (m m' : Mem) (v w : PVal) : Prop := ∃ d, Rel n n' m m' d v w

theorem Same.atom {m m' : Mem} (a : Atom) : Same n n' m m' (.atom a) (.atom a) := ⟨0, .atom 0 a⟩

theorem Same.ext {m m' t t' : Mem} (h1 : Untouched m t) (h2 : Untouched m' t') {v w : PVal}
    (h : Same n n' m m' v w) : Same n n' t t' v w := h.imp fun _ h => h.ext h1 h2

theorem Same.cases {m m' : Mem} {v w : PVal} (h : Same n n' m m' v w) :
    (∃ a, v = .atom a ∧ w = .atom a) ∨ ∃ x y, v = .list x ∧ w = .list y ∧
      List.Forall₂ (Same n n' m m') (m.lists x) (m'.lists y) := by
  obtain ⟨_ | d, h⟩ := h
  · exact .inl h
  · rcases h with h | ⟨x, y, h1, h2, _, _, _, _, h7⟩
    · exact .inl h
    · exact .inr ⟨x, y, h1, h2, h7.imp fun _ _ h => ⟨d, h⟩⟩

theorem sames_depth {m m' : Mem} {l l' : List PVal} (h : List.Forall₂ (Same n n' m m') l l') :
    ∃ d, List.Forall₂ (Rel n n' m m' d) l l' := by
  induction h with
  | nil => exact ⟨0, .nil⟩
  | cons h _ ih =>
    obtain ⟨d, h⟩ := h
    obtain ⟨e, ih⟩ := ih
    exact ⟨max d e, .cons (h.le (le_max_left _ _)) (ih.imp fun _ _ h => h.le (le_max_right _ _))⟩

theorem sames_ext {m m' t t' : Mem} (h1 : Untouched m t) (h2 : Untouched m' t') {l l' : List PVal}
    (h : List.Forall₂ (Same n n' m m') l l') : List.Forall₂ (Same n n' t t') l l' :=
  h.imp fun _ _ h => h.ext h1 h2

/-- The states of two runs in which the rest of the state is the same and the fields in `S` have values
that look the same. -/
structure Agree (n n' : Nat) (S : List Ref) (s s' : State G) : Prop where
  gen : s.gen = s'.gen
  le : n ≤ s.mem.next
  le' : n' ≤ s'.mem.next
  cache : ∀ f ∈ S, Same n n' s.mem s'.mem (s.cache f) (s'.cache f)

/-- What two runs do from two states that agree. -/
structure TwinAt (n n' : Nat) {α : Type} (Q : Mem → Mem → α → α → Prop) (s s' : State G)
    (p p' : Except Err α × State G) : Prop where
  ext : Untouched s.mem p.2.mem
  ext' : Untouched s'.mem p'.2.mem
  cache : p.2.cache = s.cache
  cache' : p'.2.cache = s'.cache
  gen : p.2.gen = p'.2.gen
  out : (∃ x, p.1 = .error x ∧ p'.1 = .error x) ∨ ∃ v w, p.1 = .ok v ∧ p'.1 = .ok w ∧ Q p.2.mem p'.2.mem v w

/-- Two computations do the same on states that agree. -/
def Twin (n n' : Nat) (S : List Ref) {α : Type} (Q : Mem → Mem → α → α → Prop)
    (s s' : State G) (k k' : PyM (State G) α) : Prop :=
  ∀ t t', Untouched s.mem t.mem → Untouched s'.mem t'.mem → Agree n n' S t t' →
    TwinAt n n' Q t t' (k t) (k' t')

theorem Agree.after {S : List Ref} {s s' : State G} (h : Agree n n' S s s') {α : Type}
    {Q : Mem → Mem → α → α → Prop} {p p' : Except Err α × State G} (ht : TwinAt n n' Q s s' p p') :
    Agree n n' S p.2 p'.2 where
  gen := ht.gen
  le := h.le.trans ht.ext.1
  le' := h.le'.trans ht.ext'.1
  cache f hf := by rw [ht.cache, ht.cache']; exact (h.cache f hf).ext ht.ext ht.ext'

theorem TwinAt.bind {S : List Ref} {α β : Type} {Q : Mem → Mem → α → α → Prop}
    {Q' : Mem → Mem → β → β → Prop} {s s' : State G} (hs : Agree n n' S s s') {m m' : PyM (State G) α}
    {k k' : α → PyM (State G) β} (h : TwinAt n n' Q s s' (m s) (m' s'))
    (hk : ∀ v w t t', Untouched s.mem t.mem → Untouched s'.mem t'.mem → t.cache = s.cache →
      t'.cache = s'.cache → Agree n n' S t t' → Q t.mem t'.mem v w →
      TwinAt n n' Q' t t' (k v t) (k' w t')) :
    TwinAt n n' Q' s s' ((m >>= k) s) ((m' >>= k') s') := by
  have ha := hs.after h
  obtain ⟨h1, h2, h3, h4, h5, h6⟩ := h
  rw [bind_apply, bind_apply]
  generalize m s = p at h1 h2 h3 h4 h5 h6 ha ⊢
  generalize m' s' = p' at h1 h2 h3 h4 h5 h6 ha ⊢
  obtain ⟨r, t⟩ := p
  obtain ⟨r', t'⟩ := p'
  dsimp only at h1 h2 h3 h4 h5 h6 ha
  rcases h6 with ⟨x, rfl, rfl⟩ | ⟨v, w, rfl, rfl, hq⟩
  · exact ⟨h1, h2, h3, h4, h5, .inl ⟨x, rfl, rfl⟩⟩
  · obtain ⟨g1, g2, g3, g4, g5, g6⟩ := hk v w t t' h1 h2 h3 h4 ha hq
    exact ⟨h1.trans g1, h2.trans g2, g3.trans h3, g4.trans h4, g5, g6⟩

theorem twin_pure {S : List Ref} {α : Type} {Q : Mem → Mem → α → α → Prop} {s s' : State G}
    (hs : Agree n n' S s s') {v w : α} (h : Q s.mem s'.mem v w) :
    TwinAt n n' Q s s' ((pure v : PyM (State G) α) s) ((pure w : PyM (State G) α) s') :=
  ⟨.refl _, .refl _, rfl, rfl, hs.gen, .inr ⟨v, w, rfl, rfl, h⟩⟩

theorem twin_raise {S : List Ref} {α : Type} {Q : Mem → Mem → α → α → Prop} {s s' : State G}
    (hs : Agree n n' S s s') (x : Err) :
    TwinAt n n' Q s s' ((raise x : PyM (State G) α) s) ((raise x : PyM (State G) α) s') :=
  ⟨.refl _, .refl _, rfl, rfl, hs.gen, .inl ⟨x, rfl, rfl⟩⟩

/-- The same result. -/
def Eqv (α : Type) : Mem → Mem → α → α → Prop := fun _ _ v w => v = w

theorem twin_onGen {S : List Ref} {α : Type} {s s' : State G} (hs : Agree n n' S s s') (m : PyM G α) :
    TwinAt n n' (Eqv α) s s' (onGen m s) (onGen m s') := by
  have e : onGen m s = ((m s.gen).1, { s with gen := (m s.gen).2 }) := rfl
  have e' : onGen m s' = ((m s.gen).1, { s' with gen := (m s.gen).2 }) := by rw [hs.gen]; rfl
  rw [e, e']
  refine ⟨.refl _, .refl _, rfl, rfl, rfl, ?_⟩
  rcases (m s.gen).1 with x | v
  · exact .inl ⟨x, rfl, rfl⟩
  · exact .inr ⟨v, v, rfl, rfl, rfl⟩

/-- Lists of values that look the same. -/
abbrev Sames (n n' : Nat) : Mem → Mem → List PVal → List PVal → Prop :=
  fun m m' => List.Forall₂ (Same n n' m m')

theorem twin_new {S : List Ref} {s s' : State G} (hs : Agree n n' S s s') {l l' : List PVal}
    (h : Sames n n' s.mem s'.mem l l') : TwinAt n n' (Same n n') s s' (new l s) (new l' s') := by
  have u := untouched_new s.mem l
  have u' := untouched_new s'.mem l'
  obtain ⟨d, hd⟩ := sames_depth (sames_ext u u' h)
  refine ⟨u, u', rfl, rfl, hs.gen, .inr ⟨_, _, rfl, rfl, d + 1, .inr ⟨s.mem.next, s'.mem.next, rfl, rfl,
    hs.le, Nat.lt_succ_self _, hs.le', Nat.lt_succ_self _, ?_⟩⟩⟩
  simp only [new, if_true]
  exact hd

theorem sames_views {m m' : Mem} {l l' : List PVal} (h : Sames n n' m m' l l') :
    (l.map fun v d => read m d v) = l'.map fun v d => read m' d v := by
  induction h with
  | nil => rfl
  | cons h _ ih =>
    obtain ⟨d, h⟩ := h
    rw [List.map_cons, List.map_cons, ih, show (fun d => read m d _) = _ from funext h.read]

theorem same_piece {m m' : Mem} {l l' : List PVal} (h : Sames n n' m m' l l') (p : Piece) :
    Same n n' m m' (p.val l) (p.val l') := by
  cases p with
  | atom a => exact .atom a
  | arg i =>
    unfold Piece.val
    dsimp only
    induction h generalizing i with
    | nil => exact .atom _
    | cons h _ ih =>
      cases i with
      | zero => exact h
      | succ i => exact ih i

theorem twin_apply {S : List Ref} {s s' : State G} (hs : Agree n n' S s s') (cb : Callback G)
    {l l' : List PVal} (h : Sames n n' s.mem s'.mem l l') :
    TwinAt n n' (Same n n') s s' (apply cb l s) (apply cb l' s') := by
  unfold apply
  rw [run_get_bind, run_get_bind, sames_views h]
  refine (twin_onGen hs _).bind hs fun o o' t t' h1 h2 _ _ ha ho => ?_
  obtain rfl : o = o' := ho
  have h' := sames_ext h1 h2 h
  cases o with
  | one p => exact twin_pure ha (same_piece h' p)
  | list ps =>
    refine twin_new ha ?_
    induction ps with
    | nil => exact .nil
    | cons p ps ih => exact .cons (same_piece h' p) ih

/-- The methods of an emitter do the same. -/
def TwinEmitter (n n' : Nat) (S : List Ref) (e : Emitter G) : Prop :=
  ∀ s s', Agree n n' S s s' → TwinAt n n' (Same n n') s s' (e.emit s) (e.emit s') ∧
    ∀ i, TwinAt n n' (Same n n') s s' (e.emitMany i s) (e.emitMany i s')

theorem TwinEmitter.call {S : List Ref} {e : Emitter G} (h : TwinEmitter n n' S e) {s s' : State G}
    (hs : Agree n n' S s s') {v w : PVal} (hv : Same n n' s.mem s'.mem v w) :
    TwinAt n n' (Same n n') s s' (e.call v s) (e.call w s') := by
  rcases hv.cases with ⟨a, rfl, rfl⟩ | ⟨x, y, rfl, rfl, _⟩
  · have key : ∀ i : Int, TwinAt n n' (Same n n') s s'
        ((if i = 1 then e.emit >>= fun v => new [v] else e.emitMany i) s)
        ((if i = 1 then e.emit >>= fun v => new [v] else e.emitMany i) s') := by
      intro i
      split
      · exact (h s s' hs).1.bind hs fun v w t t' _ _ _ _ ha hq => twin_new ha (.cons hq .nil)
      · exact (h s s' hs).2 i
    cases a with
    | none => exact (h s s' hs).1
    | bool b =>
      cases b with
      | false => exact key 0
      | true => exact key 1
    | int i => exact key i
    | str s => exact twin_raise hs _
    | other n => exact twin_raise hs _
  · exact twin_raise hs _

theorem twin_members {S : List Ref} {s s' : State G} (hs : Agree n n' S s s') {v w : PVal}
    (hv : Same n n' s.mem s'.mem v w) : TwinAt n n' (Sames n n') s s' (members v s) (members w s') := by
  rcases hv.cases with ⟨a, rfl, rfl⟩ | ⟨x, y, rfl, rfl, h⟩
  · exact twin_raise hs _
  · exact ⟨.refl _, .refl _, rfl, rfl, hs.gen, .inr ⟨_, _, rfl, rfl, h⟩⟩

/-- Lists of lists. -/
abbrev Samess (n n' : Nat) : Mem → Mem → List (List PVal) → List (List PVal) → Prop :=
  fun m m' => List.Forall₂ (Sames n n' m m')

theorem samess_ext {m m' t t' : Mem} (h1 : Untouched m t) (h2 : Untouched m' t')
    {l l' : List (List PVal)} (h : Samess n n' m m' l l') : Samess n n' t t' l l' :=
  h.imp fun _ _ h => sames_ext h1 h2 h

theorem twin_applyAll {S : List Ref} (cb : Callback G) : ∀ {l l' : List (List PVal)} {s s' : State G},
    Agree n n' S s s' → Samess n n' s.mem s'.mem l l' →
    TwinAt n n' (Sames n n') s s' (applyAll cb l s) (applyAll cb l' s')
  | _, _, _, _, hs, .nil => twin_pure hs .nil
  | _, _, _, _, hs, .cons h h' =>
    (twin_apply hs cb h).bind hs fun _ _ _ _ h1 h2 _ _ ha hq =>
      (twin_applyAll cb ha (samess_ext h1 h2 h')).bind ha fun _ _ _ _ h3 h4 _ _ hb hq' =>
        twin_pure hb (.cons (hq.ext h3 h4) hq')

theorem twin_callAll {S : List Ref} : ∀ {es : List (Emitter G)}, (∀ e ∈ es, TwinEmitter n n' S e) →
    ∀ {s s' : State G}, Agree n n' S s s' → ∀ a : Atom,
    TwinAt n n' (Sames n n') s s' (callAll (.atom a) es s) (callAll (.atom a) es s')
  | [], _, _, _, hs, _ => twin_pure hs .nil
  | e :: _, h, _, _, hs, a =>
    ((h e (by simp)).call hs (.atom a)).bind hs fun _ _ _ _ _ _ _ _ ha hq =>
      (twin_callAll (fun x hx => h x (List.mem_cons_of_mem _ hx)) ha a).bind ha
        fun _ _ _ _ h3 h4 _ _ hb hq' => twin_pure hb (.cons (hq.ext h3 h4) hq')

theorem twin_membersAll {S : List Ref} : ∀ {l l' : List PVal} {s s' : State G},
    Agree n n' S s s' → Sames n n' s.mem s'.mem l l' →
    TwinAt n n' (Samess n n') s s' (membersAll l s) (membersAll l' s')
  | _, _, _, _, hs, .nil => twin_pure hs .nil
  | _, _, _, _, hs, .cons h h' =>
    (twin_members hs h).bind hs fun _ _ _ _ h1 h2 _ _ ha hq =>
      (twin_membersAll ha (sames_ext h1 h2 h')).bind ha fun _ _ _ _ h3 h4 _ _ hb hq' =>
        twin_pure hb (.cons (sames_ext h3 h4 hq) hq')

theorem forall₂_getElem? {α β : Type} {P : α → β → Prop} {l : List α} {l' : List β}
    (h : List.Forall₂ P l l') (i : Nat) :
    (l[i]? = none ∧ l'[i]? = none) ∨ ∃ a b, l[i]? = some a ∧ l'[i]? = some b ∧ P a b := by
  induction h generalizing i with
  | nil => exact .inl ⟨rfl, rfl⟩
  | cons h _ ih =>
    cases i with
    | zero => exact .inr ⟨_, _, rfl, rfl, h⟩
    | succ i => exact ih i

theorem twin_column {S : List Ref} (i : Nat) : ∀ {l l' : List (List PVal)} {s s' : State G},
    Agree n n' S s s' → Samess n n' s.mem s'.mem l l' →
    TwinAt n n' (Sames n n') s s' (column i l s) (column i l' s')
  | _, _, _, _, hs, .nil => twin_pure hs .nil
  | _, _, _, _, hs, .cons h h' => by
    unfold column
    rcases forall₂_getElem? h i with ⟨e, e'⟩ | ⟨a, b, e, e', hab⟩
    · rw [e, e']; exact twin_raise hs _
    · rw [e, e']
      exact (twin_column i hs h').bind hs fun _ _ _ _ h3 h4 _ _ hb hq' =>
        twin_pure hb (.cons (hab.ext h3 h4) hq')

theorem twin_rows {S : List Ref} (cb : Callback G) {l l' : List (List PVal)} :
    ∀ (k i : Nat) {s s' : State G}, Agree n n' S s s' → Samess n n' s.mem s'.mem l l' →
    TwinAt n n' (Sames n n') s s' (rows cb l i k s) (rows cb l' i k s')
  | 0, _, _, _, hs, _ => twin_pure hs .nil
  | k + 1, i, _, _, hs, h =>
    (twin_column i hs h).bind hs fun _ _ _ _ h1 h2 _ _ ha hq =>
      (twin_apply ha cb hq).bind ha fun _ _ _ _ h3 h4 _ _ hb hq1 =>
        (twin_rows cb k (i + 1) hb (samess_ext h3 h4 (samess_ext h1 h2 h))).bind hb
          fun _ _ _ _ h5 h6 _ _ hc hq2 => twin_pure hc (.cons (hq1.ext h5 h6) hq2)

theorem same_pieces {m m' : Mem} {v w : PVal} (h : Same n n' m m' v w) :
    Sames n n' m m' (pieces m v) (pieces m' w) := by
  rcases h.cases with ⟨a, rfl, rfl⟩ | ⟨x, y, rfl, rfl, hl⟩
  · cases a with
    | none => exact .nil
    | _ => exact .cons (.atom _) .nil
  · exact hl

theorem twin_copyEmit {S : List Ref} (str : View → List Char) {source : List Ref} (single : Bool)
    (sep : Option (List Char)) (h : ∀ f ∈ source, f ∈ S) {s s' : State G} (hs : Agree n n' S s s') :
    TwinAt n n' (Same n n') s s' (copyEmit str source single sep s) (copyEmit str source single sep s') := by
  unfold copyEmit
  rw [run_get_bind, run_get_bind]
  by_cases hsin : single = true
  · rw [if_pos hsin, if_pos hsin]
    cases source with
    | nil => exact twin_raise hs _
    | cons f fs => exact twin_pure hs (hs.cache f (h f (by simp)))
  · rw [if_neg hsin, if_neg hsin]
    have hv : Sames n n' s.mem s'.mem (source.flatMap fun f => pieces s.mem (s.cache f))
        (source.flatMap fun f => pieces s'.mem (s'.cache f)) := by
      clear hsin
      induction source with
      | nil => exact .nil
      | cons f fs ih =>
        rw [List.flatMap_cons, List.flatMap_cons]
        exact List.rel_append (same_pieces (hs.cache f (h f (by simp))))
          (ih fun x hx => h x (List.mem_cons_of_mem _ hx))
    generalize source.flatMap (fun f => pieces s.mem (s.cache f)) = l at hv ⊢
    generalize source.flatMap (fun f => pieces s'.mem (s'.cache f)) = l' at hv ⊢
    cases sep with
    | none =>
      cases hv with
      | nil => exact twin_pure hs (.atom _)
      | cons h1 h2 => exact twin_new hs (.cons h1 h2)
    | some sep =>
      dsimp only
      have e : (l.map fun v => str fun d => read s.mem d v) = l'.map fun v => str fun d => read s'.mem d v := by
        have := congrArg (List.map str) (sames_views hv)
        rwa [List.map_map, List.map_map] at this
      rw [e]
      exact twin_pure hs (.atom _)

theorem twin_repeated {S : List Ref} {m : PyM (State G) PVal} {s s' : State G} (hs : Agree n n' S s s')
    (h : TwinAt n n' (Same n n') s s' (m s) (m s')) (i : Int) :
    TwinAt n n' (Same n n') s s' (repeated m i s) (repeated m i s') :=
  h.bind hs fun v w t t' _ _ _ _ ha hq => twin_new ha (by
    induction i.toNat with
    | zero => exact .nil
    | succ k ih => exact .cons hq ih)

theorem twin_basedOn {S : List Ref} {source : List Ref} (cb : Callback G) (h : ∀ f ∈ source, f ∈ S)
    {s s' : State G} (hs : Agree n n' S s s') :
    TwinAt n n' (Same n n') s s' (basedOnEmit source cb s) (basedOnEmit source cb s') := by
  unfold basedOnEmit
  rw [run_get_bind, run_get_bind]
  refine twin_apply hs cb ?_
  induction source with
  | nil => exact .nil
  | cons f fs ih =>
    exact .cons (hs.cache f (h f (by simp))) (ih fun x hx => h x (List.mem_cons_of_mem _ hx))

theorem Plain.twin {S : List Ref} {e : Emitter G} (h : Plain S e) : TwinEmitter n n' S e := by
  induction h with
  | leaf one many h1 h2 =>
    intro s s' hs
    constructor
    · have := twin_onGen hs one
      refine ⟨this.ext, this.ext', this.cache, this.cache', this.gen, ?_⟩
      rcases this.out with h | ⟨v, w, e1, e2, rfl⟩
      · exact .inl h
      · obtain ⟨a, rfl⟩ := h1 s.gen v e1
        exact .inr ⟨_, _, e1, e2, .atom a⟩
    · intro i
      refine TwinAt.bind (Q := Sames n n') hs ?_ fun v w t t' _ _ _ _ ha hq => twin_new ha hq
      have := twin_onGen hs (many i)
      refine ⟨this.ext, this.ext', this.cache, this.cache', this.gen, ?_⟩
      rcases this.out with h | ⟨v, w, e1, e2, rfl⟩
      · exact .inl h
      · refine .inr ⟨_, _, e1, e2, ?_⟩
        have := h2 i s.gen v e1
        clear e1 e2 h1 h2
        induction v with
        | nil => exact .nil
        | cons a l ih =>
          obtain ⟨b, rfl⟩ := this a (by simp)
          exact .cons (.atom b) (ih fun x hx => this x (List.mem_cons_of_mem _ hx))
  | wrapOne cb _ ih =>
    intro s s' hs
    constructor
    · exact (ih s s' hs).1.bind hs fun v w t t' _ _ _ _ ha hq => twin_apply ha cb (.cons hq .nil)
    · intro i
      refine (ih.call hs (.atom (.int i))).bind hs fun v w t t' _ _ _ _ ha hq =>
        (twin_members ha hq).bind ha fun vs ws t t' _ _ _ _ hb hq =>
        (twin_applyAll cb hb ?_).bind hb fun _ _ _ _ _ _ _ _ hc hq => twin_new hc hq
      induction hq with
      | nil => exact .nil
      | cons h _ ih => exact .cons (.cons h .nil) ih
  | wrapMany cb _ ih =>
    intro s s' hs
    constructor
    · exact (twin_callAll ih hs .none).bind hs fun v w t t' _ _ _ _ ha hq => twin_apply ha cb hq
    · intro i
      exact (twin_callAll ih hs (.int i)).bind hs fun v w t t' _ _ _ _ ha hq =>
        (twin_membersAll ha hq).bind ha fun vs ws t t' _ _ _ _ hb hq =>
        (twin_rows cb _ _ hb hq).bind hb fun _ _ _ _ _ _ _ _ hc hq => twin_new hc hq
  | copyFields str single sep h =>
    intro s s' hs
    exact ⟨twin_copyEmit str single sep h hs, fun i => twin_repeated hs (twin_copyEmit str single sep h hs) i⟩
  | basedOnFields cb h =>
    intro s s' hs
    exact ⟨twin_basedOn cb h hs, fun i => twin_repeated hs (twin_basedOn cb h hs) i⟩

theorem same_truthy {m m' : Mem} {v w : PVal} (h : Same n n' m m' v w) : truthy m v = truthy m' w := by
  rcases h.cases with ⟨a, rfl, rfl⟩ | ⟨x, y, rfl, rfl, hl⟩
  · rfl
  · change (!(m.lists x).isEmpty) = !(m'.lists y).isEmpty
    generalize m.lists x = l at hl ⊢
    generalize m'.lists y = l' at hl ⊢
    cases hl <;> rfl

/-- What two runs of something that may set caches do. -/
structure TwinOut (n n' : Nat) (S : List Ref) {α : Type} (Q : Mem → Mem → α → α → Prop)
    (p p' : Except Err α × State G) : Prop where
  gen : p.2.gen = p'.2.gen
  out : (∃ x, p.1 = .error x ∧ p'.1 = .error x) ∨
    ∃ v w, p.1 = .ok v ∧ p'.1 = .ok w ∧ Q p.2.mem p'.2.mem v w ∧ Agree n n' S p.2 p'.2

theorem TwinOut.of_bind {S S' : List Ref} {α β : Type} {Q : Mem → Mem → α → α → Prop}
    {Q' : Mem → Mem → β → β → Prop} {s s' : State G} {m m' : PyM (State G) α}
    {k k' : α → PyM (State G) β} (h : TwinOut n n' S Q (m s) (m' s'))
    (hk : ∀ v w t t', m s = (.ok v, t) → m' s' = (.ok w, t') → Agree n n' S t t' → Q t.mem t'.mem v w →
      TwinOut n n' S' Q' (k v t) (k' w t')) :
    TwinOut n n' S' Q' ((m >>= k) s) ((m' >>= k') s') := by
  obtain ⟨h1, h2⟩ := h
  rw [bind_apply, bind_apply]
  generalize m s = p at h1 h2 hk ⊢
  generalize m' s' = p' at h1 h2 hk ⊢
  obtain ⟨r, t⟩ := p
  obtain ⟨r', t'⟩ := p'
  dsimp only at h1 h2
  rcases h2 with ⟨x, rfl, rfl⟩ | ⟨v, w, rfl, rfl, hq, ha⟩
  · exact ⟨h1, .inl ⟨x, rfl, rfl⟩⟩
  · exact hk v w t t' rfl rfl ha hq

theorem TwinAt.outcome {S : List Ref} {α : Type} {Q : Mem → Mem → α → α → Prop} {s s' : State G}
    {p p' : Except Err α × State G} (hs : Agree n n' S s s') (h : TwinAt n n' Q s s' p p') :
    TwinOut n n' S Q p p' :=
  ⟨h.gen, h.out.imp id fun ⟨v, w, h1, h2, h3⟩ => ⟨v, w, h1, h2, h3, hs.after h⟩⟩

theorem twin_setCache {S : List Ref} {s s' : State G} (hs : Agree n n' S s s') (f : Ref) {v w : PVal}
    (h : Same n n' s.mem s'.mem v w) :
    TwinOut n n' (f :: S) (Same n n') ((setCache f v >>= fun _ => (pure v : PyM (State G) PVal)) s)
      ((setCache f w >>= fun _ => (pure w : PyM (State G) PVal)) s') := by
  refine ⟨hs.gen, .inr ⟨v, w, rfl, rfl, h, hs.gen, hs.le, hs.le', fun x hx => ?_⟩⟩
  change Same n n' s.mem s'.mem (if x = f then v else s.cache x) (if x = f then w else s'.cache x)
  by_cases hxf : x = f
  · rw [if_pos hxf, if_pos hxf]; exact h
  · rw [if_neg hxf, if_neg hxf]
    exact hs.cache x ((List.mem_cons.1 hx).resolve_left hxf)

theorem twin_field {S : List Ref} {f : FieldObj G} (hf : f.PlainOver S) {s s' : State G}
    (hs : Agree n n' S s s') : TwinOut n n' (f.ref :: S) (Same n n') (f.call s) (f.call s') := by
  unfold FieldObj.call
  refine ((hf.gate.twin s s' hs).1.outcome hs).of_bind fun g g' t t' _ _ ha hg => ?_
  rw [run_get_bind, run_get_bind, same_truthy hg]
  split
  · exact ((hf.rep.twin t t' ha).1.outcome ha).of_bind fun r r' t t' _ _ hb hr =>
      (((hf.emitter.twin).call hb hr).outcome hb).of_bind fun v w t t' _ _ hc hv =>
        twin_setCache hc f.ref hv
  · exact twin_setCache ha f.ref (.atom _)

theorem PlainOver.lib {S : List Ref} {e : Emitter G} (h : Plain S e) : Lib e := by
  induction h with
  | leaf one many _ _ => exact .leaf one many
  | wrapOne cb _ ih => exact .wrapOne cb ih
  | wrapMany cb _ ih => exact .wrapMany cb ih
  | copyFields str single sep _ => exact .copyFields str _ single sep
  | basedOnFields cb _ => exact .basedOnFields _ cb

theorem Ordered.lib {S : List Ref} {fields : List (FieldObj G)} (h : Ordered S fields) :
    ∀ f ∈ fields, Lib f.emitter ∧ Lib f.rep ∧ Lib f.gate := by
  induction h with
  | nil => intro f hf; cases hf
  | cons h _ ih =>
    intro f hf
    rcases List.mem_cons.1 hf with rfl | hf
    · exact ⟨PlainOver.lib h.emitter, PlainOver.lib h.rep, PlainOver.lib h.gate⟩
    · exact ih f hf

/-- The values of two documents look the same and consist of new lists. -/
abbrev SameDoc (n n' : Nat) (m m' : Mem) : Dict PVal → Dict PVal → Prop :=
  List.Forall₂ fun kv kv' => kv.1 = kv'.1 ∧ Same n n' m m' kv.2 kv'.2

theorem twin_document {S : List Ref} {fields : List (FieldObj G)} (h : Ordered S fields) :
    ∀ {s s' : State G}, Agree n n' S s s' →
    (document fields s).2.gen = (document fields s').2.gen ∧
    ((∃ x, (document fields s).1 = .error x ∧ (document fields s').1 = .error x) ∨
      ∃ d d', (document fields s).1 = .ok d ∧ (document fields s').1 = .ok d' ∧
        SameDoc n n' (document fields s).2.mem (document fields s').2.mem d d') := by
  induction h with
  | nil S =>
    intro s s' hs
    exact ⟨hs.gen, .inr ⟨[], [], rfl, rfl, .nil⟩⟩
  | @cons S f fs hf hfs ih =>
    intro s s' hs
    have key : TwinOut n n' [] (SameDoc n n') (document (f :: fs) s) (document (f :: fs) s') := by
      refine (twin_field hf hs).of_bind fun v w t t' _ _ ha hv => ?_
      have hq := C86_never_changed fs hfs.lib
      have hd : TwinOut n n' [] (SameDoc n n') (document fs t) (document fs t') := by
        obtain ⟨h1, h2⟩ := ih ha
        refine ⟨h1, h2.imp id ?_⟩
        rintro ⟨d, d', e1, e2, e3⟩
        exact ⟨d, d', e1, e2, e3, h1, ha.le.trans (hq t).1, ha.le'.trans (hq t').1, fun _ h => by cases h⟩
      refine hd.of_bind fun d d' u u' hu hu' hb hdd => ⟨hb.gen, .inr ⟨_, _, rfl, rfl, ?_, hb⟩⟩
      have e1 : Untouched t.mem u.mem := by have := hq t; rwa [hu] at this
      have e2 : Untouched t'.mem u'.mem := by have := hq t'; rwa [hu'] at this
      by_cases hh : f.hide = true
      · rw [if_pos hh, if_pos hh]; exact hdd
      · rw [if_neg hh, if_neg hh]; exact .cons ⟨rfl, hv.ext e1 e2⟩ hdd
    exact ⟨key.gen, key.out.imp id fun ⟨v, w, h1, h2, h3, _⟩ => ⟨v, w, h1, h2, h3⟩⟩

end

theorem Same.lookAlike {n n' : Nat} {m m' : Mem} {d d' : Dict PVal} (h : SameDoc n n' m m' d d') :
    List.Forall₂ (fun kv kv' => kv.1 = kv'.1 ∧ ∀ n, read m n kv.2 = read m' n kv'.2) d d' :=
  h.imp fun _ _ h => ⟨h.1, by obtain ⟨k, hk⟩ := h.2; exact hk.read⟩

theorem Agree.start (s s' : State G) (h : s.gen = s'.gen) : Agree s.mem.next s'.mem.next [] s s' :=
  ⟨h, le_rfl, le_rfl, fun _ h => by cases h⟩

/-- **C86.** If no item of an emitter is a list and every field comes after the fields it uses, then
whatever a user does to lists (those in documents, those they have besides), the documents made look the
same. -/
theorem C86_independent_partial (fields : List (FieldObj G)) (h : Ordered [] fields)
    (ops : List (Op G × (Mem → Mem) × (Mem → Mem))) (s s' : State G) (hg : s.gen = s'.gen) :
    List.Forall₂ LookAlike (run fields (ops.map fun o => (o.1, o.2.1)) s)
      (run fields (ops.map fun o => (o.1, o.2.2)) s') := by
  induction ops generalizing s s' with
  | nil => exact .nil
  | cons o ops ih =>
    obtain ⟨o, u, u'⟩ := o
    cases o with
    | doc =>
      obtain ⟨h1, h2⟩ := twin_document h (Agree.start s s' hg)
      refine .cons ?_ (ih _ _ h1)
      unfold LookAlike
      dsimp only
      rcases h2 with ⟨x, e1, e2⟩ | ⟨d, d', e1, e2, h3⟩
      · rw [e1, e2]
      · rw [e1, e2]; exact Same.lookAlike h3
    | other m c =>
      exact ih _ _ (by change (m s.gen).2 = (m s'.gen).2; rw [hg])

theorem Rel.reach {n n' : Nat} {m m' : Mem} : ∀ {d : Nat} {v w : PVal}, Rel n n' m m' d v w →
    ∀ {a : Nat}, Reach m v a → n ≤ a ∧ a < m.next
  | 0, _, _, ⟨a, h1, _⟩, _, hr => by subst h1; cases hr
  | _ + 1, _, _, .inl ⟨a, h1, _⟩, _, hr => by subst h1; cases hr
  | d + 1, _, _, .inr ⟨x, y, g1, g2, g3, g4, _, _, g7⟩, a, hr => by
    subst g1
    cases hr with
    | self => exact ⟨g3, g4⟩
    | step hv hr =>
      have : ∀ {l l' : List PVal}, List.Forall₂ (Rel n n' m m' d) l l' → ∀ v ∈ l, ∃ w, Rel n n' m m' d v w := by
        intro l l' h
        induction h with
        | nil => intro v hv; cases hv
        | cons h _ ih =>
          intro v hv
          rcases List.mem_cons.1 hv with rfl | hv
          · exact ⟨_, h⟩
          · exact ih v hv
      obtain ⟨w, hw⟩ := this g7 _ hv
      exact hw.reach hr

/-- **C86.** Under the same conditions all lists in a document are new ones, at any depth: no other
document has them, and nobody else but the cache of its field. -/
theorem C86_own_lists_partial (fields : List (FieldObj G)) (h : Ordered [] fields) (s : State G)
    (d : Dict PVal) (hd : (document fields s).1 = .ok d) (kv : String × PVal) (hkv : kv ∈ d) (a : Nat)
    (ha : Reach (document fields s).2.mem kv.2 a) : s.mem.next ≤ a ∧ a < (document fields s).2.mem.next := by
  obtain ⟨_, h2⟩ := twin_document h (Agree.start s s rfl)
  rcases h2 with ⟨x, e1, _⟩ | ⟨d1, d2, e1, e2, h3⟩
  · rw [hd] at e1; cases e1
  · rw [hd] at e1; cases e1
    clear hd e2
    have : ∃ w, Same s.mem.next s.mem.next (document fields s).2.mem (document fields s).2.mem kv.2 w := by
      induction h3 with
      | nil => cases hkv
      | cons h _ ih =>
        rcases List.mem_cons.1 hkv with rfl | hkv
        · exact ⟨_, h.2⟩
        · exact ih hkv
    obtain ⟨w, k, hk⟩ := this
    exact hk.reach ha

/-! ### Examples -/

/-- `Iterative(lambda: itertools.count())`; the state is the next number. -/
def counter : Emitter Nat := leaf (fun g => (.ok (.atom (.int g)), g + 1)) fun n g =>
  (.ok ((List.range n.toNat).map fun i => .atom (.int (g + i))), g + n.toNat)
/-- `Static(a)`. -/
def static (v : PVal) : Emitter Nat := leaf (pure v) fun n => pure (List.replicate n.toNat v)
/-- A field without a gate. -/
def fieldOf (name : String) (ref : Ref) (e : Emitter Nat) (rep : Atom) : FieldObj Nat :=
  ⟨name, ref, e, static (.atom rep), static (.atom (.bool true)), false⟩
/-- No lists, no values yet. -/
def blank : State Nat := ⟨⟨fun _ => [], 0⟩, fun _ => .atom .none, 0⟩
/-- A stand-in for `str`. -/
def anyStr : View → List Char := fun _ => []

theorem plain_counter (S : List Ref) : Plain S counter := by
  refine .leaf _ _ (fun g v h => ?_) fun n g vs h v hv => ?_
  · cases h; exact ⟨_, rfl⟩
  · cases h
    obtain ⟨i, _, rfl⟩ := List.mem_map.1 hv
    exact ⟨_, rfl⟩
theorem plain_static (S : List Ref) (a : Atom) : Plain S (static (.atom a)) := by
  refine .leaf _ _ (fun g v h => ?_) fun n g vs h v hv => ?_
  · cases h; exact ⟨_, rfl⟩
  · cases h; exact ⟨_, List.eq_of_mem_replicate hv⟩

/-- `Field('n', counter, repeat=Static(2))`, and `Field('copy', CopyFields(n))`. -/
def demoFields : List (FieldObj Nat) :=
  [fieldOf "n" 0 counter (.int 2), fieldOf "copy" 1 (copyFields anyStr [0] false none) .none]

theorem demo_ordered : Ordered [] demoFields :=
  .cons ⟨plain_counter _, plain_static _ _, plain_static _ _⟩ <|
    .cons ⟨.copyFields _ _ _ (by simp [fieldOf]), plain_static _ _, plain_static _ _⟩ (.nil _)

/-- A user who empties the first two lists. -/
def emptied (m : Mem) : Mem := ⟨fun a => if a < 2 then [] else m.lists a, m.next⟩

/-- What the documents look like. -/
def looks (rs : List Result) : List (List (String × Val)) :=
  rs.map fun r => match r.1 with
    | .ok d => d.map fun kv => (kv.1, read r.2 5 kv.2)
    | .error _ => []

/-- Two documents, with the lists of the first emptied in between: the theorem applies, ... -/
example : List.Forall₂ LookAlike (run demoFields [(.doc, id), (.doc, id)] blank)
    (run demoFields [(.doc, emptied), (.doc, id)] blank) :=
  C86_independent_partial demoFields demo_ordered [(.doc, id, emptied), (.doc, id, id)] _ _ rfl
/-- ... and both runs are the following. -/
example : looks (run demoFields [(.doc, emptied), (.doc, id)] blank) =
    [[("n", .list [.int 0, .int 1]), ("copy", .list [.int 0, .int 1])],
      [("n", .list [.int 2, .int 3]), ("copy", .list [.int 2, .int 3])]] := by decide +kernel
/-- The copy is another list. -/
example : (document demoFields blank).1 = .ok [("n", .list 0), ("copy", .list 1)] := by decide +kernel

/-- **C86 (finding).** The value of a `Static`, or an item of any other emitter, that is a list is
handed out itself: emptying it in one document empties it in the next. -/
theorem C86_list_item_violated :
    let s : State Nat := ⟨⟨fun _ => [.atom (.int 7)], 1⟩, fun _ => .atom .none, 0⟩
    let fields := [fieldOf "x" 0 (static (.list 0)) .none]
    looks (run fields [(.doc, id), (.doc, id)] s) =
      [[("x", .list [.int 7])], [("x", .list [.int 7])]] ∧
    looks (run fields [(.doc, emptied), (.doc, id)] s) = [[("x", .list [.int 7])], [("x", .list [])]] := by
  decide +kernel

/-- `lambda v: [v, v]`. -/
def twice : Callback Nat := fun _ => pure (.list [.arg 0, .arg 0])

/-- **C86 (finding).** A copy of a single-valued field with a list is that very list: changing one
changes the other in the same document. -/
theorem C86_shared_copy_violated :
    (document [fieldOf "pair" 0 (wrapOne counter twice) .none,
      fieldOf "copy" 1 (copyFields anyStr [0] true none) .none] blank).1 =
      .ok [("pair", .list 0), ("copy", .list 0)] := by
  decide +kernel

/-- **C86 (finding).** So are all values of `CopyFields` and `BasedOnFields` with a `repeat`: here the
two lists in the field `copies` are one. -/
theorem C86_shared_repeat_violated :
    ∃ s, document [fieldOf "n" 0 counter (.int 2),
      fieldOf "copies" 1 (copyFields anyStr [0] false none) (.int 2)] blank =
      (.ok [("n", .list 0), ("copies", .list 2)], s) ∧ s.mem.lists 2 = [.list 1, .list 1] := by
  refine ⟨_, Prod.ext ?_ rfl, ?_⟩ <;> decide +kernel

/-- **C86 (finding).** A copy that comes before its source copies what the user has made of the list in
the previous document. -/
theorem C86_order_violated :
    let fields := demoFields.reverse
    looks (run fields [(.doc, id), (.doc, id)] blank) =
      [[("copy", .none), ("n", .list [.int 0, .int 1])],
        [("copy", .list [.int 0, .int 1]), ("n", .list [.int 2, .int 3])]] ∧
    looks (run fields [(.doc, emptied), (.doc, id)] blank) =
      [[("copy", .none), ("n", .list [.int 0, .int 1])],
        [("copy", .none), ("n", .list [.int 2, .int 3])]] := by
  decide +kernel

end Fauxdoc.Alias
