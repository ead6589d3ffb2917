import Verif.Spec.Classes
import Mathlib.Data.List.Nodup
import Mathlib.Algebra.Order.BigOperators.Group.List
import Mathlib.Algebra.Order.Ring.Nat
/-
C3 linearisation: it keeps the order of every list, loses nothing and repeats nothing.
-/
namespace Fauxdoc
namespace Cls

theorem candidate_spec {ls : List (List Name)} {x : Name} (h : candidate ls = some x) :
    (∃ l ∈ ls, l.head? = some x) ∧ ∀ l ∈ ls, x ∉ l.tail := by
  unfold candidate at h
  obtain ⟨h1, h2⟩ := List.find?_eq_some_iff_append.1 h |>.imp id id
  refine ⟨?_, ?_⟩
  · have := List.mem_of_find?_eq_some h
    obtain ⟨l, hl, hx⟩ := List.mem_filterMap.1 this
    exact ⟨l, hl, hx⟩
  · intro l hl
    have := List.all_eq_true.1 h1 l hl
    simpa using this

/-- A list after its head has been taken away, if that is the class. -/
def strip (x : Name) (l : List Name) : List Name := if l.head? = some x then l.tail else l

theorem removeHead_eq (x : Name) (ls : List (List Name)) : removeHead x ls = ls.map (strip x) := rfl

theorem not_mem_strip {x : Name} {l : List Name} (h : x ∉ l.tail) : x ∉ strip x l := by
  unfold strip
  by_cases hx : l.head? = some x
  · rw [if_pos hx]; exact h
  · rw [if_neg hx]
    cases l with
    | nil => simp
    | cons a l =>
      intro hm
      rcases List.mem_cons.1 hm with e | e
      · subst e; exact hx rfl
      · exact h e

theorem mem_strip {x y : Name} {l : List Name} (h : y ≠ x) : y ∈ strip x l ↔ y ∈ l := by
  unfold strip
  by_cases hx : l.head? = some x
  · rw [if_pos hx]
    cases l with
    | nil => cases hx
    | cons a l => cases hx; simp [h]
  · rw [if_neg hx]

theorem merge_empty {n : Nat} {ls : List (List Name)} (h : ls.all List.isEmpty = true) :
    merge n ls = some [] := by
  cases n <;> (unfold merge; rw [if_pos h])

theorem merge_step {n : Nat} {ls : List (List Name)} {r : List Name} (h : merge n ls = some r) :
    (ls.all List.isEmpty = true ∧ r = []) ∨ ∃ m x r', n = m + 1 ∧ candidate ls = some x ∧
      merge m (removeHead x ls) = some r' ∧ r = x :: r' := by
  cases n with
  | zero =>
    unfold merge at h
    by_cases he : ls.all List.isEmpty = true
    · rw [if_pos he] at h; cases h; exact .inl ⟨he, rfl⟩
    · rw [if_neg he] at h; cases h
  | succ n =>
    unfold merge at h
    by_cases he : ls.all List.isEmpty = true
    · rw [if_pos he] at h; cases h; exact .inl ⟨he, rfl⟩
    · rw [if_neg he] at h
      cases hc : candidate ls with
      | none => rw [hc] at h; cases h
      | some x =>
        rw [hc] at h
        dsimp only at h
        rcases hm : merge n (removeHead x ls) with _ | r'
        · rw [hm] at h; cases h
        · rw [hm] at h; cases h
          exact .inr ⟨n, x, r', rfl, rfl, hm, rfl⟩

/-- What is in the result. -/
theorem mem_merge {n : Nat} {ls : List (List Name)} {r : List Name} (h : merge n ls = some r) (y : Name) :
    y ∈ r ↔ ∃ l ∈ ls, y ∈ l := by
  induction n generalizing ls r with
  | zero =>
    rcases merge_step h with ⟨he, rfl⟩ | ⟨m, x, r', hn, _⟩
    · simp only [List.not_mem_nil, false_iff, not_exists, not_and]
      intro l hl
      have := List.all_eq_true.1 he l hl
      simp [List.isEmpty_iff.1 this]
    · cases hn
  | succ n ih =>
    rcases merge_step h with ⟨he, rfl⟩ | ⟨m, x, r', hn, hc, hm, rfl⟩
    · simp only [List.not_mem_nil, false_iff, not_exists, not_and]
      intro l hl
      have := List.all_eq_true.1 he l hl
      simp [List.isEmpty_iff.1 this]
    · cases hn
      obtain ⟨⟨l0, hl0, hx0⟩, htail⟩ := candidate_spec hc
      by_cases hy : y = x
      · subst hy
        exact ⟨fun _ => ⟨l0, hl0, List.mem_of_head? hx0⟩, fun _ => List.mem_cons_self⟩
      · rw [List.mem_cons, ih hm]
        simp only [hy, false_or, removeHead_eq, List.mem_map]
        constructor
        · rintro ⟨_, ⟨l, hl, rfl⟩, h'⟩
          exact ⟨l, hl, (mem_strip hy).1 h'⟩
        · rintro ⟨l, hl, h'⟩
          exact ⟨_, ⟨l, hl, rfl⟩, (mem_strip hy).2 h'⟩

theorem nodup_merge {n : Nat} {ls : List (List Name)} {r : List Name} (h : merge n ls = some r) :
    r.Nodup := by
  induction n generalizing ls r with
  | zero =>
    rcases merge_step h with ⟨_, rfl⟩ | ⟨m, x, r', hn, _⟩
    · exact List.nodup_nil
    · cases hn
  | succ n ih =>
    rcases merge_step h with ⟨_, rfl⟩ | ⟨m, x, r', hn, hc, hm, rfl⟩
    · exact List.nodup_nil
    · cases hn
      refine List.nodup_cons.2 ⟨?_, ih hm⟩
      rw [mem_merge hm]
      rintro ⟨_, hs, hx⟩
      rw [removeHead_eq] at hs
      obtain ⟨l, hl, rfl⟩ := List.mem_map.1 hs
      exact not_mem_strip ((candidate_spec hc).2 l hl) hx

theorem sublist_merge {n : Nat} {ls : List (List Name)} {r : List Name} (h : merge n ls = some r) :
    ∀ l ∈ ls, l.Sublist r := by
  induction n generalizing ls r with
  | zero =>
    rcases merge_step h with ⟨he, rfl⟩ | ⟨m, x, r', hn, _⟩
    · intro l hl
      rw [List.isEmpty_iff.1 (List.all_eq_true.1 he l hl)]
    · cases hn
  | succ n ih =>
    rcases merge_step h with ⟨he, rfl⟩ | ⟨m, x, r', hn, hc, hm, rfl⟩
    · intro l hl
      rw [List.isEmpty_iff.1 (List.all_eq_true.1 he l hl)]
    · cases hn
      intro l hl
      have := ih hm (strip x l) (by rw [removeHead_eq]; exact List.mem_map_of_mem hl)
      unfold strip at this
      by_cases hx : l.head? = some x
      · rw [if_pos hx] at this
        cases l with
        | nil => cases hx
        | cons a l => cases hx; exact this.cons_cons _
      · rw [if_neg hx] at this
        exact this.cons _

/-- The bound on the number of steps is large enough. -/
theorem merge_bound {n : Nat} {ls : List (List Name)} (h : (ls.map List.length).sum ≤ n) :
    merge (n + 1) ls = merge n ls := by
  induction n generalizing ls with
  | zero =>
    have : ls.all List.isEmpty = true := by
      refine List.all_eq_true.2 fun l hl => ?_
      have h1 := List.single_le_sum (l := ls.map List.length) (by simp) _ (List.mem_map_of_mem hl)
      have h0 : l.length = 0 := by omega
      rw [List.length_eq_zero_iff.1 h0]
      rfl
    rw [merge_empty this, merge_empty this]
  | succ n ih =>
    by_cases he : ls.all List.isEmpty = true
    · rw [merge_empty he, merge_empty he]
    · rw [merge, if_neg he]
      conv_rhs => rw [merge, if_neg he]
      cases hc : candidate ls with
      | none => rfl
      | some x =>
        dsimp only
        rw [ih]
        obtain ⟨⟨l, hl, hx⟩, _⟩ := candidate_spec hc
        have key : ((removeHead x ls).map List.length).sum < (ls.map List.length).sum := by
          rw [removeHead_eq, List.map_map]
          refine List.sum_lt_sum _ _ (fun l _ => ?_) ⟨l, hl, ?_⟩
          · unfold strip Function.comp
            dsimp only
            split
            · simp
            · exact Nat.le_refl _
          · unfold strip Function.comp
            dsimp only
            rw [if_pos hx]
            cases l with
            | nil => cases hx
            | cons a l => simp
        omega

/-- If there is an order at all, then a class can be taken. -/
theorem candidate_complete {ls : List (List Name)} {r : List Name} (hr : r.Nodup)
    (h : ∀ l ∈ ls, l.Sublist r) (he : ls.all List.isEmpty ≠ true) : (candidate ls).isSome := by
  induction r with
  | nil =>
    exact absurd (List.all_eq_true.2 fun l hl => List.isEmpty_iff.2 (List.sublist_nil.1 (h l hl))) he
  | cons y r ih =>
    rw [List.nodup_cons] at hr
    by_cases hy : ∃ l ∈ ls, l.head? = some y
    · obtain ⟨l, hl, hly⟩ := hy
      unfold candidate
      refine List.find?_isSome.2 ⟨y, List.mem_filterMap.2 ⟨l, hl, hly⟩, List.all_eq_true.2 fun k hk => ?_⟩
      have : y ∉ k.tail := fun hm => hr.1 ((h k hk).tail.subset hm)
      simpa using this
    · refine ih hr.2 fun l hl => ?_
      have hs := h l hl
      cases hs with
      | cons _ hs => exact hs
      | cons_cons _ hs => exact absurd ⟨_, hl, rfl⟩ hy

/-- The merge finds an order whenever there is one. -/
theorem merge_complete {n : Nat} {ls : List (List Name)} {r : List Name} (hn : (ls.map List.length).sum ≤ n)
    (hr : r.Nodup) (h : ∀ l ∈ ls, l.Sublist r) : (merge n ls).isSome := by
  induction n generalizing ls with
  | zero =>
    have : ls.all List.isEmpty = true := by
      refine List.all_eq_true.2 fun l hl => ?_
      have h1 := List.single_le_sum (l := ls.map List.length) (by simp) _ (List.mem_map_of_mem hl)
      have h0 : l.length = 0 := by omega
      rw [List.length_eq_zero_iff.1 h0]
      rfl
    rw [merge_empty this]; rfl
  | succ n ih =>
    by_cases he : ls.all List.isEmpty = true
    · rw [merge_empty he]; rfl
    · obtain ⟨x, hx⟩ := Option.isSome_iff_exists.1 (candidate_complete hr h he)
      rw [merge, if_neg he, hx]
      dsimp only
      rw [Option.isSome_map]
      refine ih ?_ ?_
      · obtain ⟨⟨l, hl, hx⟩, _⟩ := candidate_spec hx
        have key : ((removeHead x ls).map List.length).sum < (ls.map List.length).sum := by
          rw [removeHead_eq, List.map_map]
          refine List.sum_lt_sum _ _ (fun l _ => ?_) ⟨l, hl, ?_⟩
          · unfold strip Function.comp
            dsimp only
            split
            · simp
            · exact Nat.le_refl _
          · unfold strip Function.comp
            dsimp only
            rw [if_pos hx]
            cases l with
            | nil => cases hx
            | cons a l => simp
        omega
      · intro l hl
        rw [removeHead_eq] at hl
        obtain ⟨k, hk, rfl⟩ := List.mem_map.1 hl
        refine List.Sublist.trans ?_ (h k hk)
        unfold strip
        split
        · exact List.tail_sublist k
        · exact List.Sublist.refl k

/-! ### Class statements -/

/-- What holds of all classes: nothing is repeated, the class comes first, `object` comes last, and the
order of a class keeps the order of each class in it. -/
structure WF (env : Classes) : Prop where
  head : ∀ c l, env.mro c = some l → ∃ t, l = c :: t
  nodup : ∀ c l, env.mro c = some l → l.Nodup
  known : ∀ c l, env.mro c = some l → ∀ d ∈ l, ∃ l', env.mro d = some l' ∧ l'.Sublist l
  last : ∀ c l, env.mro c = some l → l.getLast? = some "object"

theorem mro_cons (env : Classes) (n : Name) (l : List Name) (c : Name) :
    Classes.mro ((n, l) :: env) c = if n = c then some l else env.mro c := by
  unfold Classes.mro
  by_cases h : n = c
  · simp [h]
  · simp [h]

theorem wf_builtins : WF builtins := by
  have h : ∀ c l, builtins.mro c = some l → c = "object" ∧ l = ["object"] := by
    intro c l h
    unfold builtins at h
    rw [mro_cons] at h
    by_cases e : "object" = c
    · rw [if_pos e] at h; cases h; exact ⟨e.symm, rfl⟩
    · rw [if_neg e] at h; cases h
  refine ⟨?_, ?_, ?_, ?_⟩
  · intro c l hc; obtain ⟨rfl, rfl⟩ := h c l hc; exact ⟨_, rfl⟩
  · intro c l hc; obtain ⟨rfl, rfl⟩ := h c l hc; simp
  · intro c l hc d hd
    obtain ⟨rfl, rfl⟩ := h c l hc
    rw [List.mem_singleton] at hd
    subst hd
    exact ⟨_, hc, List.Sublist.refl _⟩
  · intro c l hc; obtain ⟨rfl, rfl⟩ := h c l hc; rfl

theorem define_spec {env env' : Classes} {name : Name} {bases : List Name}
    (h : define env name bases = .ok env') : ∃ mros l, bases.mapM env.mro = some mros ∧
      env.mro name = none ∧ bases.Nodup ∧
      merge ((mros ++ [bases]).map List.length).sum (mros ++ [bases]) = some l ∧
      env' = (name, name :: l) :: env := by
  unfold define at h
  cases hm : bases.mapM env.mro with
  | none => rw [hm] at h; cases h
  | some mros =>
    rw [hm] at h
    dsimp only at h
    cases hn : env.mro name with
    | some l => rw [hn, if_pos (by simp)] at h; cases h
    | none =>
      rw [hn, if_neg (by simp)] at h
      by_cases hd : bases.Nodup
      · rw [if_neg (by simpa using hd)] at h
        cases hl : merge ((mros ++ [bases]).map List.length).sum (mros ++ [bases]) with
        | none => rw [hl] at h; cases h
        | some l => rw [hl] at h; cases h; exact ⟨_, _, rfl, rfl, hd, hl, rfl⟩
      · rw [if_pos (by simpa using hd)] at h; cases h

theorem mapM_mem {α β : Type} {f : α → Option β} {l : List α} {r : List β} (h : l.mapM f = some r) :
    (∀ b ∈ r, ∃ a ∈ l, f a = some b) ∧ (∀ a ∈ l, ∃ b ∈ r, f a = some b) := by
  induction l generalizing r with
  | nil => cases h; simp
  | cons a l ih =>
    rw [List.mapM_cons] at h
    cases ha : f a with
    | none => rw [ha] at h; cases h
    | some b =>
      rw [ha] at h
      cases hl : l.mapM f with
      | none => rw [hl] at h; cases h
      | some bs =>
        rw [hl] at h
        cases h
        obtain ⟨h1, h2⟩ := ih hl
        constructor
        · intro x hx
          rcases List.mem_cons.1 hx with e | e
          · subst e; exact ⟨a, List.mem_cons_self, ha⟩
          · obtain ⟨y, hy, e⟩ := h1 x e; exact ⟨y, List.mem_cons_of_mem _ hy, e⟩
        · intro x hx
          rcases List.mem_cons.1 hx with e | e
          · subst e; exact ⟨b, List.mem_cons_self, ha⟩
          · obtain ⟨y, hy, e⟩ := h2 x e; exact ⟨y, List.mem_cons_of_mem _ hy, e⟩

/-- `object` stays last. -/
theorem getLast?_of_sublist {r : List Name} {x : Name} (hn : r.Nodup)
    (hall : ∀ y ∈ r, y = x ∨ ∃ l : List Name, l.Sublist r ∧ y ∈ l ∧ l.getLast? = some x) (hr : r ≠ []) :
    r.getLast? = some x := by
  obtain ⟨t, y, rfl⟩ := (List.eq_nil_or_concat r).resolve_left hr
  simp only [List.concat_eq_append] at hn hall ⊢
  rw [List.getLast?_concat]
  rcases hall y (by simp) with e | ⟨l, hl, hy, hlast⟩
  · rw [e]
  · obtain ⟨s, z, rfl⟩ := (List.eq_nil_or_concat l).resolve_left (by rintro rfl; cases hy)
    simp only [List.concat_eq_append] at hl hy hlast
    rw [List.getLast?_concat] at hlast
    cases hlast
    by_cases e : y = x
    · rw [e]
    · exfalso
      have hys : y ∈ s := by
        rcases List.mem_append.1 hy with h | h
        · exact h
        · exact absurd (List.mem_singleton.1 h) e
      have h2 : [y, x].Sublist (t ++ [y]) := by
        refine List.Sublist.trans ?_ hl
        exact List.Sublist.append (l₁ := [y]) (List.singleton_sublist.2 hys) (List.Sublist.refl _)
      have hyt : y ∉ t := by
        intro h
        exact (List.nodup_append.1 hn).2.2 y h y (by simp) rfl
      rw [List.sublist_append_iff] at h2
      obtain ⟨a, b, hab, ha, hb⟩ := h2
      cases a with
      | nil =>
        simp only [List.nil_append] at hab
        subst hab
        have := hb.length_le
        simp at this
      | cons a0 a =>
        simp only [List.cons_append, List.cons.injEq] at hab
        obtain ⟨rfl, _⟩ := hab
        exact hyt (ha.subset List.mem_cons_self)

theorem wf_define {env env' : Classes} (hw : WF env) {name : Name} {bases : List Name}
    (hb : bases ≠ []) (h : define env name bases = .ok env') : WF env' := by
  obtain ⟨mros, l, hm, hnew, _, hl, rfl⟩ := define_spec h
  obtain ⟨hm1, hm2⟩ := mapM_mem hm
  have hmem := mem_merge hl
  have hsub := sublist_merge hl
  have hbase : ∀ m ∈ mros, ∀ d ∈ m, ∃ l', env.mro d = some l' ∧ l'.Sublist m := by
    intro m hmm
    obtain ⟨b, _, hb⟩ := hm1 m hmm
    exact hw.known b m hb
  have hknown : ∀ d ∈ l, ∃ m ∈ mros, d ∈ m := by
    intro d hd
    obtain ⟨m, hm', hdm⟩ := (hmem d).1 hd
    rcases List.mem_append.1 hm' with h' | h'
    · exact ⟨m, h', hdm⟩
    · rw [List.mem_singleton] at h'
      subst h'
      obtain ⟨m, hm', hdm'⟩ := hm2 d hdm
      obtain ⟨t, rfl⟩ := hw.head d m hdm'
      exact ⟨_, hm', List.mem_cons_self⟩
  have hle : ∀ d ∈ l, ∃ l', env.mro d = some l' ∧ l'.Sublist l := by
    intro d hd
    obtain ⟨m, hm', hdm⟩ := hknown d hd
    obtain ⟨l', h1, h2⟩ := hbase m hm' d hdm
    exact ⟨l', h1, h2.trans (hsub m (List.mem_append_left _ hm'))⟩
  have hnl : name ∉ l := by
    intro hd
    obtain ⟨l', h', _⟩ := hle name hd
    rw [hnew] at h'
    cases h'
  have hne : ∀ d ∈ l, name ≠ d := fun d hd e => hnl (e ▸ hd)
  have hlast : l.getLast? = some "object" := by
    refine getLast?_of_sublist (nodup_merge hl) (fun y hy => .inr ?_) ?_
    · obtain ⟨m, hm', hym⟩ := hknown y hy
      obtain ⟨b, _, hb⟩ := hm1 m hm'
      exact ⟨m, hsub m (List.mem_append_left _ hm'), hym, hw.last b m hb⟩
    · rintro rfl
      cases bases with
      | nil => exact hb rfl
      | cons b bs =>
        have := hsub (b :: bs) (by simp)
        simp at this
  refine ⟨?_, ?_, ?_, ?_⟩
  · intro c l' hc
    rw [mro_cons] at hc
    by_cases e : name = c
    · rw [if_pos e] at hc; cases hc; exact ⟨l, by rw [e]⟩
    · rw [if_neg e] at hc; exact hw.head c l' hc
  · intro c l' hc
    rw [mro_cons] at hc
    by_cases e : name = c
    · rw [if_pos e] at hc; cases hc; exact List.nodup_cons.2 ⟨hnl, nodup_merge hl⟩
    · rw [if_neg e] at hc; exact hw.nodup c l' hc
  · intro c l' hc d hd
    rw [mro_cons] at hc
    by_cases e : name = c
    · rw [if_pos e] at hc
      cases hc
      rcases List.mem_cons.1 hd with rfl | hd
      · exact ⟨_, by rw [mro_cons, if_pos rfl], List.Sublist.refl _⟩
      · obtain ⟨l', h1, h2⟩ := hle d hd
        exact ⟨l', by rw [mro_cons, if_neg (hne d hd)]; exact h1, h2.cons _⟩
    · rw [if_neg e] at hc
      obtain ⟨l2, h1, h2⟩ := hw.known c l' hc d hd
      refine ⟨l2, ?_, h2⟩
      rw [mro_cons, if_neg, h1]
      rintro rfl
      rw [hnew] at h1
      cases h1
  · intro c l' hc
    rw [mro_cons] at hc
    by_cases e : name = c
    · rw [if_pos e] at hc
      cases hc
      cases l with
      | nil => cases hlast
      | cons a l => rw [List.getLast?_cons_cons]; exact hlast
    · rw [if_neg e] at hc; exact hw.last c l' hc

/-- Every class statement names a base (Python adds `object` itself otherwise). -/
def Based (classes : List (Name × List Name)) : Prop := ∀ c ∈ classes, c.2 ≠ []

theorem wf_defineAll {env env' : Classes} (hw : WF env) {classes : List (Name × List Name)}
    (hb : Based classes) (h : defineAll env classes = .ok env') : WF env' := by
  induction classes generalizing env with
  | nil => cases h; exact hw
  | cons c classes ih =>
    unfold defineAll at h
    obtain ⟨e1, h1, h2⟩ := Py.bind_eq_ok h
    exact ih (wf_define hw (hb c List.mem_cons_self) h1) (fun c hc => hb c (List.mem_cons_of_mem _ hc)) h2

/-- A class keeps its order when further classes are defined. -/
theorem mro_define {env env' : Classes} {name : Name} {bases : List Name}
    (h : define env name bases = .ok env') {c : Name} {l : List Name} (hc : env.mro c = some l) :
    env'.mro c = some l := by
  obtain ⟨mros, l', _, hnew, _, _, rfl⟩ := define_spec h
  rw [mro_cons, if_neg, hc]
  rintro rfl
  rw [hnew] at hc
  cases hc

theorem mro_defineAll {env env' : Classes} {classes : List (Name × List Name)}
    (h : defineAll env classes = .ok env') {c : Name} {l : List Name} (hc : env.mro c = some l) :
    env'.mro c = some l := by
  induction classes generalizing env with
  | nil => cases h; exact hc
  | cons k classes ih =>
    unfold defineAll at h
    obtain ⟨e1, h1, h2⟩ := Py.bind_eq_ok h
    exact ih h2 (mro_define h1 hc)

theorem defineAll_append {env : Classes} (a b : List (Name × List Name)) :
    defineAll env (a ++ b) = defineAll env a >>= fun e => defineAll e b := by
  induction a generalizing env with
  | nil => rfl
  | cons k a ih =>
    change (define env k.1 k.2 >>= fun e => defineAll e (a ++ b)) =
      (define env k.1 k.2 >>= fun e => defineAll e a) >>= fun e => defineAll e b
    cases define env k.1 k.2 with
    | error e => rfl
    | ok e => exact ih

end Cls
end Fauxdoc
