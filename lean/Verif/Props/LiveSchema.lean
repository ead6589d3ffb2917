import Verif.Spec.LiveSchema
import Verif.Props.GroupMap
/-
C119: a schema notices that its fields change while it makes a document.
-/
set_option linter.unusedSectionVars false
namespace Fauxdoc
variable {ι σ : Type}

/-! ### Maps -/

/-- `m'` comes from `m`: either the keys are the same and the counter too, or the counter has gone up or
the map has become empty. -/
structure MapMoves (m m' : LiveMap ι) : Prop where
  mono : m.state ≤ m'.state
  same : m'.keys = m.keys → m'.state = m.state
  moved : m'.keys ≠ m.keys → m.state < m'.state ∨ m'.entries = []
  nodup : m'.keys.Nodup

theorem MapMoves.refl {m : LiveMap ι} (h : m.keys.Nodup) : MapMoves m m :=
  ⟨le_refl _, fun _ => rfl, fun h => absurd rfl h, h⟩

theorem edit_moves {m : LiveMap ι} (h : m.keys.Nodup) (e : MapEdit ι) : MapMoves m (m.edit e) := by
  cases e with
  | set k f =>
    have hk : (m.edit (.set k f)).keys = if k ∈ m.keys then m.keys else m.keys ++ [k] := Dict.keys_set _ _ _
    have hs : (m.edit (.set k f)).state = if k ∈ m.keys then m.state else m.state + 1 := rfl
    have hn : (m.edit (.set k f)).keys.Nodup := Dict.nodup_set _ _ _ h
    by_cases hm : k ∈ m.keys
    · rw [if_pos hm] at hk hs
      exact ⟨hs.ge, fun _ => hs, fun hne => absurd hk hne, hn⟩
    · rw [if_neg hm] at hk hs
      refine ⟨by omega, fun he => ?_, fun _ => .inl (by omega), hn⟩
      rw [hk] at he
      have := congrArg List.length he
      simp at this
  | del k =>
    by_cases hm : k ∈ m.keys
    · have he : m.edit (.del k) = ⟨GroupMap.erase m.entries k, m.state + 1⟩ := if_pos hm
      rw [he]
      refine ⟨by simp, fun hk => ?_, fun _ => .inl (by simp), GroupMap.nodup_erase h k⟩
      change (GroupMap.erase m.entries k).keys = _ at hk
      rw [GroupMap.keys_erase h] at hk
      have hmem := hm
      unfold LiveMap.keys at hmem hk
      rw [← hk] at hmem
      simp at hmem
    · have he : m.edit (.del k) = m := if_neg hm
      rw [he]
      exact .refl h
  | clear => exact ⟨le_refl _, fun _ => rfl, fun _ => .inr rfl, by simp [LiveMap.edit, LiveMap.keys, Dict.keys]⟩
  | moveToEnd k last =>
    by_cases hm : k ∉ m.keys ∨ (if last then m.keys.getLast? else m.keys.head?) = some k
    · have he : m.edit (.moveToEnd k last) = m := if_pos hm
      rw [he]
      exact .refl h
    · have he : m.edit (.moveToEnd k last) = ⟨(GroupMap.moveToEnd k last m.entries).2, m.state + 1⟩ := if_neg hm
      rw [he]
      rw [not_or, not_not] at hm
      obtain ⟨v, hv⟩ := (Dict.mem_keys_iff _ _).1 hm.1
      have e1 : (GroupMap.moveToEnd k last m.entries).2 =
          if last then GroupMap.erase m.entries k ++ [(k, v)] else (k, v) :: GroupMap.erase m.entries k := by
        unfold GroupMap.moveToEnd
        rw [hv]
      have hn := GroupMap.nodup_erase h k
      have hnk : k ∉ (GroupMap.erase m.entries k).keys := by
        rw [GroupMap.keys_erase h]
        simp
      refine ⟨by simp, fun hk => ?_, fun _ => .inl (by simp), ?_⟩
      · refine absurd ?_ hm.2
        rw [← hk]
        change (if last = true then (Dict.keys (GroupMap.moveToEnd k last m.entries).2).getLast?
          else (Dict.keys (GroupMap.moveToEnd k last m.entries).2).head?) = _
        rw [e1]
        cases last <;> simp [Dict.keys]
      · change (Dict.keys (GroupMap.moveToEnd k last m.entries).2).Nodup
        rw [e1]
        cases last with
        | true =>
          simp only [if_true, Dict.keys, List.map_append, List.map_cons, List.map_nil]
          exact List.Nodup.append hn (by simp) (by simpa [Dict.keys] using hnk)
        | false =>
          simp only [Bool.false_eq_true, if_false, Dict.keys, List.map_cons]
          exact List.nodup_cons.2 ⟨hnk, hn⟩

theorem setAll_moves (l : List (String × ι)) : ∀ {m : LiveMap ι}, m.keys.Nodup →
    (m.setAll l).keys.Nodup ∧ m.state ≤ (m.setAll l).state ∧
      m.entries.length ≤ (m.setAll l).entries.length ∧
      ((m.setAll l).entries.length = m.entries.length → (m.setAll l).state = m.state) ∧
      (m.entries.length < (m.setAll l).entries.length → m.state < (m.setAll l).state) ∧
      ((m.setAll l).entries.length = m.entries.length → (m.setAll l).keys = m.keys) := by
  induction l with
  | nil => exact fun h => ⟨h, le_refl _, le_refl _, fun _ => rfl, fun h => absurd h (lt_irrefl _), fun _ => rfl⟩
  | cons kf l ih =>
    intro m h
    have hn : (m.edit (.set kf.1 kf.2)).keys.Nodup := (edit_moves h _).nodup
    obtain ⟨i1, i2, i3, i4, i5, i6⟩ := ih hn
    have e : m.setAll (kf :: l) = (m.edit (.set kf.1 kf.2)).setAll l := rfl
    rw [e]
    have hk : (m.edit (.set kf.1 kf.2)).keys = if kf.1 ∈ m.keys then m.keys else m.keys ++ [kf.1] :=
      Dict.keys_set _ _ _
    have hs : (m.edit (.set kf.1 kf.2)).state = if kf.1 ∈ m.keys then m.state else m.state + 1 := rfl
    have hlen : ∀ q : LiveMap ι, q.keys.length = q.entries.length := fun q => by
      unfold LiveMap.keys Dict.keys
      rw [List.length_map]
    by_cases hm : kf.1 ∈ m.keys
    · rw [if_pos hm] at hk hs
      have hl : (m.edit (.set kf.1 kf.2)).entries.length = m.entries.length := by rw [← hlen, hk, hlen]
      rw [hl] at i3 i4 i5 i6
      rw [hs] at i2 i4 i5
      rw [hk] at i6
      exact ⟨i1, i2, i3, i4, i5, i6⟩
    · rw [if_neg hm] at hk hs
      have hl : (m.edit (.set kf.1 kf.2)).entries.length = m.entries.length + 1 := by
        rw [← hlen, hk, List.length_append, hlen]
        rfl
      refine ⟨i1, by omega, by omega, fun h => by omega, fun _ => by omega, fun h => by omega⟩

theorem setAll_mapMoves (l : List (String × ι)) {m : LiveMap ι} (h : m.keys.Nodup) : MapMoves m (m.setAll l) := by
  obtain ⟨i1, i2, i3, i4, i5, i6⟩ := setAll_moves l h
  have hlen : ∀ q : LiveMap ι, q.keys.length = q.entries.length := fun q => by
    unfold LiveMap.keys Dict.keys
    rw [List.length_map]
  refine ⟨i2, fun hk => i4 ?_, fun hk => .inl (i5 ?_), i1⟩
  · rw [← hlen, hk, hlen]
  · exact lt_of_le_of_ne i3 fun he => hk (i6 he.symm)

/-! ### What happens -/

section
variable [DecidableEq ι]
open SchemaHeap

theorem put_moves {h : SchemaHeap ι σ} (hs : ∀ r, (h.map r).keys.Nodup) (x : Nat) {m : LiveMap ι}
    (hm : MapMoves (h.map x) m) (r : Nat) : MapMoves (h.map r) ((h.put x m).map r) := by
  by_cases hr : r = x
  · subst hr
    have : (h.put r m).map r = m := if_pos rfl
    rw [this]
    exact hm
  · have : (h.put x m).map r = h.map r := if_neg hr
    rw [this]
    exact .refl (hs r)

theorem alloc_old {h : SchemaHeap ι σ} (m : LiveMap ι) {r : Nat} (hr : r < h.next) :
    (h.alloc m).map r = h.map r := if_neg (Nat.ne_of_lt hr)

theorem act_moves {h : SchemaHeap ι σ} (hs : h.Sound) (a : SchemaAct ι σ) :
    (h.act a).Sound ∧ h.next ≤ (h.act a).next ∧ ∀ r < h.next, MapMoves (h.map r) ((h.act a).map r) := by
  have keep : ∀ r, MapMoves (h.map r) (h.map r) := fun r => .refl (hs.nodup r)
  have halloc : ∀ m : LiveMap ι, m.keys.Nodup → ∀ r, ((h.alloc m).map r).keys.Nodup := by
    intro m hm r
    change (if r = h.next then m else h.map r).keys.Nodup
    split
    · exact hm
    · exact hs.nodup r
  cases a with
  | setFields s fs =>
    have n0 := halloc ⟨[], 0⟩ (by simp [LiveMap.keys, Dict.keys])
    have hf : ∀ x, (if x = s then h.next else h.fields x) < h.next + 1 := by
      intro x
      split
      · omega
      · exact Nat.lt_succ_of_lt (hs.exist x)
    have hm := fun r => put_moves (h := { h.alloc ⟨[], 0⟩ with fields := fun x => if x = s then h.next else h.fields x })
      n0 h.next (setAll_mapMoves (Dict.ofItems (fs.map fun f => (h.name f, f)))
        (m := (h.alloc ⟨[], 0⟩).map h.next) (n0 h.next)) r
    have e : h.act (.setFields s fs) = (
        { h.alloc ⟨[], 0⟩ with fields := fun x => if x = s then h.next else h.fields x } : SchemaHeap ι σ).put h.next
          (((h.alloc ⟨[], 0⟩).map h.next).setAll (Dict.ofItems (fs.map fun f => (h.name f, f)))) := by
      unfold SchemaHeap.act SchemaHeap.addFields SchemaHeap.of
      simp only
      rfl
    rw [e]
    refine ⟨⟨fun r => (hm r).nodup, hf⟩, Nat.le_succ _, fun r hr => ?_⟩
    have h2 := hm r
    change MapMoves ((h.alloc ⟨[], 0⟩).map r) _ at h2
    rwa [alloc_old _ hr] at h2
  | addFields s fs =>
    have hm := put_moves hs.nodup (h.fields s) (setAll_mapMoves (Dict.ofItems (fs.map fun f => (h.name f, f)))
      (hs.nodup (h.fields s)))
    exact ⟨⟨fun r => (hm r).nodup, hs.exist⟩, le_refl _, fun r _ => hm r⟩
  | assign s m =>
    by_cases hlt : m < h.next
    · have e : h.act (.assign s m) = { h with fields := fun x => if x = s then m else h.fields x } := if_pos hlt
      rw [e]
      refine ⟨⟨hs.nodup, fun x => ?_⟩, le_refl _, fun r _ => keep r⟩
      change (if x = s then m else h.fields x) < h.next
      split
      · exact hlt
      · exact hs.exist x
    · have e : h.act (.assign s m) = h := if_neg hlt
      rw [e]
      exact ⟨hs, le_refl _, fun r _ => keep r⟩
  | view s hidden =>
    refine ⟨⟨halloc _ (setAll_moves _ (by simp [LiveMap.keys, Dict.keys])).1,
      fun x => Nat.lt_succ_of_lt (hs.exist x)⟩, Nat.le_succ _, fun r hr => ?_⟩
    have : (h.act (.view s hidden)).map r = h.map r := alloc_old _ hr
    rw [this]
    exact keep r
  | edit m e =>
    have hm := put_moves hs.nodup m (edit_moves (hs.nodup m) e)
    exact ⟨⟨fun r => (hm r).nodup, hs.exist⟩, le_refl _, fun r _ => hm r⟩
  | rename f n => exact ⟨⟨hs.nodup, hs.exist⟩, le_refl _, fun r _ => keep r⟩
  | setHide f b => exact ⟨⟨hs.nodup, hs.exist⟩, le_refl _, fun r _ => keep r⟩
  | other g => exact ⟨⟨hs.nodup, hs.exist⟩, le_refl _, fun r _ => keep r⟩

theorem acts_moves (as : List (SchemaAct ι σ)) : ∀ {h : SchemaHeap ι σ}, h.Sound →
    (h.acts as).Sound ∧ h.next ≤ (h.acts as).next ∧ ∀ r < h.next,
      (h.map r).state ≤ ((h.acts as).map r).state ∧
      (KeysSteady r h as → ((h.acts as).map r).state = (h.map r).state ∧
        ((h.acts as).map r).keys = (h.map r).keys) ∧
      (¬ KeysSteady r h as → (h.map r).state < ((h.acts as).map r).state ∨
        ((h.acts as).map r).entries = [] ∧ (h.map r).entries ≠ []) := by
  induction as with
  | nil => exact fun hs => ⟨hs, le_refl _, fun r _ => ⟨le_refl _, fun _ => ⟨rfl, rfl⟩, fun h => absurd trivial h⟩⟩
  | cons a as ih =>
    intro h hs
    obtain ⟨s1, n1, m1⟩ := act_moves hs a
    obtain ⟨s2, n2, m2⟩ := ih s1
    have e : h.acts (a :: as) = (h.act a).acts as := rfl
    rw [e]
    refine ⟨s2, le_trans n1 n2, fun r hr => ?_⟩
    have m1 := m1 r hr
    obtain ⟨i1, i2, i3⟩ := m2 r (lt_of_lt_of_le hr n1)
    refine ⟨le_trans m1.mono i1, ?_, ?_⟩
    · rintro ⟨k1, k2⟩
      obtain ⟨j1, j2⟩ := i2 k2
      exact ⟨j1.trans (m1.same k1), j2.trans k1⟩
    · intro hn
      have he : ∀ q : LiveMap ι, q.entries = [] ↔ q.keys = [] := fun q => by
        unfold LiveMap.keys Dict.keys
        rw [List.map_eq_nil_iff]
      by_cases hk : ((h.act a).map r).keys = (h.map r).keys
      · rcases i3 fun h2 => hn ⟨hk, h2⟩ with h3 | ⟨h3, h4⟩
        · exact .inl (lt_of_le_of_lt m1.mono h3)
        · exact .inr ⟨h3, fun h5 => h4 ((he _).2 (hk.trans ((he _).1 h5)))⟩
      · rcases m1.moved hk with h3 | h3
        · exact .inl (lt_of_lt_of_le h3 i1)
        · have h4 : (h.map r).entries ≠ [] := fun h5 => hk (((he _).1 h3).trans ((he _).1 h5).symm)
          by_cases hst : KeysSteady r (h.act a) as
          · obtain ⟨j1, j2⟩ := i2 hst
            exact .inr ⟨(he _).2 (j2.trans ((he _).1 h3)), h4⟩
          · rcases i3 hst with h5 | ⟨_, h6⟩
            · exact .inl (lt_of_le_of_lt m1.mono h5)
            · exact absurd h3 h6

/-! ### Making a document -/

theorem keyAfter_append {pre : List String} {k : String} {ks : List String} (h : k ∉ pre) :
    keyAfter (pre ++ k :: ks) k = ks.head? := by
  induction pre with
  | nil => exact if_pos rfl
  | cons p pre ih =>
    simp only [List.mem_cons, not_or] at h
    change (if p = k then _ else _) = _
    rw [if_neg (Ne.symm h.1)]
    exact ih h.2

/-- The loop makes the document, if the iterator stands where it should. -/
theorem loop_makes (run : Behaviour ι σ) (r : Nat) (ks : List String) : ∀ (pre : List String) (fuel : Nat)
    (it : MapIter) (doc : Dict Val) (h : SchemaHeap ι σ), h.Sound → r < h.next → ks.length < fuel →
    it.cur = ks.head? → (pre ++ ks).Nodup → (∀ k ∈ doc.keys, k ∈ pre) → it.size = (pre ++ ks).length →
    (ks ≠ [] → (h.map r).keys = pre ++ ks ∧ (h.map r).state = it.state) →
    MakesDoc run r ks doc h (loop run r fuel it doc h).1 (loop run r fuel it doc h).2 := by
  have hlen : ∀ q : LiveMap ι, q.entries.length = q.keys.length := fun q => by
    unfold LiveMap.keys Dict.keys
    rw [List.length_map]
  induction ks with
  | nil =>
    intro pre fuel it doc h _ _ hf hc _ _ _ _
    obtain ⟨fuel, rfl⟩ := Nat.exists_eq_succ_of_ne_zero (Nat.ne_of_gt hf)
    have : it.next (h.map r) = .ok none := by
      unfold MapIter.next
      rw [hc]
      rfl
    unfold loop
    simp only [this]
    exact .done
  | cons k ks ih =>
    intro pre fuel it doc h hs hr hf hc hnd hd hsz hm
    obtain ⟨fuel, rfl⟩ := Nat.exists_eq_succ_of_ne_zero (Nat.ne_of_gt (Nat.zero_lt_of_lt hf))
    obtain ⟨hkeys, hst⟩ := hm (by simp)
    obtain ⟨f, hfnd⟩ := (Dict.mem_keys_iff (h.map r).entries k).1 (by
      change k ∈ (h.map r).keys
      rw [hkeys]
      simp)
    have hkp : k ∉ pre := fun h1 => (List.nodup_append.1 hnd).2.2 k h1 k (by simp) rfl
    have hnext : it.next (h.map r) = .ok (some ((k, f), { it with cur := ks.head? })) := by
      unfold MapIter.next
      rw [hc]
      change (if _ then _ else _) = _
      rw [if_neg (by rw [hst, hlen, hkeys, hsz]; simp), hfnd, hkeys, keyAfter_append hkp]
    unfold loop
    simp only [hnext]
    rcases hrun : run f h with ⟨_ | v, as⟩
    · exact .fails hfnd hrun
    · obtain ⟨s2, n2, m2⟩ := acts_moves as hs
      obtain ⟨i1, i2, i3⟩ := m2 r hr
      have hkd : k ∉ doc.keys := fun h1 => hkp (hd k h1)
      have hdoc : (if (h.acts as).hide f then doc else doc.set k v) =
          if (h.acts as).hide f then doc else doc ++ [(k, v)] := by
        rw [Dict.set_of_not_mem hkd]
      have hd' : ∀ x ∈ Dict.keys (if (h.acts as).hide f then doc else doc ++ [(k, v)]), x ∈ pre ++ [k] := by
        intro x hx
        split at hx
        · exact List.mem_append_left _ (hd x hx)
        · simp only [Dict.keys, List.map_append, List.map_cons, List.map_nil, List.mem_append] at hx ⊢
          exact hx.imp (fun hx => hd x hx) id
      have goes : (ks = [] ∨ KeysSteady r h as) → MakesDoc run r (k :: ks) doc h
          (loop run r fuel { it with cur := ks.head? } (if (h.acts as).hide f then doc else doc.set k v)
            (h.acts as)).1
          (loop run r fuel { it with cur := ks.head? } (if (h.acts as).hide f then doc else doc.set k v)
            (h.acts as)).2 := by
        intro hor
        rw [hdoc]
        refine .step hfnd hrun hor (ih (pre ++ [k]) fuel _ _ _ s2 (lt_of_lt_of_le hr n2)
          (by simpa using hf) rfl (by simpa using hnd) hd' (by simpa using hsz) fun hne => ?_)
        rcases hor with h1 | h1
        · exact absurd h1 hne
        · obtain ⟨j1, j2⟩ := i2 h1
          exact ⟨by rw [j2, hkeys]; simp, j1.trans hst⟩
      by_cases hst' : ks = [] ∨ KeysSteady r h as
      · exact goes hst'
      · rw [not_or] at hst'
        obtain ⟨k', ks', rfl⟩ := List.exists_cons_of_ne_nil hst'.1
        have herr : MapIter.next { it with cur := (k' :: ks').head? } ((h.acts as).map r) = .error .runtime := by
          unfold MapIter.next
          change (if _ then _ else _) = _
          refine if_pos ?_
          rcases i3 hst'.2 with h1 | ⟨h1, _⟩
          · exact .inl (by change _ ≠ it.state; omega)
          · refine .inr ?_
            rw [h1]
            change 0 ≠ it.size
            rw [hsz]
            simp
        obtain ⟨fuel, rfl⟩ : ∃ n, fuel = n + 1 := ⟨fuel - 1, by simp at hf; omega⟩
        unfold loop
        simp only [herr]
        exact .refused hfnd hrun hst'.2

theorem MakesDoc.unique {run : Behaviour ι σ} {r : Nat} {ks : List String} {doc : Dict Val}
    {h h1 h2 : SchemaHeap ι σ} {o1 o2 : Except Err (Dict Val)} (a : MakesDoc run r ks doc h o1 h1)
    (b : MakesDoc run r ks doc h o2 h2) : o1 = o2 ∧ h1 = h2 := by
  induction a with
  | done => cases b; exact ⟨rfl, rfl⟩
  | fails f1 r1 =>
    cases b with
    | fails f2 r2 =>
      rw [f1] at f2; cases f2
      rw [r1] at r2; cases r2
      exact ⟨rfl, rfl⟩
    | refused f2 r2 =>
      rw [f1] at f2; cases f2
      rw [r1] at r2; cases r2
    | step f2 r2 =>
      rw [f1] at f2; cases f2
      rw [r1] at r2; cases r2
  | refused f1 r1 s1 =>
    cases b with
    | fails f2 r2 =>
      rw [f1] at f2; cases f2
      rw [r1] at r2; cases r2
    | refused f2 r2 =>
      rw [f1] at f2; cases f2
      rw [r1] at r2; cases r2
      exact ⟨rfl, rfl⟩
    | step f2 r2 s2 =>
      rw [f1] at f2; cases f2
      rw [r1] at r2; cases r2
      rcases s2 with h | h
      · cases h
      · exact absurd h s1
  | step f1 r1 s1 _ ih =>
    cases b with
    | fails f2 r2 =>
      rw [f1] at f2; cases f2
      rw [r1] at r2; cases r2
    | refused f2 r2 s2 =>
      rw [f1] at f2; cases f2
      rw [r1] at r2; cases r2
      rcases s1 with h | h
      · cases h
      · exact absurd h s2
    | step f2 r2 _ m2 =>
      rw [f1] at f2; cases f2
      rw [r1] at r2; cases r2
      exact ih m2

/-- **C119 (exact).** Whatever the fields do to this and other schemas while a document is made: the
fields that the schema has when it is called are called in order, each as it is found when its turn
comes, until one of them fails or a `RuntimeError` says that a field other than the last has added,
removed or moved one. -/
theorem C119_exact (run : Behaviour ι σ) (s : Nat) {h : SchemaHeap ι σ} (hs : h.Sound)
    (o : Except Err (Dict Val)) (h' : SchemaHeap ι σ) :
    SchemaHeap.call run s h = (o, h') ↔ MakesDoc run (h.fields s) (h.of s).keys [] h o h' := by
  have hm := loop_makes run (h.fields s) (h.of s).keys [] ((h.of s).entries.length + 1) (h.of s).iter [] h hs
    (hs.exist s) (by simp [LiveMap.keys, Dict.keys]) rfl (hs.nodup _) (by simp [Dict.keys])
    (by simp [LiveMap.iter, LiveMap.keys, Dict.keys]) (fun _ => ⟨rfl, rfl⟩)
  constructor
  · intro hc
    unfold SchemaHeap.call at hc
    rw [hc] at hm
    exact hm
  · intro hd
    obtain ⟨e1, e2⟩ := hm.unique hd
    exact Prod.ext e1 e2

theorem MakesDoc.sublist {run : Behaviour ι σ} {r : Nat} {ks : List String} {doc d : Dict Val}
    {h h' : SchemaHeap ι σ} {o : Except Err (Dict Val)} (m : MakesDoc run r ks doc h o h') (ho : o = .ok d) :
    d.keys.Sublist (doc.keys ++ ks) := by
  induction m with
  | done => cases ho; simp
  | fails => cases ho
  | refused => cases ho
  | @step k ks doc h _ f v as _ _ _ _ _ ih =>
    refine (ih ho).trans ?_
    split
    · exact List.Sublist.append_left (List.sublist_cons_self _ _) _
    · simp [Dict.keys]

/-- **C119 (no other fields).** A document has no other fields than the schema had when it was called,
and they are in the same order. -/
theorem C119_fields (run : Behaviour ι σ) (s : Nat) {h h' : SchemaHeap ι σ} (hs : h.Sound) {d : Dict Val}
    (hc : SchemaHeap.call run s h = (.ok d, h')) : d.keys.Sublist (h.of s).keys := by
  simpa [Dict.keys] using ((C119_exact run s hs _ _).1 hc).sublist rfl

theorem MakesDoc.last {run : Behaviour ι σ} {r : Nat} {ks : List String} {doc d : Dict Val}
    {h h' : SchemaHeap ι σ} {o : Except Err (Dict Val)} (m : MakesDoc run r ks doc h o h') (ho : o = .ok d)
    (hs : h.Sound) (hr : r < h.next) (hne : ks ≠ []) :
    ∃ pre k h1 f v as, ks = pre ++ [k] ∧ (h1.map r).keys = (h.map r).keys ∧
      (h1.map r).entries.get? k = some f ∧ run f h1 = (.ok v, as) ∧ h' = h1.acts as := by
  induction m with
  | done => exact absurd rfl hne
  | fails => cases ho
  | refused => cases ho
  | @step k ks doc h h' f v as o hf hrun hst m ih =>
    obtain ⟨s2, n2, m2⟩ := acts_moves as hs
    rcases ks with _ | ⟨k', ks⟩
    · cases m
      exact ⟨[], k, h, f, v, as, rfl, rfl, hf, hrun, rfl⟩
    · obtain ⟨pre, k2, h1, f2, v2, as2, e1, e2, e3, e4, e5⟩ := ih ho s2 (lt_of_lt_of_le hr n2) (by simp)
      rcases hst with hst | hst
      · cases hst
      · exact ⟨k :: pre, k2, h1, f2, v2, as2, by rw [e1]; rfl, e2.trans ((m2 r hr).2.1 hst).2, e3, e4, e5⟩

/-- **C119, partial.** If a document is returned, although the keys of the map of the schema are not
what they were when it was called, they were changed by the last field, and not before its turn.
Missing: a change by the last field is not noticed (see `C119_violated`). -/
theorem C119_noticed_partial (run : Behaviour ι σ) (s : Nat) {h h' : SchemaHeap ι σ} (hs : h.Sound)
    {d : Dict Val} (hc : SchemaHeap.call run s h = (.ok d, h'))
    (hk : (h'.map (h.fields s)).keys ≠ (h.of s).keys) :
    ∃ pre k h1 f v as, (h.of s).keys = pre ++ [k] ∧ (h1.map (h.fields s)).keys = (h.of s).keys ∧
      (h1.map (h.fields s)).entries.get? k = some f ∧ run f h1 = (.ok v, as) ∧ h' = h1.acts as := by
  have hm := (C119_exact run s hs _ _).1 hc
  by_cases hne : (h.of s).keys = []
  · rw [hne] at hm
    cases hm
    exact absurd rfl hk
  · exact hm.last rfl hs (hs.exist s) hne

/-- **C119 (nothing to notice).** If no field ever adds, removes or moves a field of the schema, a call
fails only if a field fails, with the same exception. -/
theorem C119_quiet (run : Behaviour ι σ) (s : Nat) {h h' : SchemaHeap ι σ} (hs : h.Sound) {e : Err}
    (hq : ∀ f h1, KeysSteady (h.fields s) h1 (run f h1).2)
    (hc : SchemaHeap.call run s h = (.error e, h')) : ∃ f h1, (run f h1).1 = .error e := by
  have hm := (C119_exact run s hs _ _).1 hc
  generalize hr : h.fields s = r at hm hq
  generalize (h.of s).keys = ks at hm
  generalize ([] : Dict Val) = doc at hm
  generalize ho : (Except.error e : Except Err (Dict Val)) = o at hm
  clear hc hr hs
  induction hm with
  | done => cases ho
  | fails _ hrun => cases ho; exact ⟨_, _, by rw [hrun]⟩
  | @refused _ _ _ _ h1 f _ _ _ hrun hn =>
    refine absurd ?_ hn
    have := hq f h1
    rw [hrun] at this
    exact this
  | step _ _ _ _ ih => exact ih ho
end

/-! ### An example -/

/-- Three fields, `0`, `1` and `2`, called `a`, `b` and `c`; the schema `0` has the first two, the schema
`1` the first two the other way round. -/
def twoSchemas : SchemaHeap Nat Unit where
  map
    | 0 => ⟨[("a", 0), ("b", 1)], 2⟩
    | 1 => ⟨[("b", 1), ("a", 0)], 2⟩
    | _ => ⟨[], 0⟩
  next := 2
  fields s := if s = 1 then 1 else 0
  name f := if f = 0 then "a" else if f = 1 then "b" else "c"
  hide _ := false
  rest := ()

theorem twoSchemas_sound : twoSchemas.Sound where
  nodup r := by
    match r with
    | 0 => decide
    | 1 => decide
    | _ + 2 => exact List.nodup_nil
  exist s := by
    change (if s = 1 then 1 else 0) < 2
    split <;> omega

/-- Field `b` adds field `c` to both schemas. -/
def addsC : SchemaHeap.Behaviour Nat Unit
  | 1, _ => (.ok (.int 1), [.addFields 0 [2], .addFields 1 [2]])
  | f, _ => (.ok (.int f), [])

/-- **C119 (violated).** The last field of a schema can change which fields it has while a document is
made, and the document is returned nevertheless. -/
theorem C119_violated : (SchemaHeap.call addsC 0 twoSchemas).1 = .ok [("a", .int 0), ("b", .int 1)] ∧
    ((SchemaHeap.call addsC 0 twoSchemas).2.of 0).keys = ["a", "b", "c"] := by
  constructor <;> decide +kernel

/-- If it is not the last, it is noticed. -/
example : (SchemaHeap.call addsC 1 twoSchemas).1 = .error .runtime := by decide +kernel

example : ¬ KeysSteady 1 twoSchemas (addsC 1 twoSchemas).2 := by
  rintro ⟨_, h, _⟩
  revert h
  decide +kernel

/-- A field put in the place of another one is called in its turn: `a` puts `c` under the key `b`. -/
example : (SchemaHeap.call (fun (f : Nat) _ => (.ok (.int f), if f = 0 then [.edit 0 (.set "b" 2)] else [])) 0
    twoSchemas).1 = .ok [("a", .int 0), ("b", .int 2)] := by decide +kernel

end Fauxdoc
