import Verif.Spec.GroupMap
import Verif.Props.Group
import Mathlib.Data.List.Perm.Subperm
/-
C101: an `ObjectMap` is operated on like an ordered dict.  C102: `do_method` and members that change
the group.
-/
namespace Fauxdoc
namespace GroupMap
variable {σ ι : Type}

/-- The ordered dict that a list of entries stands for. -/
def abs (m : Dict ι) : Ordered ι := ⟨m.get?, m.keys⟩

theorem shows_iff {m : Dict ι} {o : Ordered ι} : Shows m o ↔ m.keys.Nodup ∧ o = abs m := by
  unfold Shows abs
  constructor
  · rintro ⟨h1, h2, h3⟩
    have hn : m.keys.Nodup := by rw [← h1] at h2; exact h2
    refine ⟨hn, ?_⟩
    obtain ⟨val, order⟩ := o
    congr
    · funext k
      cases hv : val k with
      | none =>
        cases hm : m.get? k with
        | none => rfl
        | some v => exact absurd ((h3 k v).1 ((Dict.get?_eq_some_iff hn k v).1 hm)) (by simp [hv])
      | some v => exact ((Dict.get?_eq_some_iff hn k v).2 ((h3 k v).2 hv)).symm
    · exact h1.symm
  · rintro ⟨h1, rfl⟩
    exact ⟨rfl, h1, fun k v => (Dict.get?_eq_some_iff h1 k v).symm⟩

theorem keys_erase {m : Dict ι} (h : m.keys.Nodup) (k : String) :
    (erase m k).keys = m.keys.filter (· ≠ k) := by
  induction m with
  | nil => rfl
  | cons kv m ih =>
    obtain ⟨a, v⟩ := kv
    have hn : a ∉ Dict.keys m ∧ (Dict.keys m).Nodup := by simpa [Dict.keys] using h
    unfold erase
    by_cases hk : a = k
    · subst hk
      rw [if_pos rfl]
      change Dict.keys m = (a :: Dict.keys m).filter _
      rw [List.filter_cons_of_neg (by simp), List.filter_eq_self.2]
      intro x hx
      have : x ≠ a := fun e => hn.1 (e ▸ hx)
      simpa using this
    · rw [if_neg hk]
      change a :: (erase m k).keys = (a :: Dict.keys m).filter _
      rw [ih hn.2, List.filter_cons_of_pos (by simpa using hk)]

theorem get?_of_not_mem {m : Dict ι} {k : String} (h : k ∉ m.keys) : m.get? k = none := by
  cases hm : m.get? k with
  | none => rfl
  | some v => exact absurd ((Dict.mem_keys_iff m k).2 ⟨v, hm⟩) h

theorem get?_erase {m : Dict ι} (h : m.keys.Nodup) (k x : String) :
    (erase m k).get? x = if x = k then none else m.get? x := by
  induction m with
  | nil => simp [erase, Dict.get?]
  | cons kv m ih =>
    obtain ⟨a, v⟩ := kv
    have hn : a ∉ Dict.keys m ∧ (Dict.keys m).Nodup := by simpa [Dict.keys] using h
    unfold erase
    by_cases hk : a = k
    · subst hk
      rw [if_pos rfl]
      by_cases hx : x = a
      · subst hx; rw [if_pos rfl]; exact get?_of_not_mem hn.1
      · rw [if_neg hx]
        conv_rhs => unfold Dict.get?
        rw [if_neg (fun e => hx e.symm)]
    · rw [if_neg hk]
      unfold Dict.get?
      rw [ih hn.2]
      by_cases hx : a = x
      · subst hx; rw [if_pos rfl, if_pos rfl, if_neg hk]
      · rw [if_neg hx, if_neg hx]

theorem get?_append {a b : Dict ι} (k : String) :
    (a ++ b).get? k = (a.get? k).or (b.get? k) := by
  induction a with
  | nil => rfl
  | cons kv a ih =>
    obtain ⟨x, v⟩ := kv
    change (if x = k then some v else Dict.get? (a ++ b) k) =
      (if x = k then some v else Dict.get? a k).or (b.get? k)
    by_cases h : x = k
    · rw [if_pos h, if_pos h]; rfl
    · rw [if_neg h, if_neg h, ih]

theorem abs_set (m : Dict ι) (k : String) (v : ι) : abs (m.set k v) = (abs m).set k v := by
  unfold abs Ordered.set
  congr
  · funext x
    rw [Dict.get?_set]
    by_cases h : k = x
    · rw [if_pos h, if_pos h.symm]
    · rw [if_neg h, if_neg (fun e => h e.symm)]
  · exact Dict.keys_set m k v

theorem abs_erase {m : Dict ι} (h : m.keys.Nodup) (k : String) : abs (erase m k) = (abs m).del k := by
  unfold abs Ordered.del
  congr
  · funext x; exact get?_erase h k x
  · exact keys_erase h k

theorem abs_update (m : Dict ι) (l : List (String × ι)) : abs (m.update l) = (abs m).setAll l := by
  induction l generalizing m with
  | nil => rfl
  | cons kv l ih =>
    change abs ((m.set kv.1 kv.2).update l) = ((abs m).set kv.1 kv.2).setAll l
    rw [ih, abs_set]

theorem nodup_erase {m : Dict ι} (h : m.keys.Nodup) (k : String) : (erase m k).keys.Nodup := by
  rw [keys_erase h]; exact h.filter _

/-- One operation. -/
theorem op_abs (op : MapOp ι) {m : Dict ι} (h : m.keys.Nodup) :
    op.means (abs m) = ((op.run m).1, abs (op.run m).2) ∧ (op.run m).2.keys.Nodup := by
  cases op with
  | getItem k =>
    unfold MapOp.means MapOp.run
    dsimp only
    rw [PyM.bind_apply]
    unfold getItem
    rw [show (abs m).val k = m.get? k from rfl]
    cases m.get? k <;> exact ⟨rfl, h⟩
  | setItem k v => exact ⟨Prod.ext rfl (abs_set m k v).symm, Dict.nodup_set m k v h⟩
  | delItem k =>
    unfold MapOp.means MapOp.run
    dsimp only
    rw [PyM.bind_apply, show (abs m).val k = m.get? k from rfl]
    unfold delItem
    cases hv : m.get? k with
    | none => rw [if_pos rfl]; exact ⟨rfl, h⟩
    | some v => rw [if_neg (by simp)]; exact ⟨Prod.ext rfl (abs_erase h k).symm, nodup_erase h k⟩
  | pop k default =>
    unfold MapOp.means MapOp.run
    dsimp only
    rw [PyM.bind_apply, show (abs m).val k = m.get? k from rfl]
    unfold pop
    cases m.get? k with
    | none => cases default <;> exact ⟨rfl, h⟩
    | some v => exact ⟨Prod.ext rfl (abs_erase h k).symm, nodup_erase h k⟩
  | popItem last =>
    unfold MapOp.means MapOp.run
    dsimp only
    rw [PyM.bind_apply]
    unfold popItem
    have hk : (if last = true then (abs m).order.getLast? else (abs m).order.head?) =
        (if last = true then m.getLast? else m.head?).map Prod.fst := by
      cases last
      · simp [abs, Dict.keys]
      · simp [abs, Dict.keys]
    have hmem : ∀ kv, (if last = true then m.getLast? else m.head?) = some kv → kv ∈ m := by
      intro kv
      cases last
      · exact List.mem_of_head?
      · exact List.mem_of_getLast?
    rw [hk]
    cases hv : (if last = true then m.getLast? else m.head?) with
    | none => exact ⟨rfl, h⟩
    | some kv =>
      obtain ⟨k, v⟩ := kv
      have := (Dict.get?_eq_some_iff h k v).2 (hmem _ hv)
      refine ⟨Prod.ext ?_ (abs_erase h k).symm, nodup_erase h k⟩
      change (m.get? k).elim _ _ = _
      rw [this]
      rfl
  | setDefault k v =>
    unfold MapOp.means MapOp.run
    dsimp only
    rw [PyM.bind_apply, show (abs m).val k = m.get? k from rfl]
    unfold setDefault
    cases m.get? k with
    | none => exact ⟨Prod.ext rfl (abs_set m k v).symm, Dict.nodup_set m k v h⟩
    | some v => exact ⟨rfl, h⟩
  | update other => exact ⟨Prod.ext rfl (abs_update m other).symm, Dict.nodup_update other m h⟩
  | moveToEnd k last =>
    unfold MapOp.means MapOp.run
    dsimp only
    rw [PyM.bind_apply, show (abs m).val k = m.get? k from rfl]
    unfold moveToEnd
    cases hv : m.get? k with
    | none => rw [if_pos rfl]; exact ⟨rfl, h⟩
    | some v =>
      rw [if_neg (by simp)]
      have hkeys : (if last then erase m k ++ [(k, v)] else (k, v) :: erase m k : Dict ι).keys =
          if last then (abs m).order.filter (· ≠ k) ++ [k] else k :: (abs m).order.filter (· ≠ k) := by
        have := keys_erase h k
        unfold Dict.keys at this
        cases last <;> simp [Dict.keys, abs, this]
      have hval : (if last then erase m k ++ [(k, v)] else (k, v) :: erase m k : Dict ι).get? = m.get? := by
        funext x
        cases last
        · change Dict.get? ((k, v) :: erase m k) x = _
          change (if k = x then some v else (erase m k).get? x) = _
          rw [get?_erase h]
          by_cases hx : k = x
          · subst hx; rw [if_pos rfl, hv]
          · rw [if_neg hx, if_neg (fun e => hx e.symm)]
        · change Dict.get? (erase m k ++ [(k, v)]) x = _
          rw [get?_append, get?_erase h]
          by_cases hx : x = k
          · subst hx; rw [if_pos rfl, hv]; simp [Dict.get?]
          · rw [if_neg hx]
            have : Dict.get? [(k, v)] x = none := by
              unfold Dict.get?
              rw [if_neg (fun e => hx e.symm)]
              rfl
            rw [this, Option.or_none]
      refine ⟨Prod.ext rfl ?_, ?_⟩
      · change _ = abs (if last then erase m k ++ [(k, v)] else (k, v) :: erase m k)
        unfold abs at hkeys ⊢
        rw [hval, hkeys]
      · change (if last then erase m k ++ [(k, v)] else (k, v) :: erase m k : Dict ι).keys.Nodup
        rw [hkeys]
        have hf : (m.keys.filter (· ≠ k)).Nodup := h.filter _
        cases last
        · exact List.nodup_cons.2 ⟨by simp, hf⟩
        · refine List.Nodup.append hf (by simp) ?_
          intro x hx hx'
          rw [List.mem_singleton] at hx'
          subst hx'
          simp at hx
  | clear => exact ⟨rfl, by simp [MapOp.run, clear, PyM.bind_apply, Dict.keys]⟩

theorem runs_abs (ops : List (MapOp ι)) {m : Dict ι} (h : m.keys.Nodup) :
    means ops (abs m) = ((runs ops m).1, abs (runs ops m).2) ∧ (runs ops m).2.keys.Nodup := by
  induction ops generalizing m with
  | nil => exact ⟨rfl, h⟩
  | cons op ops ih =>
    obtain ⟨h1, h2⟩ := op_abs op h
    obtain ⟨h3, h4⟩ := ih h2
    unfold means runs
    rw [h1]
    dsimp only
    rw [h3]
    exact ⟨rfl, h4⟩

/-- **C101 (histories).** Whatever is done to an `ObjectMap` that shows an ordered dict, every result is
the one that is documented for ordered dicts, and it goes on showing it. -/
theorem C101_histories (ops : List (MapOp ι)) {m : Dict ι} {o : Ordered ι} (h : Shows m o) :
    (runs ops m).1 = (means ops o).1 ∧ Shows (runs ops m).2 (means ops o).2 := by
  obtain ⟨h1, rfl⟩ := shows_iff.1 h
  obtain ⟨h2, h3⟩ := runs_abs ops h1
  rw [h2]
  exact ⟨rfl, shows_iff.2 ⟨h3, rfl⟩⟩

/-- An ordered dict with nothing in it. -/
def Ordered.empty : Ordered ι := ⟨fun _ => none, []⟩

/-- **C101 (new maps).** `ObjectMap(objects)` shows the entries given, the last one for a key at the
place of the first; `m | other` and `other | m` are the maps with the entries of both. -/
theorem C101_new (objects : List (String × ι)) :
    ∃ m, init (some objects) = .ok m ∧ Shows m (Ordered.empty.setAll objects) := by
  refine ⟨_, rfl, shows_iff.2 ⟨Dict.nodup_ofItems objects, ?_⟩⟩
  exact (abs_update [] objects).symm

theorem ofItems_self {m : Dict ι} (h : m.keys.Nodup) : Dict.ofItems m = m := by
  have := Dict.update_of_nodup m [] (by simpa using h)
  simpa [Dict.ofItems] using this

theorem C101_or {m : Dict ι} {o : Ordered ι} (h : Shows m o) (other : List (String × ι)) :
    ∃ m', or_ m other = .ok m' ∧ Shows m' (o.setAll other) := by
  obtain ⟨h1, rfl⟩ := shows_iff.1 h
  refine ⟨_, rfl, shows_iff.2 ⟨Dict.nodup_update _ _ (Dict.nodup_ofItems m), ?_⟩⟩
  rw [ofItems_self h1, abs_update]

theorem C101_ror {m : Dict ι} (other : List (String × ι)) :
    ∃ m', ror other m = .ok m' ∧ Shows m' ((Ordered.empty.setAll other).setAll m) := by
  refine ⟨_, rfl, shows_iff.2 ⟨Dict.nodup_update _ _ (Dict.nodup_ofItems other), ?_⟩⟩
  rw [abs_update]
  congr 1
  exact (abs_update [] other).symm

theorem eqDict_iff [DecidableEq ι] {m m' : Dict ι} (h : m.keys.Nodup) (h' : m'.keys.Nodup) :
    eqDict m m' = true ↔ m.get? = m'.get? := by
  unfold eqDict
  rw [Bool.and_eq_true, decide_eq_true_iff, List.all_eq_true]
  have hlen : ∀ d : Dict ι, d.keys.length = d.length := fun d => List.length_map _
  constructor
  · rintro ⟨h1, h2⟩
    have hsub : m.keys ⊆ m'.keys := by
      intro k hk
      obtain ⟨v, hv⟩ := (Dict.mem_keys_iff m k).1 hk
      have := h2 (k, v) ((Dict.get?_eq_some_iff h k v).1 hv)
      exact (Dict.mem_keys_iff m' k).2 ⟨v, by simpa using this⟩
    have hperm : m.keys.Perm m'.keys :=
      (h.subperm hsub).perm_of_length_le (by rw [hlen, hlen, h1]; exact Nat.le_refl _)
    funext k
    cases hv : m.get? k with
    | some v =>
      have := h2 (k, v) ((Dict.get?_eq_some_iff h k v).1 hv)
      exact (by simpa using this : m'.get? k = some v).symm
    | none =>
      refine (get?_of_not_mem fun hk => ?_).symm
      obtain ⟨v, hv'⟩ := (Dict.mem_keys_iff m k).1 (hperm.mem_iff.2 hk)
      rw [hv] at hv'
      cases hv'
  · intro e
    refine ⟨?_, fun kv hkv => ?_⟩
    · have : m.keys.Perm m'.keys := by
        refine (List.perm_ext_iff_of_nodup h h').2 fun k => ?_
        rw [Dict.mem_keys_iff, Dict.mem_keys_iff, e]
      rw [← hlen, ← hlen, this.length_eq]
    · have := (Dict.get?_eq_some_iff h kv.1 kv.2).2 hkv
      rw [e] at this
      simpa using this

/-- **C101 (equality).** Two maps are equal if they are the same ordered dict; a map and another dict
are equal if there is the same under each key. -/
theorem C101_equal [DecidableEq ι] {m m' : Dict ι} {o o' : Ordered ι} (h : Shows m o) (h' : Shows m' o') :
    (eqOrdered m m' = true ↔ o = o') ∧ (eqDict m m' = true ↔ o.val = o'.val) := by
  obtain ⟨h1, rfl⟩ := shows_iff.1 h
  obtain ⟨h2, rfl⟩ := shows_iff.1 h'
  refine ⟨?_, eqDict_iff h1 h2⟩
  unfold eqOrdered
  rw [Bool.and_eq_true, eqDict_iff h1 h2, decide_eq_true_iff]
  unfold abs
  simp only [Ordered.mk.injEq]

/-- **C101 (do_method).** `do_method` visits what is stored under the keys, in their order. -/
theorem C101_do_method {m : Dict (Option ι)} {o : Ordered (Option ι)} (h : Shows m o)
    (run : ι → PyM σ Unit) (s s' : σ) (r : Except Err Unit) :
    Group.doMethod (Group.ofMap m) run s = (r, s') ↔
      Group.Sweep run (o.order.map fun k => (o.val k).join) s r s' := by
  obtain ⟨h1, rfl⟩ := shows_iff.1 h
  rw [Group.C58_do_method]
  have : Group.ofMap m = (abs m).order.map fun k => ((abs m).val k).join := by
    unfold Group.ofMap abs Dict.keys
    dsimp only
    rw [List.map_map]
    refine List.map_congr_left fun kv hkv => ?_
    have := (Dict.get?_eq_some_iff h1 kv.1 kv.2).2 hkv
    simp [this]
  rw [this]

/-- **C101 (violated).** A map cannot be copied: `m.copy()`, `copy.copy(m)`, `copy.deepcopy(m)`,
pickling and `ObjectMap.fromkeys` raise TypeError, for every map (and so does copying a schema, whose
fields are an `ObjectMap`). -/
theorem C101_violated (m : Dict ι) (entry : ι → Py ι) (keys : List String) (v : ι) :
    copy m = .error .typeError ∧ reduce entry m = .error .typeError ∧
      fromKeys keys v = .error .typeError ∧ init (none : Option (List (String × ι))) = .error .typeError :=
  ⟨rfl, rfl, rfl, rfl⟩

/-! ### Examples -/

/-- A map with three members, and an ordered dict that it shows. -/
def three : Dict Nat := [("a", 1), ("b", 2), ("c", 3)]

theorem three_shows : Shows three ⟨three.get?, ["a", "b", "c"]⟩ := shows_iff.2 ⟨by decide, rfl⟩

/-- `m.move_to_end('a'); m.popitem(); m['b'] = 5; m['d'] = 6; m.pop('x')`. -/
def threeOps : List (MapOp Nat) :=
  [.moveToEnd "a" true, .popItem true, .setItem "b" 5, .setItem "d" 6, .pop "x" none]

example : (runs threeOps three).2 = [("b", 5), ("c", 3), ("d", 6)] := by decide

example : Shows (runs threeOps three).2 (means threeOps ⟨three.get?, ["a", "b", "c"]⟩).2 :=
  (C101_histories threeOps three_shows).2

example : eqDict three [("c", 3), ("a", 1), ("b", 2)] = true ∧
    eqOrdered three [("c", 3), ("a", 1), ("b", 2)] = false := by decide

end GroupMap

/-! ### C102 -/

namespace GroupMap
variable {σ ι : Type}

/-- **C102 (maps).** `do_method` of a map visits every member that the map has when it is called, once
and in order, whatever the methods do to the map meanwhile. -/
theorem C102_map (find : σ → Dict (Option ι)) (run : ι → PyM σ Unit) (s s' : σ) (r : Except Err Unit) :
    doMethod find run s = (r, s') ↔ Group.Sweep run ((find s).map Prod.snd) s r s' :=
  Group.C58_do_method _ run s s' r

end GroupMap

namespace LiveGroup
variable {σ ι : Type}

/-- Every member that the group has when `do_method` is called is visited once, in order. -/
def ReachesAll (find : σ → List (Option ι)) (run : ι → PyM σ Unit) : Prop :=
  ∀ s, ∃ fuel r s', doMethod find run fuel 0 s = some (r, s') ∧ Group.Sweep run (find s) s r s'

theorem ignoring_snd (m : PyM σ Unit) (s : σ) : (PyM.ignoring .attributeError m s).2 = (m s).2 := by
  unfold PyM.ignoring
  rcases m s with ⟨e | u, s1⟩
  · dsimp only; split <;> rfl
  · rfl

theorem loop_eq (find : σ → List (Option ι)) (run : ι → PyM σ Unit)
    (hk : ∀ i s, find (run i s).2 = find s) (i : Nat) (s : σ) (l : List (Option ι))
    (hl : (find s).drop i = l) :
    doMethod find run (l.length + 1) i s = some (Group.doMethod l run s) := by
  induction l generalizing i s with
  | nil =>
    have : (find s)[i]? = none := by
      rw [List.getElem?_eq_none_iff]; exact List.drop_eq_nil_iff.1 hl
    unfold doMethod
    rw [this]
    rfl
  | cons m l ih =>
    have hm : (find s)[i]? = some m := by
      rw [← Nat.add_zero i, ← List.getElem?_drop, hl]; rfl
    have hd : ∀ s', find s' = find s → (find s').drop (i + 1) = l := by
      intro s' hs
      rw [hs, ← List.drop_drop, hl]; rfl
    rw [List.length_cons]
    unfold doMethod
    rw [hm]
    cases m with
    | none => exact ih _ _ (hd s rfl)
    | some m =>
      have h2 := ignoring_snd (run m) s
      change _ = some ((PyM.ignoring .attributeError (run m) >>= fun _ => Group.doMethod l run) s)
      rw [PyM.bind_apply]
      dsimp only
      rcases hr : (PyM.ignoring .attributeError (run m) : PyM σ Unit) s with ⟨e | u, s1⟩
      · rfl
      · rw [hr] at h2
        dsimp only at h2
        exact ih _ _ (hd s1 (by rw [h2]; exact hk m s))

/-- **C102 (groups, part that holds).** `do_method` of a group reaches all members as long as the
methods leave the group as it is. -/
theorem C102_group_partial (find : σ → List (Option ι)) (run : ι → PyM σ Unit)
    (hk : ∀ i s, find (run i s).2 = find s) : ReachesAll find run := by
  intro s
  refine ⟨(find s).length + 1, _, _, loop_eq find run hk 0 s _ rfl, ?_⟩
  exact (Group.C58_do_method _ run s _ _).1 rfl

theorem drop_of_some {α : Type} {l : List α} {i : Nat} {a : α} (h : l[i]? = some a) :
    l.drop i = a :: l.drop (i + 1) := by
  obtain ⟨hi, rfl⟩ := List.getElem?_eq_some_iff.1 h
  exact List.drop_eq_getElem_cons hi

theorem getElem?_prefix {α : Type} {l l' : List α} (h : l <+: l') {i : Nat} {a : α}
    (ha : l[i]? = some a) : l'[i]? = some a := by
  obtain ⟨t, rfl⟩ := h
  rw [List.getElem?_append_left (List.getElem?_eq_some_iff.1 ha).1, ha]

/-- **C102 (growing groups).** If the methods only add members at the end, those that the group has in
the end have all been visited, once and in order, if it comes to an end. -/
theorem C102_growing (find : σ → List (Option ι)) (run : ι → PyM σ Unit)
    (hk : ∀ i s, find s <+: find (run i s).2) (fuel : Nat) (s s' : σ)
    (h : doMethod find run fuel 0 s = some (.ok (), s')) :
    find s <+: find s' ∧ Group.Sweep run (find s') s (.ok ()) s' := by
  have key : ∀ fuel i s, doMethod find run fuel i s = some (.ok (), s') →
      find s <+: find s' ∧ Group.Sweep run ((find s').drop i) s (.ok ()) s' := by
    intro fuel
    induction fuel with
    | zero => intro i s h; cases h
    | succ fuel ih =>
      intro i s h
      unfold doMethod at h
      rcases hm : (find s)[i]? with _ | _ | m
      · rw [hm] at h
        cases h
        rw [List.drop_eq_nil_of_le (List.getElem?_eq_none_iff.1 hm)]
        exact ⟨List.prefix_refl _, .done _⟩
      · rw [hm] at h
        obtain ⟨h1, h2⟩ := ih _ _ h
        refine ⟨h1, ?_⟩
        rw [drop_of_some (getElem?_prefix h1 hm)]
        exact .skipNone h2
      · rw [hm] at h
        dsimp only at h
        have hp := hk m s
        unfold PyM.ignoring at h
        rcases hr : run m s with ⟨e | u, s1⟩
        · rw [hr] at h hp
          dsimp only at h hp
          by_cases he : e = .attributeError
          · subst he
            rw [if_pos rfl] at h
            obtain ⟨h1, h2⟩ := ih _ _ h
            refine ⟨hp.trans h1, ?_⟩
            rw [drop_of_some (getElem?_prefix (hp.trans h1) hm)]
            exact .skipped hr h2
          · rw [if_neg he] at h
            cases h
        · rw [hr] at h hp
          dsimp only at h hp
          obtain ⟨h1, h2⟩ := ih _ _ h
          refine ⟨hp.trans h1, ?_⟩
          rw [drop_of_some (getElem?_prefix (hp.trans h1) hm)]
          exact .ran hr h2
  exact key fuel 0 s h

/-- A group and the members visited so far. -/
abbrev Visited := List (Option Nat) × List Nat

/-- A method by which a member leaves the group. -/
def leave (i : Nat) : PyM Visited Unit := fun s => (.ok (), (s.1.erase (some i), s.2 ++ [i]))

/-- A method by which a member adds another one. -/
def invite (i : Nat) : PyM Visited Unit := fun s => (.ok (), (s.1 ++ [some i], s.2 ++ [i]))

/-- **C102 (violated).** If members leave the group, the next ones are left out: of the members 0, 1, 2
only 0 and 2 are visited. -/
theorem C102_violated : doMethod Prod.fst leave 4 0 ([some 0, some 1, some 2], []) =
      some (.ok (), ([some 1], [0, 2])) ∧
    ¬ ReachesAll (σ := Visited) Prod.fst leave := by
  refine ⟨by decide, fun h => ?_⟩
  obtain ⟨fuel, r, s', h1, h2⟩ := h ([some 0, some 1], [])
  have hs : Group.Sweep leave [some 0, some 1] (([some 0, some 1], []) : Visited) (.ok ())
      ([], [0, 1]) := .ran rfl (.ran rfl (.done _))
  have e := (Group.C58_do_method _ leave _ _ _).2 h2
  rw [(Group.C58_do_method _ leave _ _ _).2 hs] at e
  cases e
  have h3 : ∀ fuel, doMethod Prod.fst leave fuel 0 (([some 0, some 1], []) : Visited) ≠
      some (.ok (), ([], [0, 1])) := by
    intro fuel
    rcases fuel with _ | _ | fuel
    · decide
    · decide
    · intro h
      have : doMethod Prod.fst leave (fuel + 1 + 1) 0 (([some 0, some 1], []) : Visited) =
          some (.ok (), ([some 1], [0])) := rfl
      rw [this] at h
      revert h
      decide
  exact h3 fuel h1

/-- **C102 (violated).** If members keep adding members, `do_method` never ends. -/
theorem C102_endless (l : List Nat) (i fuel : Nat) (g : List (Option Nat)) (hi : i < g.length)
    (hg : none ∉ g) : doMethod Prod.fst invite fuel i (g, l) = none := by
  induction fuel generalizing i l g with
  | zero => rfl
  | succ fuel ih =>
    unfold doMethod
    rcases hm : g[i]? with _ | _ | m
    · rw [List.getElem?_eq_none_iff] at hm; omega
    · exact absurd (List.mem_of_getElem? hm) hg
    · exact ih _ _ _ (by simp; omega) (by simp [hg])

/-- A method that does nothing to the group. -/
example : ReachesAll (σ := Visited) Prod.fst fun i => (fun s => (.ok (), (s.1, s.2 ++ [i]))) :=
  C102_group_partial _ _ fun _ _ => rfl

/-- Members below 2 add a member. -/
def grow (i : Nat) : PyM Visited Unit := fun s =>
  (.ok (), (if i < 2 then s.1 ++ [some (i + 2)] else s.1, s.2 ++ [i]))

example : ∃ s', doMethod Prod.fst grow 5 0 (([some 0, some 1], []) : Visited) = some (.ok (), s') ∧
    Group.Sweep grow s'.1 (([some 0, some 1], []) : Visited) (.ok ()) s' ∧ s'.2 = [0, 1, 2, 3] := by
  refine ⟨([some 0, some 1, some 2, some 3], [0, 1, 2, 3]), by decide, ?_, rfl⟩
  refine (C102_growing Prod.fst grow (fun i s => ?_) 5 _ _ (by decide)).2
  change s.1 <+: (if i < 2 then _ else _)
  split
  · exact List.prefix_append _ _
  · exact List.prefix_refl _

/-- A map whose members leave it: all are visited. -/
def leaveMap (i : Nat) : PyM (Dict (Option Nat) × List Nat) Unit := fun s =>
  (.ok (), (s.1.filter (·.2 ≠ some i), s.2 ++ [i]))

example : GroupMap.doMethod Prod.fst leaveMap ([("a", some 0), ("b", some 1), ("c", some 2)], []) =
    (.ok (), ([], [0, 1, 2])) := by decide

end LiveGroup
end Fauxdoc
