import Mathlib.Data.List.Nodup
/-
Insertion-ordered Python dictionaries as association lists.
-/
namespace Fauxdoc

/-- An insertion-ordered dict with string keys. -/
abbrev Dict (β : Type) := List (String × β)

/-- `d[k] = v`: an existing key keeps its place. -/
def Dict.set {β : Type} : Dict β → String → β → Dict β
  | [], k, v => [(k, v)]
  | (k', v') :: d, k, v => if k' = k then (k, v) :: d else (k', v') :: Dict.set d k v

/-- `d.update(other)`. -/
def Dict.update {β : Type} (d : Dict β) (other : List (String × β)) : Dict β :=
  other.foldl (fun d kv => d.set kv.1 kv.2) d

/-- `{k: v for k, v in items}`. -/
def Dict.ofItems {β : Type} (items : List (String × β)) : Dict β := Dict.update [] items

/-- `d.get(k)`. -/
def Dict.get? {β : Type} : Dict β → String → Option β
  | [], _ => none
  | (k', v) :: d, k => if k' = k then some v else Dict.get? d k

/-- `list(d)`. -/
def Dict.keys {β : Type} (d : Dict β) : List String := d.map (·.1)

variable {β : Type}

theorem Dict.get?_set (d : Dict β) (k k' : String) (v : β) :
    (d.set k v).get? k' = if k = k' then some v else d.get? k' := by
  induction d with
  | nil => rfl
  | cons kv d ih =>
    obtain ⟨a, b⟩ := kv
    unfold Dict.set
    by_cases h : a = k
    · subst h
      rw [if_pos rfl]
      unfold Dict.get?
      by_cases h2 : a = k'
      · simp [h2]
      · simp [h2]
    · rw [if_neg h]
      unfold Dict.get?
      rw [ih]
      by_cases h2 : a = k'
      · subst h2; rw [if_pos rfl, if_pos rfl, if_neg (fun e => h e.symm)]
      · rw [if_neg h2, if_neg h2]

theorem Dict.keys_set (d : Dict β) (k : String) (v : β) :
    (d.set k v).keys = if k ∈ d.keys then d.keys else d.keys ++ [k] := by
  induction d with
  | nil => rfl
  | cons kv d ih =>
    obtain ⟨a, b⟩ := kv
    unfold Dict.set
    by_cases h : a = k
    · subst h; simp [Dict.keys]
    · rw [if_neg h]
      have h' : ¬ k = a := fun e => h e.symm
      simp only [Dict.keys, List.map_cons, List.mem_cons, h', false_or] at ih ⊢
      rw [ih]
      split <;> simp_all

theorem Dict.nodup_set (d : Dict β) (k : String) (v : β) (h : d.keys.Nodup) :
    (d.set k v).keys.Nodup := by
  rw [Dict.keys_set]
  by_cases hk : k ∈ d.keys
  · rw [if_pos hk]; exact h
  · rw [if_neg hk]
    exact List.Nodup.append h (by simp) (by simpa using hk)

theorem Dict.nodup_update (other : List (String × β)) (d : Dict β) (h : d.keys.Nodup) :
    (d.update other).keys.Nodup := by
  induction other generalizing d with
  | nil => exact h
  | cons kv l ih => exact ih _ (Dict.nodup_set d _ _ h)

theorem Dict.nodup_ofItems (l : List (String × β)) : (Dict.ofItems l).keys.Nodup :=
  Dict.nodup_update l [] (by simp [Dict.keys])

theorem Dict.update_update (d : Dict β) (a b : List (String × β)) :
    (d.update a).update b = d.update (a ++ b) := by
  unfold Dict.update; rw [List.foldl_append]

theorem Dict.mem_keys_iff (d : Dict β) (k : String) : k ∈ d.keys ↔ ∃ v, d.get? k = some v := by
  induction d with
  | nil => simp [Dict.keys, Dict.get?]
  | cons kv d ih =>
    obtain ⟨a, b⟩ := kv
    unfold Dict.get?
    by_cases h : a = k
    · simp [h, Dict.keys]
    · rw [if_neg h, ← ih]; simp [Dict.keys, show ¬ k = a from fun e => h e.symm]

/-- With distinct keys, `get?` finds exactly the entries. -/
theorem Dict.get?_eq_some_iff {d : Dict β} (h : d.keys.Nodup) (k : String) (v : β) :
    d.get? k = some v ↔ (k, v) ∈ d := by
  induction d with
  | nil => simp [Dict.get?]
  | cons kv d ih =>
    obtain ⟨a, b⟩ := kv
    have hn : a ∉ Dict.keys d ∧ (Dict.keys d).Nodup := by simpa [Dict.keys] using h
    unfold Dict.get?
    by_cases hk : a = k
    · subst hk
      rw [if_pos rfl]
      constructor
      · intro e; cases e; simp
      · intro e
        rcases List.mem_cons.1 e with e | e
        · cases e; rfl
        · exact absurd (List.mem_map_of_mem (f := Prod.fst) e) hn.1
    · rw [if_neg hk, ih hn.2]
      constructor
      · intro e; exact List.mem_cons_of_mem _ e
      · intro e
        rcases List.mem_cons.1 e with e | e
        · cases e; exact absurd rfl hk
        · exact e

theorem Dict.set_of_not_mem {d : Dict β} {k : String} (h : k ∉ d.keys) (v : β) :
    d.set k v = d ++ [(k, v)] := by
  induction d with
  | nil => rfl
  | cons kv d ih =>
    obtain ⟨a, b⟩ := kv
    have h' : k ≠ a ∧ k ∉ Dict.keys d := by simpa [Dict.keys] using h
    unfold Dict.set
    rw [if_neg (fun e => h'.1 e.symm), ih h'.2]; rfl

theorem Dict.update_of_nodup (l : List (String × β)) (d : Dict β)
    (h : (Dict.keys (d ++ l)).Nodup) : d.update l = d ++ l := by
  induction l generalizing d with
  | nil => simp [Dict.update]
  | cons kv l ih =>
    have hk : kv.1 ∉ d.keys := by
      intro hm
      have : (Dict.keys d ++ Dict.keys (kv :: l)).Nodup := by
        simpa [Dict.keys] using h
      exact (List.nodup_append.1 this).2.2 _ hm _ (by simp [Dict.keys]) rfl
    change Dict.update (d.set kv.1 kv.2) l = _
    rw [Dict.set_of_not_mem hk, ih _ (by simpa using h)]
    simp

/-- A dict made from items with distinct keys is the list of items. -/
theorem Dict.ofItems_of_nodup (l : List (String × β)) (h : (Dict.keys l).Nodup) :
    Dict.ofItems l = l := Dict.update_of_nodup l [] h

end Fauxdoc
