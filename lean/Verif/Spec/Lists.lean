import Mathlib.Data.List.Perm.Basic
import Mathlib.Data.List.Nodup
import Mathlib.Data.List.Perm.Subperm
import Mathlib.Data.Option.Basic
/-
List-level specification vocabulary.
-/
namespace Fauxdoc
variable {α : Type}

/-- `r` was taken from pairwise distinct positions of `items`. -/
def DistinctPick (items r : List α) : Prop :=
  ∃ ps : List Nat, ps.Nodup ∧ r.map some = ps.map fun i => items[i]?

theorem filterMap_positions (items : List α) (ps : List Nat) (h : ∀ i ∈ ps, i < items.length) :
    (ps.filterMap fun i => items[i]?).map some = ps.map fun i => items[i]? := by
  induction ps with
  | nil => rfl
  | cons p ps ih =>
    have hp := h p (by simp)
    rw [List.filterMap_cons, List.getElem?_eq_getElem hp, List.map_cons, List.map_cons,
      ih fun i hi => h i (by simp [hi]), List.getElem?_eq_getElem hp]

theorem distinctPick_of_positions (items : List α) (ps : List Nat) (hn : ps.Nodup)
    (h : ∀ i ∈ ps, i < items.length) :
    DistinctPick items (ps.filterMap fun i => items[i]?) ∧
      (ps.filterMap fun i => items[i]?).length = ps.length := by
  have := filterMap_positions items ps h
  refine ⟨⟨ps, hn, this⟩, ?_⟩
  simpa using congrArg List.length this

theorem DistinctPick.positions_lt {items r : List α} {ps : List Nat}
    (h : r.map some = ps.map fun i => items[i]?) : ∀ i ∈ ps, i < items.length := by
  intro i hi
  by_contra hn
  have h1 : (none : Option α) ∈ ps.map fun i => items[i]? :=
    List.mem_map.2 ⟨i, hi, List.getElem?_eq_none (by omega)⟩
  rw [← h] at h1
  simp at h1

/-- A full-length pick from distinct positions is a permutation. -/
theorem DistinctPick.perm {items r : List α} (h : DistinctPick items r)
    (hl : r.length = items.length) : r.Perm items := by
  obtain ⟨ps, hn, hr⟩ := h
  have hlt := DistinctPick.positions_lt hr
  have hpl : ps.length = items.length := by
    have := congrArg List.length hr; simp at this; omega
  have hsub : ps.Subperm (List.range items.length) :=
    List.Nodup.subperm hn fun i hi => List.mem_range.2 (hlt i hi)
  have hperm : ps.Perm (List.range items.length) := hsub.perm_of_length_le (by simp [hpl])
  have h2 : (r.map some).Perm (items.map some) := by
    rw [hr]
    refine (hperm.map _).trans (List.Perm.of_eq ?_)
    apply List.ext_getElem (by simp)
    intro i h1 h2
    simp at h1
    simp
  have := h2.filterMap id
  simpa [List.filterMap_map] using this

/-- A pick from distinct positions uses no element more often than it occurs. -/
theorem DistinctPick.subperm {items r : List α} (h : DistinctPick items r) :
    r.Subperm items := by
  obtain ⟨ps, hn, hr⟩ := h
  have hlt := DistinctPick.positions_lt hr
  have hsub : ps.Subperm (List.range items.length) :=
    List.Nodup.subperm hn fun i hi => List.mem_range.2 (hlt i hi)
  obtain ⟨l, hl, hs⟩ := hsub
  refine ⟨l.filterMap fun i => items[i]?, ?_, ?_⟩
  · have h1 := hl.filterMap fun i => items[i]?
    have h2 : (ps.filterMap fun i => items[i]?) = r := by
      have h3 := filterMap_positions items ps hlt
      rw [← hr] at h3
      exact List.map_injective_iff.2 (Option.some_injective α) h3
    rwa [h2] at h1
  · have h1 := hs.filterMap fun i => items[i]?
    have h2 : ((List.range items.length).filterMap fun i => items[i]?) = items := by
      have h3 := filterMap_positions items (List.range items.length) (by simp)
      have h4 : (List.range items.length).map (fun i => items[i]?) = items.map some := by
        apply List.ext_getElem (by simp)
        intro i h1 h2
        simp at h1
        simp
      rw [h4] at h3
      exact List.map_injective_iff.2 (Option.some_injective α) h3
    rwa [h2] at h1

/-- Distinct positions of a duplicate-free list give distinct values. -/
theorem DistinctPick.nodup {items r : List α} (h : DistinctPick items r) (hi : items.Nodup) :
    r.Nodup := by
  obtain ⟨l, hp, hs⟩ := h.subperm
  exact hp.nodup_iff.1 (hs.nodup hi)

end Fauxdoc
