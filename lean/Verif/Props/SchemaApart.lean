import Verif.Spec.SchemaApart
import Verif.Props.LiveSchema
/-
C120: schemas do not interfere with each other unless they were given the same map.
-/
set_option linter.unusedSectionVars false
namespace Fauxdoc
variable {ι σ : Type} [DecidableEq ι]
open SchemaHeap

theorem setAll_entries (l : List (String × ι)) : ∀ m : LiveMap ι, (m.setAll l).entries = m.entries.update l := by
  induction l with
  | nil => exact fun _ => rfl
  | cons kf l ih => exact fun m => ih _

theorem setFields_of (h : SchemaHeap ι σ) (s : Nat) (fs : List ι) :
    (h.act (.setFields s fs)).fields = (fun x => if x = s then h.next else h.fields x) ∧
    (h.act (.setFields s fs)).of s =
      (⟨[], 0⟩ : LiveMap ι).setAll (Dict.ofItems (fs.map fun f => (h.name f, f))) ∧
    (∀ r, r ≠ h.next → (h.act (.setFields s fs)).map r = h.map r) ∧
    (h.act (.setFields s fs)).next = h.next + 1 := by
  refine ⟨rfl, ?_, fun r hr => ?_, rfl⟩
  · unfold SchemaHeap.of SchemaHeap.act SchemaHeap.addFields SchemaHeap.put SchemaHeap.alloc SchemaHeap.of
    simp [SchemaHeap.put]
  · unfold SchemaHeap.act SchemaHeap.addFields SchemaHeap.put SchemaHeap.alloc
    simp [SchemaHeap.put, hr]

/-- **C120 (own map).** A schema whose fields were set has a map of its own, with the given fields under
their names at that time, in order. -/
theorem C120_own (h : SchemaHeap ι σ) (hs : h.Sound) (s : Nat) (fs : List ι) :
    (h.act (.setFields s fs)).Alone s ∧
      ((h.act (.setFields s fs)).of s).entries = Dict.ofItems (fs.map fun f => (h.name f, f)) := by
  obtain ⟨e1, e2, -, -⟩ := setFields_of h s fs
  refine ⟨fun t ht => ?_, ?_⟩
  · rw [e1]
    change (if t = s then _ else _) ≠ if s = s then _ else _
    rw [if_neg ht, if_pos rfl]
    exact Nat.ne_of_lt (hs.exist t)
  · rw [e2, setAll_entries]
    exact Dict.ofItems_of_nodup _ (Dict.nodup_ofItems _)

theorem foreign_act {h : SchemaHeap ι σ} (hs : h.Sound) {s : Nat} (ha : h.Alone s) {a : SchemaAct ι σ}
    (hf : a.Foreign s (h.fields s)) :
    (h.act a).Alone s ∧ (h.act a).fields s = h.fields s ∧ (h.act a).map (h.fields s) = h.map (h.fields s) := by
  cases a with
  | setFields t fs =>
    obtain ⟨e1, -, e3, -⟩ := setFields_of h t fs
    have hst : s ≠ t := Ne.symm hf
    have es : (h.act (.setFields t fs)).fields s = h.fields s := by
      rw [e1]
      exact if_neg hst
    refine ⟨fun x hx => ?_, es, e3 _ (Nat.ne_of_lt (hs.exist s))⟩
    rw [es, e1]
    change (if x = t then _ else _) ≠ _
    split
    · exact Ne.symm (Nat.ne_of_lt (hs.exist s))
    · exact ha x hx
  | addFields t fs =>
    refine ⟨ha, rfl, if_neg (Ne.symm (ha t hf))⟩
  | assign t m =>
    by_cases hlt : m < h.next
    · have e : h.act (.assign t m) = { h with fields := fun x => if x = t then m else h.fields x } := if_pos hlt
      have es : (h.act (.assign t m)).fields s = h.fields s := by
        rw [e]
        exact if_neg (Ne.symm hf.1)
      refine ⟨fun x hx => ?_, es, by rw [e]⟩
      rw [es, e]
      change (if x = t then _ else _) ≠ _
      split
      · exact hf.2
      · exact ha x hx
    · have e : h.act (.assign t m) = h := if_neg hlt
      rw [e]
      exact ⟨ha, rfl, rfl⟩
  | view t hidden => exact ⟨ha, rfl, alloc_old _ (hs.exist s)⟩
  | edit m e => exact ⟨ha, rfl, if_neg (Ne.symm hf)⟩
  | rename f n => exact ⟨ha, rfl, rfl⟩
  | setHide f b => exact ⟨ha, rfl, rfl⟩
  | other g => exact ⟨ha, rfl, rfl⟩

/-- **C120 (isolation).** Whatever happens to other schemas, to other maps and to fields, a schema that
has its map for itself keeps exactly its fields under exactly their keys, and its map for itself. -/
theorem C120_isolated (as : List (SchemaAct ι σ)) : ∀ {h : SchemaHeap ι σ}, h.Sound → ∀ {s : Nat}, h.Alone s →
    (∀ a ∈ as, a.Foreign s (h.fields s)) → (h.acts as).of s = h.of s ∧ (h.acts as).Alone s := by
  induction as with
  | nil => exact fun _ _ ha _ => ⟨rfl, ha⟩
  | cons a as ih =>
    intro h hs s ha hf
    obtain ⟨a1, f1, m1⟩ := foreign_act hs ha (hf a (by simp))
    obtain ⟨i1, i2⟩ := ih (act_moves hs a).1 a1 (by rw [f1]; exact fun b hb => hf b (List.mem_cons_of_mem _ hb))
    refine ⟨i1.trans ?_, i2⟩
    unfold SchemaHeap.of
    rw [f1, m1]

/-- **C120 (views).** `hidden_fields` and `public_fields` give the hidden and the other fields, in order,
as a new map; changing this map in any way changes no schema. -/
theorem C120_views (h : SchemaHeap ι σ) (hs : h.Sound) (s : Nat) (hidden : Bool) (es : List (MapEdit ι))
    (t : Nat) :
    ((h.act (.view s hidden)).map h.next).entries =
        (h.of s).entries.filter (fun kf => h.hide kf.2 == hidden) ∧
      ((h.act (.view s hidden)).acts (es.map (.edit h.next))).of t = h.of t := by
  constructor
  · have e : (h.act (.view s hidden)).map h.next = (⟨[], 0⟩ : LiveMap ι).setAll
        (if hidden then Schema.hiddenFields h.hide (h.of s).entries
          else Schema.publicFields h.hide (h.of s).entries) := if_pos rfl
    have hn : ∀ p : String × ι → Bool, (Dict.keys ((h.of s).entries.filter p)).Nodup := by
      intro p
      exact (hs.nodup (h.fields s)).sublist (List.Sublist.map _ (List.filter_sublist))
    rw [e, setAll_entries]
    cases hidden with
    | true =>
      simp only [if_true, Schema.hiddenFields]
      rw [Dict.ofItems_of_nodup _ (hn _)]
      change Dict.ofItems _ = _
      rw [Dict.ofItems_of_nodup _ (hn _)]
      exact List.filter_congr fun x _ => by simp
    | false =>
      simp only [Bool.false_eq_true, if_false, Schema.publicFields]
      rw [Dict.ofItems_of_nodup _ (hn _)]
      change Dict.ofItems _ = _
      rw [Dict.ofItems_of_nodup _ (hn _)]
      exact List.filter_congr fun x _ => by simp
  · have h0 : (h.act (.view s hidden)).of t = h.of t := alloc_old _ (hs.exist t)
    have hne : ∀ x, (h.act (.view s hidden)).fields x ≠ h.next := fun x => Nat.ne_of_lt (hs.exist x)
    rw [← h0]
    generalize h.act (.view s hidden) = g at hne
    induction es generalizing g with
    | nil => rfl
    | cons e es ih =>
      change ((g.act (.edit h.next e)).acts (es.map (.edit h.next))).of t = _
      have h1 : (g.act (.edit h.next e)).of t = g.of t := if_neg (hne t)
      rw [← h1]
      exact ih _ hne

/-- **C120 (sharing).** Two schemas with the same map have the same fields, whatever happens, until the
map of one of them is replaced. -/
theorem C120_shared (as : List (SchemaAct ι σ)) : ∀ {h : SchemaHeap ι σ} {s t : Nat}, h.fields s = h.fields t →
    (∀ a ∈ as, a.Keeps s ∧ a.Keeps t) →
    (h.acts as).of s = (h.acts as).of t ∧ (h.acts as).fields s = h.fields s := by
  have keeps : ∀ (h : SchemaHeap ι σ) (s : Nat) (a : SchemaAct ι σ), a.Keeps s →
      (h.act a).fields s = h.fields s := by
    intro h s a ha
    cases a with
    | setFields t fs =>
      rw [(setFields_of h t fs).1]
      exact if_neg (Ne.symm ha)
    | assign t m =>
      by_cases hlt : m < h.next
      · have e : h.act (.assign t m) = { h with fields := fun x => if x = t then m else h.fields x } :=
          if_pos hlt
        rw [e]
        exact if_neg (Ne.symm ha)
      · have e : h.act (.assign t m) = h := if_neg hlt
        rw [e]
    | _ => rfl
  induction as with
  | nil =>
    intro h s t he _
    refine ⟨?_, rfl⟩
    unfold SchemaHeap.of
    change h.map (h.fields s) = h.map (h.fields t)
    rw [he]
  | cons a as ih =>
    intro h s t he hk
    have hk0 := hk a (by simp)
    obtain ⟨i1, i2⟩ := ih (h := h.act a) (s := s) (t := t)
      (by rw [keeps h s a hk0.1, keeps h t a hk0.2, he]) (fun b hb => hk b (List.mem_cons_of_mem _ hb))
    exact ⟨i1, i2.trans (keeps h s a hk0.1)⟩

/-- **C120 (adding).** `add_fields` replaces the fields of the same name in place and appends the others. -/
theorem C120_add (h : SchemaHeap ι σ) (s : Nat) (fs : List ι) :
    ((h.act (.addFields s fs)).of s).entries =
      (h.of s).entries.update (Dict.ofItems (fs.map fun f => (h.name f, f))) := by
  have e : (h.act (.addFields s fs)).of s =
      (h.of s).setAll (Dict.ofItems (fs.map fun f => (h.name f, f))) := if_pos rfl
  rw [e, setAll_entries]

/-! ### Examples -/

/-- The schema `0` gets new fields and a map of its own; afterwards `c` is renamed, the other schema gets
more fields, and the public fields of `0` (map 3) are changed: it still has `c` and `a`. -/
example : (((twoSchemas.act (.setFields 0 [2, 0])).acts [.rename 2 "x", .addFields 1 [2], .view 0 false,
    .edit 3 .clear, .setFields 1 [1]]).of 0).entries = [("c", 2), ("a", 0)] := by
  obtain ⟨h1, h2⟩ := C120_own twoSchemas twoSchemas_sound 0 [2, 0]
  rw [(C120_isolated [.rename 2 "x", .addFields 1 [2], .view 0 false, .edit 3 .clear, .setFields 1 [1]]
    (act_moves twoSchemas_sound _).1 h1 (by
      have : (twoSchemas.act (.setFields 0 [2, 0])).fields 0 = 2 := rfl
      rw [this]
      intro a ha
      simp only [List.mem_cons, List.not_mem_nil, or_false] at ha
      rcases ha with rfl | rfl | rfl | rfl | rfl
      · trivial
      · exact (by decide : (1 : Nat) ≠ 0)
      · trivial
      · exact (by decide : (3 : Nat) ≠ 2)
      · exact (by decide : (1 : Nat) ≠ 0))).1, h2]
  decide +kernel

/-- `b.fields = a.fields`: what is added to the one is added to the other. -/
example : (((twoSchemas.act (.assign 1 0)).acts [.addFields 1 [2]]).of 0).keys = ["a", "b", "c"] := by
  rw [(C120_shared [.addFields 1 [2]] (h := twoSchemas.act (.assign 1 0)) (s := 0) (t := 1) rfl
    (by simp [SchemaAct.Keeps])).1]
  decide +kernel

end Fauxdoc
