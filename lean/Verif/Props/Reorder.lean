import Verif.Proofs.Reorder
import Verif.Props.Interleave
/-
C108: the order of unrelated fields does not matter.
-/
set_option linter.unusedSectionVars false
namespace Fauxdoc
open PyM World
variable {K : Type} [Field K] [LinearOrder K] [FloorRing K] {R : Rng K}

/-- **C108.** If a schema makes a document, then the schema with the same fields in another order,
in which fields that are not apart are in the same order as before, makes a document with the same entries
and leaves every object as the first one leaves it. -/
theorem C108_document (P : Ref → Prop) (str : Val → List Char) (fuel : Nat) (l l' : Dict Ref)
    (w t : World R) (doc : Dict Val) (hP : SelfContained P w) (hl : ∀ kf ∈ l, P kf.2)
    (hn : l.keys.Nodup) (h : Rearranged w l l') (hd : document str fuel l w = (.ok doc, t)) :
    ∃ doc' t', document str fuel l' w = (.ok doc', t') ∧ doc.Perm doc' ∧ ∀ x, t.obj x = t'.obj x := by
  obtain ⟨vals, h1, rfl⟩ := (document_runAll l hn w t doc).1 hd
  obtain ⟨vs', v', h2, h3, h4⟩ := rearranged_matches (str := str) (fuel := fuel) hP h
    (nodup_of_keys hn) hl w vals t (fun _ => rfl) h1
  have hn' : l'.keys.Nodup := ((h.perm.map Prod.fst).nodup_iff).1 hn
  exact ⟨_, v', (document_runAll l' hn' w v' _).2 ⟨vs', h2, rfl⟩, (h3.filter _).map _, h4.obj⟩

/-- **C108 (exceptions).** The one raises if and only if the other does. -/
theorem C108_raises (P : Ref → Prop) (str : Val → List Char) (fuel : Nat) (l l' : Dict Ref)
    (w : World R) (hP : SelfContained P w) (hl : ∀ kf ∈ l, P kf.2) (hn : l.keys.Nodup)
    (h : Rearranged w l l') :
    (∃ e, (document str fuel l w).1 = .error e) ↔ ∃ e, (document str fuel l' w).1 = .error e := by
  have hn' : l'.keys.Nodup := ((h.perm.map Prod.fst).nodup_iff).1 hn
  have key : ∀ m m' : Dict Ref, (∀ kf ∈ m, P kf.2) → m.keys.Nodup → Rearranged w m m' →
      (∃ e, (document str fuel m' w).1 = .error e) → ∃ e, (document str fuel m w).1 = .error e := by
    rintro m m' hm hk hr ⟨e, he⟩
    rcases hd : document str fuel m w with ⟨r | doc, t⟩
    · exact ⟨r, rfl⟩
    · obtain ⟨doc', t', h1, -⟩ := C108_document P str fuel m m' w t doc hP hm hk hr hd
      rw [h1] at he
      cases he
  exact ⟨key l' l (fun kf hkf => hl kf (h.perm.mem_iff.2 hkf)) hn' (h.symm (nodup_of_keys hn)),
    key l l' hl hn h⟩

/-- **C108 (any number of documents).** -/
theorem C108_documents (P : Ref → Prop) (str : Val → List Char) (fuel : Nat) (l l' : Dict Ref)
    (k : Nat) (w : World R) (hP : SelfContained P w) (hl : ∀ kf ∈ l, P kf.2) (hn : l.keys.Nodup)
    (h : Rearranged w l l') (hd : ∀ o ∈ documents str fuel l k w, ∃ d, o = .ok d) :
    List.Forall₂ SameEntries (documents str fuel l k w) (documents str fuel l' k w) := by
  have hl' : ∀ kf ∈ l', P kf.2 := fun kf hkf => hl kf (h.perm.mem_iff.2 hkf)
  induction k generalizing w with
  | zero => exact .nil
  | succ k ih =>
    unfold documents at hd ⊢
    obtain ⟨doc, hdoc⟩ := hd _ List.mem_cons_self
    obtain ⟨doc', t', h1, h2, h3⟩ := C108_document P str fuel l l' w (document str fuel l w).2 doc hP
      hl hn h (Prod.ext hdoc rfl)
    refine .cons ⟨doc, doc', hdoc, by rw [h1], h2⟩ ?_
    rw [h1]
    have hc := C56_document str fuel l w
    have hP' := selfContained_of_config hP hc
    have hih := ih (document str fuel l w).2 hP'
      (h.congr fun x => node_of_shape (shape_of_config (hc x)))
      fun o ho => hd o (List.mem_cons_of_mem _ ho)
    have h0 := Same.refl_of P _ hP'
    rwa [documents_same hP'.children hP'.sources str fuel l' hl' k _ t'
      ⟨h0.node, h0.wrapper, fun x _ => h3 x, h0.seeds⟩] at hih

/-- **C108 (any order).** Fields of which any two are apart can be put in any order. -/
theorem C108_any_order (P : Ref → Prop) (str : Val → List Char) (fuel : Nat) (l l' : Dict Ref)
    (k : Nat) (w : World R) (hP : SelfContained P w) (hl : ∀ kf ∈ l, P kf.2) (hn : l.keys.Nodup)
    (hu : l.Pairwise fun a b => Apart w a.2 b.2) (hp : l.Perm l')
    (hd : ∀ o ∈ documents str fuel l k w, ∃ d, o = .ok d) :
    List.Forall₂ SameEntries (documents str fuel l k w) (documents str fuel l' k w) :=
  C108_documents P str fuel l l' k w hP hl hn
    ⟨hp, fun a b hc hs => absurd (by simpa using hu.sublist hs) hc⟩ hd

/-- **C108 (violated for copies).** A copy before its source is another schema: the copy is
one document late. -/
theorem C108_copy_violated : ¬ SameEntries
    (document demoStr 5 [("kind", 3), ("copy", 7)] orderWorld).1
    (document demoStr 5 [("copy", 7), ("kind", 3)] orderWorld).1 := by
  rintro ⟨d, d', h1, h2, h3⟩
  have e1 : (document demoStr 5 [("kind", 3), ("copy", 7)] orderWorld).1 =
      .ok [("kind", .int 8), ("copy", .int 8)] := by decide +kernel
  have e2 : (document demoStr 5 [("copy", 7), ("kind", 3)] orderWorld).1 =
      .ok [("copy", .none), ("kind", .int 8)] := by decide +kernel
  obtain rfl := Except.ok.inj (h1.symm.trans e1)
  obtain rfl := Except.ok.inj (h2.symm.trans e2)
  exact absurd h3 (by decide)

/-- **C108 (violated with a shared emitter).** Two fields over one emitter take its values in the
order in which they are called. -/
theorem C108_shared_violated : ¬ SameEntries
    (document demoStr 5 [("a", 3), ("b", 6)] sharingWorld).1
    (document demoStr 5 [("b", 6), ("a", 3)] sharingWorld).1 := by
  rintro ⟨d, d', h1, h2, h3⟩
  have e1 : (document demoStr 5 [("a", 3), ("b", 6)] sharingWorld).1 =
      .ok [("a", .int 1), ("b", .int 2)] := by decide +kernel
  have e2 : (document demoStr 5 [("b", 6), ("a", 3)] sharingWorld).1 =
      .ok [("b", .int 1), ("a", .int 2)] := by decide +kernel
  obtain rfl := Except.ok.inj (h1.symm.trans e1)
  obtain rfl := Except.ok.inj (h2.symm.trans e2)
  exact absurd h3 (by decide)

/-- `n = Field('n', Sequential([1, 2]))`, object 3, and
`u = Field('u', Choice([7], replace=False))`, object 7. -/
def usedUpWorld : World demoRng :=
  ((do
    let e ← World.newSequential .list [.int 1, .int 2] false
    let _ ← World.newField 5 "n" e none none false (some 5)
    let u ← World.newChoice .list [.int 7] none false false none none
    let _ ← World.newField 5 "u" u none none false (some 6)) emptyWorld).2

/-- **C108 (violated after an exception).** The second document raises in both orders, but the
objects are not the same afterwards: what comes before the field that raises has been called. -/
theorem C108_after_error_violated :
    let w := (document demoStr 5 [("n", 3), ("u", 7)] usedUpWorld).2
    let a := document demoStr 5 [("n", 3), ("u", 7)] w
    let b := document demoStr 5 [("u", 7), ("n", 3)] w
    a.1 = .error .valueError ∧ b.1 = .error .valueError ∧
      (call demoStr 5 3 none a.2).1 = .ok (.int 1) ∧ (call demoStr 5 3 none b.2).1 = .ok (.int 2) := by
  decide +kernel

/-! ### Examples -/

/-- The schema `kind`, `copy` with another field `n`, object 11. -/
def threeWorld : World demoRng :=
  ((do
    let e ← World.newSequential .list [.int 1, .int 2] false
    let _ ← World.newField 5 "n" e none none false (some 5)) orderWorld).2

theorem threeWorld_self : SelfContained (· ∈ List.range 12) threeWorld := by
  refine ⟨?_, ?_, ?_⟩ <;> decide +kernel

/-- A way to show that an object does not need another one. -/
theorem Needs.mem_list {w : World R} {r x : Ref} (h : Needs w r x) (L : List Ref)
    (hc : ∀ y ∈ L, ∀ c ∈ (w.obj y).children, c ∈ L) (hs : ∀ y ∈ L, ∀ c ∈ (w.obj y).sources, c ∈ L)
    (hr : r ∈ L) : x ∈ L := by
  induction h with
  | self => exact hr
  | child h _ ih => exact ih (hc _ hr _ h)
  | source h _ ih => exact ih (hs _ hr _ h)

theorem threeWorld_fields_apart : Apart threeWorld 3 11 ∧ Apart threeWorld 7 11 := by
  have h1 : ∀ y ∈ List.range 8, ∀ c ∈ (threeWorld.obj y).children, c ∈ List.range 8 := by
    decide +kernel
  have h2 : ∀ y ∈ List.range 8, ∀ c ∈ (threeWorld.obj y).sources, c ∈ List.range 8 := by
    decide +kernel
  have h3 : ∀ y ∈ [8, 9, 10, 11], ∀ c ∈ (threeWorld.obj y).children, c ∈ [8, 9, 10, 11] := by
    decide +kernel
  have h4 : ∀ y ∈ [8, 9, 10, 11], ∀ c ∈ (threeWorld.obj y).sources, c ∈ [8, 9, 10, 11] := by
    decide +kernel
  have hd : ∀ x ∈ List.range 8, x ∉ [8, 9, 10, 11] := by decide
  refine ⟨⟨fun x ha hb => ?_, fun x ha hb => ?_⟩, ⟨fun x ha hb => ?_, fun x ha hb => ?_⟩⟩
  · exact hd x (ha.mem_list _ h1 h2 (by decide)) (hb.mem _ h3 (by decide))
  · exact hd x (hb.mem _ h1 (by decide)) (ha.mem_list _ h3 h4 (by decide))
  · exact hd x (ha.mem_list _ h1 h2 (by decide)) (hb.mem _ h3 (by decide))
  · exact hd x (hb.mem _ h1 (by decide)) (ha.mem_list _ h3 h4 (by decide))

/-- `n` may go anywhere, as long as `copy` stays behind `kind`. -/
example : Rearranged threeWorld [("kind", 3), ("copy", 7), ("n", 11)]
    [("n", 11), ("kind", 3), ("copy", 7)] := by
  refine ⟨by decide, fun a b hc hs => ?_⟩
  have hm : (a, b) ∈ [((("kind", 3), ("copy", 7)) : (String × Ref) × (String × Ref)),
      (("kind", 3), ("n", 11)), (("copy", 7), ("n", 11))] := by
    have := (List.mem_sublistsLen (n := 2)).2 ⟨hs, rfl⟩
    revert this
    simp [List.sublistsLen, List.sublistsLenAux]
    aesop
  simp only [List.mem_cons, List.not_mem_nil, or_false, Prod.mk.injEq] at hm
  rcases hm with ⟨rfl, rfl⟩ | ⟨rfl, rfl⟩ | ⟨rfl, rfl⟩
  · exact .cons _ (.refl _)
  · exact absurd threeWorld_fields_apart.1 hc
  · exact absurd threeWorld_fields_apart.2 hc
/-- `kind` and `copy` are not apart. -/
example : ¬ Apart threeWorld 3 7 := fun h =>
  h.2 3 (.child (c := 4) (by decide +kernel) (.source (g := 3) (by decide +kernel) (.self 3))) (.self 3)
/-- The documents of the two orders. -/
example : documents demoStr 5 [("kind", 3), ("copy", 7), ("n", 11)] 2 threeWorld =
    [.ok [("kind", .int 8), ("copy", .int 8), ("n", .int 1)],
     .ok [("kind", .int 7), ("copy", .int 7), ("n", .int 2)]] := by decide +kernel
example : documents demoStr 5 [("n", 11), ("kind", 3), ("copy", 7)] 2 threeWorld =
    [.ok [("n", .int 1), ("kind", .int 8), ("copy", .int 8)],
     .ok [("n", .int 2), ("kind", .int 7), ("copy", .int 7)]] := by decide +kernel

end Fauxdoc
