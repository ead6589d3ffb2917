import Verif.Spec.Reorder
import Verif.Proofs.Batch2
import Verif.Props.Unrelated
import Verif.Props.Profile
/-
Lemmas for C108: calls of independent fields can be exchanged.
-/
set_option linter.unusedSectionVars false
namespace Fauxdoc
open PyM World
variable {K : Type} [Field K] [LinearOrder K] [FloorRing K] {R : Rng K}
variable {str : Val → List Char} {fuel : Nat}

theorem Needs.trans {w : World R} {r x y : Ref} (h : Needs w r x) (h' : Needs w x y) :
    Needs w r y := by
  induction h with
  | self => exact h'
  | child hc _ ih => exact .child hc (ih h')
  | source hg _ ih => exact .source hg (ih h')

theorem Needs.mono {w v : World R} (h : ∀ x, (v.obj x).node = (w.obj x).node) {r x : Ref}
    (hr : Needs w r x) : Needs v r x := by
  induction hr with
  | self r => exact .self r
  | child hc _ ih =>
    refine .child ?_ ih
    unfold Attrs.children at hc ⊢
    rwa [h]
  | source hg _ ih =>
    refine .source ?_ ih
    unfold Attrs.sources at hg ⊢
    rwa [h]

theorem Needs.mem {P : Ref → Prop} {w : World R} (h : SelfContained P w) {r x : Ref} (hr : P r)
    (hx : Needs w r x) : P x := by
  induction hx with
  | self => exact hr
  | child hc _ ih => exact ih (h.children _ hr _ hc)
  | source hg _ ih => exact ih (h.sources _ hr _ hg)

theorem Apart.symm {w : World R} {f g : Ref} (h : Apart w f g) : Apart w g f :=
  ⟨h.2, h.1⟩

theorem Apart.congr {w v : World R} (h : ∀ x, (v.obj x).node = (w.obj x).node) {f g : Ref}
    (hfg : Apart w f g) : Apart v f g := by
  refine ⟨fun x h1 h2 => hfg.1 x (h1.mono fun x => (h x).symm) ((Below.congr h).1 h2),
    fun x h1 h2 => hfg.2 x (h1.mono fun x => (h x).symm) ((Below.congr h).1 h2)⟩

/-- Two stores with the same objects, all in order to be called: what `Same` asks for. -/
structure Twins (P : Ref → Prop) (w v : World R) : Prop where
  obj : ∀ x, w.obj x = v.obj x
  self : SelfContained P w

theorem selfContained_of_config {P : Ref → Prop} {w v : World R} (h : SelfContained P w)
    (hc : SameConfig w v) : SelfContained P v where
  children r hr c hcc := by
    refine h.children r hr c ?_
    unfold Attrs.children at hcc ⊢
    rwa [node_of_shape (shape_of_config (hc r))] at hcc
  sources r hr c hcc := by
    refine h.sources r hr c ?_
    unfold Attrs.sources at hcc ⊢
    rwa [node_of_shape (shape_of_config (hc r))] at hcc
  seeded r hr hran := by
    rw [rngSeed_of_config (hc r)]
    refine h.seeded r hr ?_
    unfold Attrs.random at hran ⊢
    rwa [node_of_shape (shape_of_config (hc r))] at hran

/-- Calling an object in stores that agree on what it needs. -/
theorem call_requires {P : Ref → Prop} {f : Ref} {w v : World R} (hP : SelfContained P w) (hf : P f)
    (h : ∀ x, Needs w f x → w.obj x = v.obj x) :
    (call str fuel f none w).1 = (call str fuel f none v).1 ∧
    ∀ x, Needs w f x → (call str fuel f none w).2.obj x = (call str fuel f none v).2.obj x := by
  have hS : SelfContained (Needs w f) w :=
    ⟨fun r hr c hc => hr.trans (.child hc (.self c)), fun r hr g hg => hr.trans (.source hg (.self g)),
      fun r hr => hP.seeded r (hr.mem hP hf)⟩
  have h0 := Same.refl_of (Needs w f) w hS
  have h1 : Same (fun x => (w.obj x).node) (fun x => (w.obj x).wrapper) (Needs w f) w v :=
    ⟨h0.node, h0.wrapper, h, h0.seeds⟩
  obtain ⟨h2, h3⟩ := (same_steps _ _ (Needs w f) hS.children hS.sources).call str fuel f (.self f)
    none w v h1
  exact ⟨h2, h3.same⟩

theorem called_nodes (f : Ref) (w : World R) (x : Ref) :
    ((call str fuel f none w).2.obj x).node = (w.obj x).node :=
  node_of_shape (shape_of_config (C56_configuration str fuel f none w x))

theorem call_twins {P : Ref → Prop} {f : Ref} {w v : World R} (h : Twins P w v) (hf : P f) :
    (call str fuel f none w).1 = (call str fuel f none v).1 ∧
    Twins P (call str fuel f none w).2 (call str fuel f none v).2 := by
  obtain ⟨h1, h2⟩ := call_requires (str := str) (fuel := fuel) h.self hf fun x _ => h.obj x
  refine ⟨h1, fun x => ?_, selfContained_of_config h.self (C56_configuration str fuel f none w)⟩
  by_cases hx : Needs w f x
  · exact h2 x hx
  · rw [C57_only_below str fuel f x none w fun hb => hx hb.needs,
      C57_only_below str fuel f x none v fun hb => hx ((Below.congr fun y => by
        rw [h.obj y]).1 hb).needs, h.obj x]

/-- Two calls of independent objects can be exchanged. -/
theorem calls_commute {P : Ref → Prop} {f g : Ref} {w : World R} (hP : SelfContained P w) (hf : P f)
    (hg : P g) (h : Apart w f g) :
    (call str fuel g none (call str fuel f none w).2).1 = (call str fuel g none w).1 ∧
    (call str fuel f none (call str fuel g none w).2).1 = (call str fuel f none w).1 ∧
    Twins P (call str fuel g none (call str fuel f none w).2).2
      (call str fuel f none (call str fuel g none w).2).2 := by
  have hfr := fun x (hx : ¬ Below w f x) => C57_only_below str fuel f x none w hx
  have hgr := fun x (hx : ¬ Below w g x) => C57_only_below str fuel g x none w hx
  obtain ⟨h1, h2⟩ := call_requires (str := str) (fuel := fuel) (w := w) (v := (call str fuel f none w).2)
    hP hg fun x hx => (hfr x (h.2 x hx)).symm
  obtain ⟨h3, h4⟩ := call_requires (str := str) (fuel := fuel) (w := w) (v := (call str fuel g none w).2)
    hP hf fun x hx => (hgr x (h.1 x hx)).symm
  refine ⟨h1.symm, h3.symm, fun x => ?_, ?_⟩
  · have hgf : ¬ Below w g x → (call str fuel g none (call str fuel f none w).2).2.obj x =
        (call str fuel f none w).2.obj x := fun hx =>
      C57_only_below str fuel g x none _ fun hb => hx ((Below.congr fun y => called_nodes f w y).1 hb)
    have hfg : ¬ Below w f x → (call str fuel f none (call str fuel g none w).2).2.obj x =
        (call str fuel g none w).2.obj x := fun hx =>
      C57_only_below str fuel f x none _ fun hb => hx ((Below.congr fun y => called_nodes g w y).1 hb)
    by_cases hbg : Below w g x
    · rw [hfg (h.2 x hbg.needs), ← h2 x hbg.needs]
    · by_cases hbf : Below w f x
      · rw [hgf hbg, ← h4 x hbf.needs]
      · rw [hgf hbg, hfg hbf, hfr x hbf, hgr x hbg]
  · exact selfContained_of_config (selfContained_of_config hP (C56_configuration str fuel f none w))
      (C56_configuration str fuel g none _)

/-! ### Runs of all fields -/

abbrev RunAll (str : Val → List Char) (fuel : Nat) (l : Dict Ref) (w : World R) (vs : List Val)
    (v : World R) : Prop := FieldsRun (fun r => call str fuel r none) l w vs v

theorem runAll_twins {P : Ref → Prop} {l : Dict Ref} {w v w' : World R} {vs : List Val}
    (hl : ∀ kf ∈ l, P kf.2) (h : RunAll str fuel l w vs w') (hT : Twins P w v) :
    ∃ v', RunAll str fuel l v vs v' ∧ Twins P w' v' := by
  induction h generalizing v with
  | nil => exact ⟨v, .nil _, hT⟩
  | cons hc _ ih =>
    rename_i k f fs s s1 s2 x xs _
    obtain ⟨h1, h2⟩ := call_twins (str := str) (fuel := fuel) hT (hl (k, f) (by simp))
    rw [hc] at h1 h2
    obtain ⟨v', h3, h4⟩ := ih (fun kf hkf => hl kf (List.mem_cons_of_mem _ hkf)) h2
    exact ⟨v', .cons (s1 := (call str fuel f none v).2) (Prod.ext h1.symm rfl) h3, h4⟩

theorem runAll_config {l : Dict Ref} {w w' : World R} {vs : List Val}
    (h : RunAll str fuel l w vs w') : SameConfig w w' := by
  induction h with
  | nil => exact fun _ => rfl
  | cons hc _ ih =>
    rename_i k f fs s s1 s2 x xs _
    have := C56_configuration str fuel f none s
    rw [hc] at this
    exact fun r => (ih r).trans (this r)

/-- The run of the second list gives the same values to the same fields. -/
def Matches (str : Val → List Char) (fuel : Nat) (P : Ref → Prop) (w0 : World R)
    (l l' : Dict Ref) : Prop :=
  ∀ (w : World R) vs w', SameConfig w0 w → RunAll str fuel l w vs w' →
    ∃ vs' v', RunAll str fuel l' w vs' v' ∧ (l.zip vs).Perm (l'.zip vs') ∧ Twins P w' v'

theorem Matches.refl {P : Ref → Prop} {w0 : World R} (hP : SelfContained P w0) (l : Dict Ref) :
    Matches str fuel P w0 l l := fun _ vs w' hc h =>
  ⟨vs, w', h, .refl _, fun _ => rfl,
    selfContained_of_config (selfContained_of_config hP hc) (runAll_config h)⟩

theorem Matches.trans {P : Ref → Prop} {w0 : World R} {l l' l'' : Dict Ref}
    (h : Matches str fuel P w0 l l') (h' : Matches str fuel P w0 l' l'') :
    Matches str fuel P w0 l l'' := by
  intro w vs w' hc hr
  obtain ⟨vs1, v1, h1, h2, h3⟩ := h w vs w' hc hr
  obtain ⟨vs2, v2, h4, h5, h6⟩ := h' w vs1 v1 hc h1
  exact ⟨vs2, v2, h4, h2.trans h5, fun x => (h3.obj x).trans (h6.obj x), h3.self⟩

theorem Matches.cons {P : Ref → Prop} {w0 : World R} {l l' : Dict Ref} (a : String × Ref)
    (h : Matches str fuel P w0 l l') : Matches str fuel P w0 (a :: l) (a :: l') := by
  intro w vs w' hc hr
  cases hr with
  | cons hcall hrest =>
    rename_i k f s1 x xs
    have hc1 : SameConfig w0 s1 := by
      have := C56_configuration str fuel f none w
      rw [hcall] at this
      exact fun r => (this r).trans (hc r)
    obtain ⟨vs1, v1, h1, h2, h3⟩ := h s1 xs w' hc1 hrest
    exact ⟨x :: vs1, v1, .cons hcall h1, by simpa using h2.cons ((k, f), x), h3⟩

theorem Matches.swap {P : Ref → Prop} {w0 : World R} (hP : SelfContained P w0) (a b : String × Ref)
    (l : Dict Ref) (hl : ∀ kf ∈ a :: b :: l, P kf.2) (hab : Apart w0 a.2 b.2) :
    Matches str fuel P w0 (a :: b :: l) (b :: a :: l) := by
  intro w vs w' hc hr
  cases hr with
  | cons hcall hrest =>
    rename_i k f s1 x xs
    cases hrest with
    | cons hcall2 hrest =>
      rename_i k' g s2 y ys
      have hPw := selfContained_of_config hP hc
      obtain ⟨h1, h2, h3⟩ := calls_commute (str := str) (fuel := fuel) hPw (hl (k, f) (by simp))
        (hl (k', g) (by simp)) (hab.congr fun x => node_of_shape (shape_of_config (hc x)))
      rw [hcall, hcall2] at h1 h3
      rw [hcall] at h2
      obtain ⟨v', h4, h5⟩ := runAll_twins (fun kf hkf => hl kf (by simp [hkf])) hrest h3
      refine ⟨y :: x :: ys, v', .cons (s1 := (call str fuel g none w).2) (Prod.ext h1.symm rfl)
        (.cons (s1 := (call str fuel f none (call str fuel g none w).2).2) (Prod.ext h2 rfl) h4), ?_, h5⟩
      simpa using List.Perm.swap ((k', g), y) ((k, f), x) (l.zip ys)

theorem Matches.front {P : Ref → Prop} {w0 : World R} (hP : SelfContained P w0) (a : String × Ref)
    (pre post : Dict Ref) (hl : ∀ kf ∈ pre ++ a :: post, P kf.2)
    (hab : ∀ b ∈ pre, Apart w0 b.2 a.2) :
    Matches str fuel P w0 (pre ++ a :: post) (a :: (pre ++ post)) := by
  induction pre with
  | nil => exact .refl hP _
  | cons b pre ih =>
    have h1 := ih (fun kf hkf => hl kf (List.mem_cons_of_mem _ hkf))
      fun c hc => hab c (List.mem_cons_of_mem _ hc)
    refine (h1.cons b).trans (Matches.swap hP b a (pre ++ post) (fun kf hkf => hl kf ?_)
      (hab b (by simp)))
    simp only [List.mem_cons, List.mem_append, List.cons_append] at hkf ⊢
    tauto

theorem rearranged_matches {P : Ref → Prop} {w0 : World R} (hP : SelfContained P w0) {l l' : Dict Ref}
    (h : Rearranged w0 l l') (hn : l.Nodup) (hl : ∀ kf ∈ l, P kf.2) :
    Matches str fuel P w0 l l' := by
  induction l' generalizing l with
  | nil => rw [h.perm.eq_nil]; exact .refl hP _
  | cons a t ih =>
    have hn' : (a :: t).Nodup := h.perm.nodup_iff.1 hn
    obtain ⟨pre, post, rfl⟩ := List.append_of_mem (h.perm.mem_iff.2 List.mem_cons_self)
    have hat : a ∉ t := (List.nodup_cons.1 hn').1
    have hn2 : (a :: (pre ++ post)).Nodup := (List.perm_middle.nodup_iff).1 hn
    have hap : a ∉ pre ++ post := (List.nodup_cons.1 hn2).1
    have hpt : (pre ++ post).Perm t := (List.perm_cons a).1 (List.perm_middle.symm.trans h.perm)
    have key : ∀ x y, x ≠ a → [x, y].Sublist (a :: t) → [x, y].Sublist t := by
      intro x y hx hs
      cases hs with
      | cons _ h => exact h
      | cons_cons _ _ => exact absurd rfl hx
    have hsub : (pre ++ post).Sublist (pre ++ a :: post) :=
      (List.Sublist.refl pre).append (List.sublist_cons_self a post)
    refine (Matches.front hP a pre post hl fun b hb => ?_).trans ((ih ⟨hpt, ?_⟩ (List.nodup_cons.1 hn2).2
      fun kf hkf => hl kf (hsub.subset hkf)).cons a)
    · by_contra hc
      have hba : b ≠ a := fun e => hap (e ▸ List.mem_append_left _ hb)
      have h1 := key b a hba (h.order b a hc
        (((List.singleton_sublist.2 hb).append (List.singleton_sublist.2 List.mem_cons_self))))
      exact hat (h1.subset (by simp))
    · intro x y hc hs
      exact key x y (fun e => hap (e ▸ hs.subset (by simp))) (h.order x y hc (hs.trans hsub))

theorem document_runAll (fields : Dict Ref) (hn : fields.keys.Nodup) (w t : World R) (doc : Dict Val) :
    document str fuel fields w = (.ok doc, t) ↔
      ∃ vals, RunAll str fuel fields w vals t ∧ doc = visible (fun r => (w.obj r).hide) fields vals := by
  unfold document
  rw [run_get_bind]
  exact C49_document _ _ fields hn w t doc

theorem sublist_pair_or {α : Type} {a b : α} {l : List α} (ha : a ∈ l) (hb : b ∈ l) (hab : a ≠ b) :
    [a, b].Sublist l ∨ [b, a].Sublist l := by
  obtain ⟨pre, post, rfl⟩ := List.append_of_mem ha
  simp only [List.mem_append, List.mem_cons] at hb
  rcases hb with hb | rfl | hb
  · exact .inr ((List.singleton_sublist.2 hb).append (List.singleton_sublist.2 List.mem_cons_self))
  · exact absurd rfl hab
  · exact .inl ((List.nil_sublist pre).append ((List.singleton_sublist.2 hb).cons_cons a))

theorem sublist_pair_not {α : Type} {a b : α} {l : List α} (hn : l.Nodup) (h : [a, b].Sublist l)
    (h' : [b, a].Sublist l) : False := by
  induction l with
  | nil => cases h
  | cons c t ih =>
    rw [List.nodup_cons] at hn
    cases h with
    | cons _ h =>
      cases h' with
      | cons _ h' => exact ih hn.2 h h'
      | cons_cons _ h' => exact hn.1 (h.subset (by simp))
    | cons_cons _ h =>
      cases h' with
      | cons _ h' => exact hn.1 (h'.subset (by simp))
      | cons_cons _ h' => exact hn.1 (h.subset (by simp))

theorem Rearranged.symm {w : World R} {l l' : Dict Ref} (h : Rearranged w l l') (hn : l.Nodup) :
    Rearranged w l' l := by
  refine ⟨h.perm.symm, fun a b hc hs => ?_⟩
  have hn' := h.perm.nodup_iff.1 hn
  have hab : a ≠ b := by
    rintro rfl
    exact sublist_pair_not hn' hs hs
  rcases sublist_pair_or (h.perm.mem_iff.2 (hs.subset (by simp)))
    (h.perm.mem_iff.2 (hs.subset (by simp))) hab with h1 | h1
  · exact h1
  · exact (sublist_pair_not hn' hs (h.order b a (fun hu => hc hu.symm) h1)).elim

theorem nodup_of_keys {l : Dict Ref} (h : l.keys.Nodup) : l.Nodup := List.Nodup.of_map _ h

theorem Rearranged.congr {w v : World R} (h : ∀ x, (v.obj x).node = (w.obj x).node) {l l' : Dict Ref}
    (hr : Rearranged w l l') : Rearranged v l l' :=
  ⟨hr.perm, fun a b hc => hr.order a b fun hu => hc (hu.congr h)⟩

end Fauxdoc
