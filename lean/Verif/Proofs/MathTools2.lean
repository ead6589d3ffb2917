import Verif.Proofs.MathTools
import Mathlib.Algebra.Order.Field.Basic
/-
Lemmas about the score-based shuffle (`_faster_for_high_k`).
-/
set_option linter.unusedSectionVars false
namespace Fauxdoc
variable {K : Type} [Field K] [LinearOrder K] {R : Rng K}

theorem highKScores_length {ws : List K} : ∀ {g g' : R.G} {sc : List K},
    highKScores R ws g = (.ok sc, g') → sc.length = ws.length := by
  induction ws with
  | nil => intro g g' sc h; cases h; rfl
  | cons w ws ih =>
    intro g g' sc h
    rw [highKScores] at h
    obtain ⟨u, g1, h1, h2⟩ := PyM.bind_eq_ok h
    by_cases hu : u = 0
    · rw [if_pos hu] at h2; cases h2
    · rw [if_neg hu] at h2
      by_cases hw : w = 0
      · rw [if_pos hw] at h2; cases h2
      · rw [if_neg hw] at h2
        obtain ⟨rest, g2, h3, h4⟩ := PyM.bind_eq_ok h2
        cases h4
        simp [ih h3]

/-- The scores when nothing raises. -/
theorem highKScores_ok : ∀ (ws : List K) (us : List K) (g g' : R.G),
    R.rands ws.length g = (.ok us, g') → (∀ u ∈ us, u ≠ 0) → (∀ w ∈ ws, w ≠ 0) →
    highKScores R ws g = (.ok (List.zipWith (fun u w => R.log u / w) us ws), g') := by
  intro ws
  induction ws with
  | nil => intro us g g' h _ _; cases h; rfl
  | cons w ws ih =>
    intro us g g' h hu hw
    change (R.rand >>= fun u => R.rands ws.length >>= fun us => pure (u :: us)) g = _ at h
    obtain ⟨u, g1, h1, h2⟩ := PyM.bind_eq_ok h
    obtain ⟨us', g2, h3, h4⟩ := PyM.bind_eq_ok h2
    cases h4
    rw [highKScores, PyM.bind_ok h1, if_neg (hu u (by simp)), if_neg (hw w (by simp)),
      PyM.bind_ok (ih us' g1 g' h3 (fun x hx => hu x (by simp [hx])) fun x hx => hw x (by simp [hx]))]
    rfl

/-- A successful score computation drew no zero. -/
theorem highKScores_no_zero : ∀ (ws us : List K) (g g' : R.G), R.rands ws.length g = (.ok us, g') →
    ∀ {sc : List K} {g1 : R.G}, (hpos : ∀ w ∈ ws, w ≠ 0) → highKScores R ws g = (.ok sc, g1) →
    (0 : K) ∈ us → False := by
  intro ws
  induction ws with
  | nil => intro us g g' h sc g1 _ _ h0; cases h; simp at h0
  | cons w ws ih =>
    intro us g g' h sc g1 hpos hs h0
    change (R.rand >>= fun u => R.rands ws.length >>= fun us => pure (u :: us)) g = _ at h
    obtain ⟨u, ga, h1, h2⟩ := PyM.bind_eq_ok h
    obtain ⟨us', gb, h3, h4⟩ := PyM.bind_eq_ok h2
    cases h4
    rw [highKScores, PyM.bind_ok h1] at hs
    by_cases hu : u = 0
    · rw [if_pos hu] at hs; cases hs
    · rw [if_neg hu, if_neg (hpos w (by simp))] at hs
      obtain ⟨rest, gc, h5, _⟩ := PyM.bind_eq_ok hs
      rcases List.mem_cons.1 h0 with h0 | h0
      · exact hu h0.symm
      · exact ih us' ga g' h3 (fun x hx => hpos x (by simp [hx])) h5 h0

theorem sortDesc_perm (l : List (K × Nat)) : (sortDesc l).Perm l := List.perm_insertionSort _ _

theorem zip_range_snd (sc : List K) (n : Nat) (h : sc.length = n) :
    (sc.zip (List.range n)).map (·.2) = List.range n := List.map_snd_zip (by simp [h])

theorem highK_ok {ws : List K} {k : Nat} {g g' : R.G} {ps : List Nat}
    (h : highK R ws k g = (.ok ps, g')) :
    ps.Nodup ∧ (∀ i ∈ ps, i < ws.length) ∧ ps.length = min k ws.length ∧
      ∃ rest, (ps ++ rest).Perm (List.range ws.length) := by
  obtain ⟨sc, g1, h1, h2⟩ := PyM.bind_eq_ok h
  cases h2
  have hl := highKScores_length h1
  have hp : ((sortDesc (sc.zip (List.range ws.length))).map (·.2)).Perm (List.range ws.length) := by
    have := (sortDesc_perm (sc.zip (List.range ws.length))).map (·.2)
    rwa [zip_range_snd sc _ hl] at this
  rw [List.map_take]
  have hsub := List.take_sublist k ((sortDesc (sc.zip (List.range ws.length))).map (·.2))
  refine ⟨hsub.nodup (hp.nodup_iff.2 List.nodup_range), ?_, ?_, ?_⟩
  · intro i hi
    exact List.mem_range.1 (hp.mem_iff.1 (hsub.subset hi))
  · rw [List.length_take, hp.length_eq, List.length_range]
  · refine ⟨((sortDesc (sc.zip (List.range ws.length))).map (·.2)).drop k, ?_⟩
    rwa [List.take_append_drop]

/-- `a` comes before `b` in the stable descending order. -/
def Outranks (a b : K × Nat) : Prop := b.1 < a.1 ∨ (a.1 = b.1 ∧ a.2 < b.2)

instance (a b : K × Nat) : Decidable (Outranks a b) := by unfold Outranks; infer_instance

theorem Outranks.ge {a b : K × Nat} (h : Outranks a b) : b.1 ≤ a.1 := by
  rcases h with h | h
  · exact h.le
  · exact h.1.ge

theorem Outranks.irrefl (a : K × Nat) : ¬ Outranks a a := by
  rintro (h | h)
  · exact lt_irrefl _ h
  · exact lt_irrefl _ h.2

theorem Outranks.asymm {a b : K × Nat} (h : Outranks a b) : ¬ Outranks b a := by
  rintro (h' | h') <;> rcases h with h | h
  · exact lt_asymm h h'
  · exact absurd h.1 h'.ne
  · exact absurd h'.1 h.ne
  · omega

theorem orderedInsert_before (a : K × Nat) : ∀ (L : List (K × Nat)), L.Pairwise Outranks →
    (∀ b ∈ L, a.2 < b.2) →
    (L.orderedInsert (fun a b => a.1 ≥ b.1) a).Pairwise Outranks := by
  intro L
  induction L with
  | nil => intro _ _; simp
  | cons b L ih =>
    intro hL hlt
    rw [List.pairwise_cons] at hL
    rw [List.orderedInsert_cons]
    by_cases hab : a.1 ≥ b.1
    · rw [if_pos hab, List.pairwise_cons]
      refine ⟨?_, List.pairwise_cons.2 hL⟩
      intro c hc
      have hcb : c.1 ≤ b.1 := by
        rcases List.mem_cons.1 hc with rfl | hc'
        · exact le_rfl
        · exact (hL.1 c hc').ge
      rcases lt_or_eq_of_le (hcb.trans hab) with h | h
      · exact Or.inl h
      · exact Or.inr ⟨h.symm, hlt c hc⟩
    · rw [if_neg hab, List.pairwise_cons]
      refine ⟨?_, ih hL.2 fun c hc => hlt c (by simp [hc])⟩
      intro c hc
      rw [List.mem_orderedInsert] at hc
      rcases hc with rfl | hc
      · exact Or.inl (not_le.1 hab)
      · exact hL.1 c hc

theorem sortDesc_before : ∀ (l : List (K × Nat)), l.Pairwise (fun a b => a.2 < b.2) →
    (sortDesc l).Pairwise Outranks := by
  intro l
  induction l with
  | nil => intro _; simp [sortDesc]
  | cons a l ih =>
    intro h
    rw [List.pairwise_cons] at h
    refine orderedInsert_before a _ (ih h.2) ?_
    intro b hb
    exact h.1 b ((sortDesc_perm l).mem_iff.1 hb)

theorem mem_take_of_before {x : K × Nat} : ∀ (L : List (K × Nat)) (k : Nat), L.Pairwise Outranks →
    x ∈ L → (x ∈ L.take k ↔ (L.filter fun a => decide (Outranks a x)).length < k) := by
  intro L
  induction L with
  | nil => intro k _ h; simp at h
  | cons b L ih =>
    intro k hL hx
    rw [List.pairwise_cons] at hL
    by_cases hxb : x = b
    · subst hxb
      have h0 : ((x :: L).filter fun a => decide (Outranks a x)) = [] := by
        rw [List.filter_eq_nil_iff]
        intro c hc
        rcases List.mem_cons.1 hc with rfl | hc'
        · simpa using Outranks.irrefl c
        · simpa using (hL.1 c hc').asymm
      rw [h0]
      cases k with
      | zero => simp
      | succ k => simp
    · have hxL : x ∈ L := by
        rcases List.mem_cons.1 hx with h | h
        · exact absurd h hxb
        · exact h
      rw [List.filter_cons_of_pos (by simpa using hL.1 x hxL)]
      cases k with
      | zero => simp
      | succ k =>
        rw [List.take_succ_cons, List.mem_cons, List.length_cons]
        constructor
        · rintro (h | h)
          · exact absurd h hxb
          · have := (ih k hL.2 hxL).1 h; omega
        · intro h
          exact Or.inr ((ih k hL.2 hxL).2 (by omega))

/-- Position `j` is among the first `k` of the score shuffle iff fewer than `k` positions beat it. -/
theorem mem_top_iff (sc : List K) (n k j : Nat) (hn : sc.length = n) (hj : j < n) :
    j ∈ ((sortDesc (sc.zip (List.range n))).take k).map (·.2) ↔
      ((List.range n).filter fun i =>
        decide (Outranks (sc.getD i 0, i) (sc.getD j 0, j))).length < k := by
  have hz : sc.zip (List.range n) = (List.range n).map fun i => (sc.getD i 0, i) := by
    apply List.ext_getElem (by simp [hn])
    intro i h1 h2
    rw [List.getElem_zip, List.getElem_map, List.getElem_range,
      List.getD_eq_getElem _ _ (by simp at h1; omega)]
  have hpw : (sc.zip (List.range n)).Pairwise fun a b => a.2 < b.2 := by
    rw [hz, List.pairwise_map]
    exact List.pairwise_lt_range
  have hs := sortDesc_before _ hpw
  have hmem : (sc.getD j 0, j) ∈ sortDesc (sc.zip (List.range n)) := by
    rw [(sortDesc_perm _).mem_iff, hz, List.mem_map]
    exact ⟨j, List.mem_range.2 hj, rfl⟩
  have h1 := mem_take_of_before _ k hs hmem
  have hperm := ((sortDesc_perm (sc.zip (List.range n))).filter
    fun a => decide (Outranks a (sc.getD j 0, j))).length_eq
  rw [hperm, hz, List.filter_map, List.length_map] at h1
  rw [← hz] at h1
  rw [show ((List.range n).filter fun i => decide (Outranks (sc.getD i 0, i) (sc.getD j 0, j))) =
    (List.range n).filter ((fun a => decide (Outranks a (sc.getD j 0, j))) ∘
      fun i => (sc.getD i 0, i)) from rfl, ← h1, List.mem_map]
  constructor
  · rintro ⟨⟨s, i⟩, hm, rfl⟩
    have : (s, i) ∈ (List.range n).map fun i => (sc.getD i 0, i) := by
      rw [← hz, ← (sortDesc_perm _).mem_iff]
      exact List.mem_of_mem_take hm
    obtain ⟨i', _, hi'⟩ := List.mem_map.1 this
    cases hi'
    exact hm
  · intro h
    exact ⟨_, h, rfl⟩

end Fauxdoc
