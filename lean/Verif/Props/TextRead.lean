import Verif.Spec.TextRead
import Verif.Props.Text2
/-
C125: a text tells its words and separators, so the number of texts is exact.
-/
namespace Fauxdoc
open Text

/-- A string of one kind followed by something that does not begin with that kind. -/
theorem split_unique (P : Char → Prop) : ∀ {w w' x x' : List Char}, (∀ c ∈ w, P c) → (∀ c ∈ w', P c) →
    (∀ c ∈ x.head?, ¬ P c) → (∀ c ∈ x'.head?, ¬ P c) → w ++ x = w' ++ x' → w = w' ∧ x = x'
  | [], [], _, _, _, _, _, _, h => ⟨rfl, h⟩
  | [], c :: w', x, x', _, h2, h3, _, h => by
    rw [List.nil_append] at h
    exact absurd (h2 c (by simp)) (h3 c (by simp [h]))
  | c :: w, [], x, x', h1, _, _, h4, h => by
    rw [List.nil_append] at h
    exact absurd (h1 c (by simp)) (h4 c (by simp [← h]))
  | c :: w, c' :: w', x, x', h1, h2, h3, h4, h => by
    rw [List.cons_append, List.cons_append, List.cons.injEq] at h
    obtain ⟨rfl, h⟩ := h
    obtain ⟨rfl, rfl⟩ := split_unique P (fun d hd => h1 d (by simp [hd])) (fun d hd => h2 d (by simp [hd]))
      h3 h4 h
    exact ⟨rfl, rfl⟩

theorem head_of_append {s t : List Char} {c : Char} (hs : s ≠ []) (h : c ∈ (s ++ t).head?) : c ∈ s := by
  cases s with
  | nil => exact absurd rfl hs
  | cons d s =>
    simp only [List.cons_append, List.head?_cons, Option.mem_def, Option.some.injEq] at h
    subst h
    simp

/-- A text begins with its first word. -/
theorem TextOf.head {ws ss : List (List Char)} {t : List Char} (h : TextOf ws ss t)
    (hne : ∀ w ∈ ws, w ≠ []) {c : Char} (hc : c ∈ t.head?) : ∃ w ∈ ws, c ∈ w := by
  cases h with
  | one =>
    refine ⟨t, by simp, ?_⟩
    exact head_of_append (t := []) (hne t (by simp)) (by simpa using hc)
  | @more w s _ _ t h =>
    refine ⟨w, by simp, head_of_append (t := s ++ t) (hne w (by simp)) ?_⟩
    rw [← List.append_assoc]
    exact hc

section
variable {letter : Char → Prop} {W S : Finset (List Char)}

/-- **C125 (words and separators).** If the words consist of letters and the separators of other
characters, a text tells its words and its separators. -/
theorem C125_readable (h : Readable letter W S) {ws ss ws' ss' : List (List Char)} {t : List Char}
    (h1 : TextOf ws ss t) (hw : ∀ w ∈ ws, w ∈ W) (hs : ∀ s ∈ ss, s ∈ S) (h2 : TextOf ws' ss' t)
    (hw' : ∀ w ∈ ws', w ∈ W) (hs' : ∀ s ∈ ss', s ∈ S) : ws = ws' ∧ ss = ss' := by
  induction h1 generalizing ws' ss' with
  | one w =>
    cases h2 with
    | one => exact ⟨rfl, rfl⟩
    | more w' s' h3 =>
      obtain ⟨hne, hl⟩ := h.seps s' (hs' s' (by simp))
      obtain ⟨c, s'', rfl⟩ := List.exists_cons_of_ne_nil hne
      exact absurd ((h.words _ (hw _ List.mem_cons_self)).2 c (by simp)) (hl c (by simp))
  | @more w s ws ss t h3 ih =>
    have hsep : ∀ {s t : List Char}, s ∈ S → ∀ c ∈ (s ++ t).head?, ¬ letter c := fun hm c hc =>
      (h.seps _ hm).2 c (head_of_append (h.seps _ hm).1 hc)
    have hword : ∀ {ws ss : List (List Char)} {t : List Char}, TextOf ws ss t → (∀ w ∈ ws, w ∈ W) →
        ∀ c ∈ t.head?, ¬ ¬ letter c := fun ht hm c hc => by
      obtain ⟨w, hw, hcw⟩ := ht.head (fun w hw => (h.words w (hm w hw)).1) hc
      exact not_not_intro ((h.words w (hm w hw)).2 c hcw)
    generalize hg : w ++ s ++ t = q at h2
    cases h2 with
    | one w' =>
      obtain ⟨hne, hl⟩ := h.seps s (hs s (by simp))
      obtain ⟨c, s'', rfl⟩ := List.exists_cons_of_ne_nil hne
      exact absurd ((h.words _ (hw' _ List.mem_cons_self)).2 c (by rw [← hg]; simp)) (hl c (by simp))
    | @more w' s' ws' ss' t' h4 =>
      rw [List.append_assoc, List.append_assoc] at hg
      obtain ⟨rfl, e1⟩ := split_unique letter (h.words w (hw w (by simp))).2 (h.words w' (hw' w' (by simp))).2
        (hsep (hs s (by simp))) (hsep (hs' s' (by simp))) hg
      obtain ⟨rfl, rfl⟩ := split_unique (fun c => ¬ letter c) (h.seps s (hs s (by simp))).2
        (h.seps s' (hs' s' (by simp))).2 (hword h3 fun x hx => hw x (by simp [hx]))
        (hword h4 fun x hx => hw' x (by simp [hx])) e1
      obtain ⟨rfl, rfl⟩ := ih (fun x hx => hw x (by simp [hx])) (fun x hx => hs x (by simp [hx])) h4
        (fun x hx => hw' x (by simp [hx])) (fun x hx => hs' x (by simp [hx]))
      exact ⟨rfl, rfl⟩

theorem textsOver_mem {k : Nat} {t : List Char} (h : t ∈ textsOver W S k) :
    ∃ ws ss : List (List Char), ss.length = k ∧ (∀ w ∈ ws, w ∈ W) ∧ (∀ s ∈ ss, s ∈ S) ∧ TextOf ws ss t := by
  induction k generalizing t with
  | zero => exact ⟨[t], [], rfl, fun w hw => by rw [List.mem_singleton.1 hw]; exact h, by simp, .one t⟩
  | succ k ih =>
    obtain ⟨a, ha, b, hb, rfl⟩ := Finset.mem_image₂.1 h
    obtain ⟨w, hw, s, hs, rfl⟩ := Finset.mem_image₂.1 ha
    obtain ⟨ws, ss, e, h1, h2, h3⟩ := ih hb
    exact ⟨w :: ws, s :: ss, by simp [e], by simpa [hw] using h1, by simpa [hs] using h2, .more w s h3⟩

theorem card_textsOver (h : Readable letter W S) (k : Nat) :
    (textsOver W S k).card = W.card ^ (k + 1) * S.card ^ k := by
  induction k with
  | zero => simp [textsOver]
  | succ k ih =>
    have hone : ∀ {w s t w' s' t' : List Char}, w ∈ W → s ∈ S → t ∈ textsOver W S k → w' ∈ W → s' ∈ S →
        t' ∈ textsOver W S k → w ++ s ++ t = w' ++ s' ++ t' → w = w' ∧ s = s' ∧ t = t' := by
      intro w s t w' s' t' hw hs ht hw' hs' ht' he
      obtain ⟨ws, ss, _, h1, h2, h3⟩ := textsOver_mem ht
      obtain ⟨ws', ss', _, h1', h2', h3'⟩ := textsOver_mem ht'
      have := C125_readable h (.more w s h3) (by simpa [hw] using h1) (by simpa [hs] using h2)
        (ws' := w' :: ws') (ss' := s' :: ss') (by rw [he]; exact .more w' s' h3') (by simpa [hw'] using h1')
        (by simpa [hs'] using h2')
      obtain ⟨e1, e2⟩ := this
      rw [List.cons.injEq] at e1 e2
      obtain ⟨rfl, rfl⟩ := e1
      obtain ⟨rfl, rfl⟩ := e2
      exact ⟨rfl, rfl, List.append_cancel_left he⟩
    have hWS : (Finset.image₂ (· ++ ·) W S).card = W.card * S.card := by
      rw [Finset.card_image₂_iff]
      rintro ⟨w, s⟩ ⟨hw, hs⟩ ⟨w', s'⟩ ⟨hw', hs'⟩ he
      obtain ⟨e1, e2⟩ := split_unique letter (h.words w hw).2 (h.words w' hw').2
        (fun c hc => (h.seps s hs).2 c (List.mem_of_mem_head? hc))
        (fun c hc => (h.seps s' hs').2 c (List.mem_of_mem_head? hc)) he
      rw [e1, e2]
    have hT : (textsOver W S (k + 1)).card = (Finset.image₂ (· ++ ·) W S).card * (textsOver W S k).card := by
      change (Finset.image₂ (· ++ ·) (Finset.image₂ (· ++ ·) W S) (textsOver W S k)).card = _
      rw [Finset.card_image₂_iff]
      rintro ⟨a, t⟩ ⟨ha, ht⟩ ⟨a', t'⟩ ⟨ha', ht'⟩ he
      obtain ⟨w, hw, s, hs, rfl⟩ := Finset.mem_image₂.1 ha
      obtain ⟨w', hw', s', hs', rfl⟩ := Finset.mem_image₂.1 ha'
      obtain ⟨rfl, rfl, rfl⟩ := hone hw hs ht hw' hs' ht' he
      rfl
    rw [hT, hWS, ih]
    ring

/-- **C125 (exact).** Then, if the word counts are different, exactly `num_unique_values` texts are
possible. -/
theorem C125_exact (h : Readable letter W S) {C : List Nat} (hC : ∀ k ∈ C, 1 ≤ k) (hn : C.Nodup) :
    ∃ F : Finset (List Char), (∀ t, t ∈ F ↔ PossibleText W S C t) ∧
      textNumUnique (some W.card) (some S.card) (some (C.map fun (k : Nat) => Val.int k)) =
        .ok (some (F.card : ℚ)) := by
  refine ⟨C.toFinset.biUnion fun k => textsOver W S (k - 1), fun t => ?_, ?_⟩
  · simp only [Finset.mem_biUnion, List.mem_toFinset]
    constructor
    · rintro ⟨k, hk, ht⟩
      obtain ⟨ws, ss, e, h1, h2, h3⟩ := textsOver_mem ht
      refine ⟨ws, ss, ?_, h1, h2, h3⟩
      have := hC k hk
      rwa [h3.length, e, Nat.sub_add_cancel this]
    · rintro ⟨ws, ss, hk, h1, h2, h3⟩
      refine ⟨_, hk, ?_⟩
      rw [h3.length, Nat.add_sub_cancel]
      exact mem_textsOver h3 h1 h2
  · have e := textNumUnique_eq W.card S.card C hC
    have hcard : (C.toFinset.biUnion fun k => textsOver W S (k - 1)).card =
        (C.map fun k => W.card ^ k * S.card ^ (k - 1)).sum := by
      rw [Finset.card_biUnion, ← List.sum_toFinset _ hn]
      · refine Finset.sum_congr rfl fun k hk => ?_
        rw [card_textsOver h, Nat.sub_add_cancel (hC k (List.mem_toFinset.1 hk))]
      · intro a ha b hb hab
        change Disjoint (textsOver W S (a - 1)) (textsOver W S (b - 1))
        rw [Finset.disjoint_left]
        intro t ht ht'
        obtain ⟨ws, ss, e, h1, h2, h3⟩ := textsOver_mem ht
        obtain ⟨ws', ss', e', h1', h2', h3'⟩ := textsOver_mem ht'
        obtain ⟨_, rfl⟩ := C125_readable h h3 h1 h2 h3' h1' h2'
        have := hC a (List.mem_toFinset.1 ha)
        have := hC b (List.mem_toFinset.1 hb)
        omega
    rw [hcard]
    exact e

end

theorem TextOf.text_eq {ws ss : List (List Char)} {t t' : List Char} (h : TextOf ws ss t)
    (h' : TextOf ws ss t') : t' = t := by
  induction h generalizing t' with
  | one w => cases h'; rfl
  | more w s h ih =>
    cases h' with
    | more _ _ h' => rw [ih h']

/-- An emitter that finds what it is to emit in the state. -/
def stateChild {σ : Type} (d : σ → Val) (l : σ → List Val) : Child σ := fun arg s => scriptChild (d s) (l s) arg s

theorem stateChild_emitter {σ : Type} {d : σ → Val} {l : σ → List Val} {P : Val → Prop} {I : σ → Prop}
    (hd : ∀ s, I s → P (d s)) (hl : ∀ s, I s → ∀ x ∈ l s, P x) : EmitterOf I (stateChild d l) P where
  one s v t hI h := by
    obtain ⟨h1, rfl⟩ := (scriptChild_emitter (hd s hI) (hl s hI) (I := (· = s))).one s v t rfl h
    exact ⟨h1, hI⟩
  none s v t hI h := by
    obtain ⟨h1, rfl⟩ := (scriptChild_emitter (hd s hI) (hl s hI) (I := (· = s))).none s v t rfl h
    exact ⟨h1, hI⟩
  many n s v t hI h := by
    obtain ⟨h1, rfl⟩ := (scriptChild_emitter (hd s hI) (hl s hI) (I := (· = s))).many n s v t rfl h
    exact ⟨h1, hI⟩

theorem stateChild_many {σ : Type} (d : σ → Val) (l : σ → List Val) (s : σ) {n : Int} (hn : n = (l s).length) :
    stateChild d l (some (.int n)) s = (.ok (.list (l s)), s) := by
  change (if n = (l s).length then pure (.list (l s)) else _ : PyM σ Val) s = _
  rw [if_pos hn]
  rfl

/-- **C125 (attained).** The bound cannot be improved: for any words and separators that can be told apart
and any different word counts, there are emitters of these such that exactly `num_unique_values` different
texts are emitted. -/
theorem C125_attained {letter : Char → Prop} {W S : Finset (List Char)} (h : Readable letter W S)
    {C : List Nat} (hC : ∀ k ∈ C, 1 ≤ k) (hn : C.Nodup) (hS : S.Nonempty) :
    ∃ (σ : Type) (I : σ → Prop) (numwords sep : Child σ) (word : WordChild σ),
      EmitterOf I numwords (NatIn C) ∧ WordEmitterOf I word (StrIn W) ∧ EmitterOf I sep (StrIn S) ∧
      ∃ F : Finset Val, (∀ v, v ∈ F ↔ Emitted I (Text.call numwords word sep) v) ∧
        textNumUnique (some W.card) (some S.card) (some (C.map fun (k : Nat) => Val.int k)) =
          .ok (some (F.card : ℚ)) := by
  obtain ⟨s0, hs0⟩ := hS
  obtain ⟨F, hF, hcount⟩ := C125_exact h hC hn
  let I : List (List Char) × List (List Char) → Prop := fun s =>
    s.1.length ∈ C ∧ (∀ w ∈ s.1, w ∈ W) ∧ (∀ x ∈ s.2, x ∈ S) ∧ s.1.length = s.2.length + 1
  let num : Child (List (List Char) × List (List Char)) :=
    stateChild (fun s => .int (s.1.length : Nat)) fun s => [.int (s.1.length : Nat)]
  let wrd : Child (List (List Char) × List (List Char)) :=
    stateChild (fun s => .str (s.1.headD [])) fun s => s.1.map Val.str
  let sp : Child (List (List Char) × List (List Char)) := stateChild (fun _ => .str s0) fun s => s.2.map Val.str
  have e1 : EmitterOf I num (NatIn C) := stateChild_emitter (fun s hs => ⟨_, hs.1, rfl⟩) fun s hs x hx => by
    rw [List.mem_singleton] at hx
    exact ⟨_, hs.1, hx⟩
  have e2 : EmitterOf I wrd (StrIn W) := stateChild_emitter (fun s hs => ⟨_, hs.2.1 _ (by
      obtain ⟨_, _, _, hl⟩ := hs
      cases hq : s.1 with
      | nil => rw [hq] at hl; simp at hl
      | cons w ws => simp), rfl⟩) fun s hs x hx => by
    obtain ⟨w, hw, rfl⟩ := List.mem_map.1 hx
    exact ⟨w, hs.2.1 w hw, rfl⟩
  have e3 : EmitterOf I sp (StrIn S) := stateChild_emitter (fun _ _ => ⟨s0, hs0, rfl⟩) fun s hs x hx => by
    obtain ⟨w, hw, rfl⟩ := List.mem_map.1 hx
    exact ⟨w, hs.2.2.1 w hw, rfl⟩
  have e4 : WordEmitterOf I ⟨wrd, pure ⟨⟩, pure none⟩ (StrIn W) :=
    ⟨e2, fun s t hs ht => by cases ht; exact hs, fun s r t hs ht => by
      cases ht
      exact ⟨hs, fun D hD => by cases hD⟩⟩
  refine ⟨_, I, num, sp, ⟨wrd, pure ⟨⟩, pure none⟩, e1, e4, e3, F.image Val.str, fun v => ?_, ?_⟩
  · constructor
    · intro hv
      obtain ⟨t, ht, rfl⟩ := Finset.mem_image.1 hv
      obtain ⟨ws, ss, hk, h1, h2, h3⟩ := (hF t).1 ht
      have hpos := hC _ hk
      obtain ⟨t', ht', h3'⟩ := C32_emit num ⟨wrd, pure ⟨⟩, pure none⟩ sp (s := (ws, ss)) (s1 := (ws, ss))
        (s2 := (ws, ss)) (nv := .list [.int (ws.length : Nat)]) (cnt := .int (ws.length : Nat)) (k := ws.length)
        (ws := ws) (ss := ss) (stateChild_many _ _ _ rfl) rfl rfl hpos
        (.atOnce (s1 := (ws, ss)) (s2 := (ws, ss)) (r := none) (wv := .list (ws.map Val.str))
          (sv := .list (ss.map Val.str)) rfl (fun D hD => by cases hD)
          (stateChild_many (n := (ws.length : Int)) (fun s => .str (s.1.headD [])) (fun s => s.1.map Val.str)
            (ws, ss) (by simp)) rfl
          (stateChild_many (n := (ws.length : Int) - 1) (fun _ => .str s0) (fun s => s.2.map Val.str)
            (ws, ss) (by simp [h3.length])) rfl rfl)
        h3.length.symm
      obtain rfl := TextOf.text_eq h3 h3'
      exact ⟨(ws, ss), (ws, ss), ⟨hk, h1, h2, h3.length⟩, .inl ht'⟩
    · intro hv
      obtain ⟨x, rfl, hx⟩ := (C34_text_emitter e1 e4 e3 hC).emitted hv
      exact Finset.mem_image_of_mem _ ((hF x).2 hx)
  · rw [Finset.card_image_of_injective _ (fun a b hab => by cases hab; rfl)]
    exact hcount

/-- The condition is needed: with the words `a` and `aa` and no separators, two words make three texts and
not four. -/
theorem C125_needed : textNumUnique (some 2) (some 1) (some [.int 2]) = .ok (some 4) ∧
    ∃ F : Finset (List Char), F.card = 3 ∧
      ∀ t, PossibleText {['a'], ['a', 'a']} {[]} [2] t → t ∈ F := by
  refine ⟨by decide +kernel, {['a', 'a'], ['a', 'a', 'a'], ['a', 'a', 'a', 'a']}, by decide, ?_⟩
  rintro t ⟨ws, ss, hk, h1, h2, h3⟩
  have hl := h3.length
  simp only [List.mem_singleton] at hk
  match ws, ss, hk, hl with
  | [w, w'], [s], _, _ =>
    cases h3 with
    | more _ _ h4 =>
      cases h4
      obtain rfl : s = [] := by simpa using h2
      have hw := h1 w (by simp)
      have hw' := h1 w' (by simp)
      simp only [Finset.mem_insert, Finset.mem_singleton] at hw hw'
      rcases hw with rfl | rfl <;> rcases hw' with rfl | rfl <;> decide

/-- Words of small letters, separated by a blank or a comma and a blank. -/
example : Readable (fun c => 'a' ≤ c) {['t', 'h', 'e'], ['c', 'a', 't']} {[' '], [',', ' ']} where
  words := by decide
  seps := by decide

/-- There are ten texts of one or two such words. -/
example : ∃ F : Finset (List Char), F.card = 10 ∧
    ∀ t, t ∈ F ↔ PossibleText {['t', 'h', 'e'], ['c', 'a', 't']} {[' '], [',', ' ']} [1, 2] t := by
  obtain ⟨F, h1, h2⟩ := C125_exact (letter := fun c => 'a' ≤ c)
    (W := {['t', 'h', 'e'], ['c', 'a', 't']}) (S := {[' '], [',', ' ']}) ⟨by decide, by decide⟩ (C := [1, 2])
    (by decide) (by decide)
  refine ⟨F, ?_, h1⟩
  have e : textNumUnique (some (2 : ℚ)) (some (2 : ℚ)) (some ([1, 2].map fun (k : Nat) => Val.int k)) =
    .ok (some 10) := by decide +kernel
  have h3 : (.ok (some (10 : ℚ)) : Py (Option ℚ)) = .ok (some (F.card : ℚ)) := e.symm.trans h2
  have h4 : (10 : ℚ) = F.card := Option.some.inj (Except.ok.inj h3)
  exact_mod_cast h4.symm

end Fauxdoc
