import Verif.Props.Text2
import Verif.Props.Choice
import Verif.Model.ChoiceVal
import Verif.Py.RngDemo
/-
C32 (converse direction) and C35: texts over a `Choice` with `replace_only_after_call`.
-/
namespace Fauxdoc
variable {σ τ : Type}

open Text

/-- The values are strings. -/
def IsStr (v : Val) : Prop := ∃ c, v = .str c

theorem all_isStr {l : List Val} (h : ∀ x ∈ l, IsStr x) : ∃ cs : List (List Char), l = cs.map Val.str := by
  induction l with
  | nil => exact ⟨[], rfl⟩
  | cons x l ih =>
    obtain ⟨cs, rfl⟩ := ih fun y hy => h y (by simp [hy])
    obtain ⟨c, rfl⟩ := h x (by simp)
    exact ⟨c :: cs, rfl⟩

theorem yields_buf_inv {word : WordChild σ} {nu rem needed : Int} {buf vs : List Val} {s t : σ}
    {wi' : WordsIter} (h : Yields word (.blocks nu rem needed buf) s vs wi' t)
    (hl : buf.length ≤ vs.length) :
    ∃ vs2, vs = buf ++ vs2 ∧ Yields word (.blocks nu rem needed []) s vs2 wi' t := by
  induction buf generalizing vs with
  | nil => exact ⟨vs, rfl, h⟩
  | cons b buf ih =>
    cases h with
    | nil => simp at hl
    | cons h1 h2 =>
      cases h1
      obtain ⟨vs2, rfl, h3⟩ := ih h2 (by simpa using hl)
      exact ⟨vs2, rfl, h3⟩

theorem blocks_of_yields {word : WordChild σ} {I : σ → Prop} (hw : WordEmitterOf I word IsStr)
    {D : Nat} (hD : 0 < D) {rem : Nat} (h0 : 0 < rem) {vs : List Val} {s t : σ} {wi' : WordsIter}
    (hI : I s)
    (h : Yields word (.blocks D rem 0 []) s vs wi' t) (hl : vs.length = rem) :
    ∃ ws, vs = ws.map Val.str ∧ Blocks word D rem s ws t := by
  induction rem using Nat.strongRecOn generalizing vs s with
  | _ rem ih =>
  cases h with
  | nil => simp at hl; omega
  | @cons _ wi1 _ _ s1 _ v vs' h1 h2 =>
    rw [nextWord_end, if_pos rfl] at h1
    unfold nextBlock at h1
    rw [if_pos (by omega), clamp_max_only] at h1
    obtain ⟨wv, s1', e1, h1⟩ := PyM.bind_eq_ok h1
    obtain ⟨⟨l, rfl, hll, hP⟩, hI1⟩ := hw.call.many _ _ _ _ hI e1
    obtain ⟨ws, rfl⟩ := all_isStr hP
    rw [PyM.lift_bind (Val.elems_list _)] at h1
    rw [List.length_map] at hll
    obtain ⟨w, ws, rfl⟩ := List.exists_cons_of_ne_nil (l := ws) (by
      rintro rfl; simp at hll; omega)
    cases h1
    simp only [List.length_cons] at hl hll
    obtain ⟨vs2, rfl, h3⟩ := yields_buf_inv h2 (by simp; omega)
    simp only [List.length_append, List.length_map] at hl
    by_cases hle : rem ≤ D
    · have : vs2 = [] := List.length_eq_zero_iff.1 (by omega)
      subst this
      cases h3
      rw [Nat.min_eq_right hle] at e1
      exact ⟨w :: ws, by simp, .last h0 hle e1 rfl (by simp; omega)⟩
    · rw [Nat.min_eq_left (by omega)] at e1 h3
      cases h3 with
      | nil => simp at hl; omega
      | @cons _ wi2 _ _ s2 _ v' vs'' h4 h5 =>
        rw [nextWord_end, if_neg (by omega)] at h4
        obtain ⟨_, s3, e3, h4⟩ := PyM.bind_eq_ok h4
        have hk : ((rem : Int) - (D : Int)) = ((rem - D : Nat) : Int) := by omega
        rw [hk] at h4
        obtain ⟨ws', e5, hb⟩ := ih (rem - D) (by omega) (by omega) (vs := v' :: vs'') (s := s3)
          (hw.reset _ _ hI1 e3)
          (.cons (by rw [nextWord_end, if_pos rfl]; exact h4) h5) (by simp at hl ⊢; omega)
        refine ⟨(w :: ws) ++ ws', by simp [e5], .more (by omega) e1 rfl (by simp; omega) e3 hb⟩

/-- **C32 (converse).** Whenever `text(n)` returns — the children being emitters of non-negative
counts, of strings and of strings, with all counts at least 1 — the words and separators were drawn
as documented, and the result uses each of them exactly once and in order. -/
theorem C32_returned {numwords sep : Child σ} {word : WordChild σ}
    {I : σ → Prop} (hn : EmitterOf I numwords (fun v => ∃ k : Nat, 1 ≤ k ∧ v = .int k))
    (hw : WordEmitterOf I word IsStr) (hs : EmitterOf I sep IsStr)
    (n : Nat) {s t : σ} {l : List Val} (hI : I s)
    (h : Text.emitMany numwords word sep n s = (.ok l, t)) :
    ∃ cnts s1 ns ws ss ts,
      numwords (some (.int n)) s = (.ok (.list cnts), s1) ∧ AreCounts cnts ns ∧ ns.length = n ∧
      I s1 ∧ Draws word sep ns.sum (ns.sum - n) s1 t ws ss ∧ l = ts.map Val.str ∧
      TextsOf ns ws ss ts := by
  have h0 := h
  unfold Text.emitMany at h
  obtain ⟨nv, s1, e1, h⟩ := PyM.bind_eq_ok h
  obtain ⟨⟨cnts, rfl, hcl, hP⟩, hI1⟩ := hn.many _ _ _ _ hI e1
  obtain ⟨ns, hns, hnl, hL⟩ : ∃ ns : List Nat, AreCounts cnts ns ∧ ns.length = cnts.length ∧
      ∀ k ∈ ns, 1 ≤ k := by
    clear * - hP
    induction cnts with
    | nil => exact ⟨[], rfl, rfl, by simp⟩
    | cons x l ih =>
      obtain ⟨ns, h0, h1, h2⟩ := ih fun y hy => hP y (by simp [hy])
      obtain ⟨k, hk, rfl⟩ := hP x (by simp)
      refine ⟨k :: ns, ?_, by simp [h1], by simpa [hk] using h2⟩
      unfold AreCounts at h0 ⊢
      simp [h0, Val.asInt]
  rw [PyM.lift_bind (Val.elems_list _), PyM.lift_bind (sumInts_counts hns)] at h
  dsimp only at h
  obtain ⟨wi, s2, e2, h⟩ := PyM.bind_eq_ok h
  obtain ⟨sv, s3, e3, h⟩ := PyM.bind_eq_ok h
  have hge : ns.length ≤ ns.sum := by
    clear * - hL
    induction ns with
    | nil => simp
    | cons k ns ih =>
      have := ih fun j hj => hL j (by simp [hj])
      have := hL k (by simp)
      simp; omega
  have hk : ((ns.sum : Int) - n) = ((ns.sum - n : Nat) : Int) := by omega
  have e3' := e3
  rw [hk] at e3'
  obtain ⟨_, hI2⟩ := getWordsIterator_good hw hI1 e2
  obtain ⟨⟨sl, rfl, hsl, hPs⟩, hI3⟩ := hs.many _ _ _ _ hI2 e3'
  obtain ⟨ss, rfl⟩ := all_isStr hPs
  rw [PyM.lift_bind (Val.elems_list _)] at h
  obtain ⟨vs, wi', hy, hvl⟩ := renderAll_yields h
  have hdraw : ∃ ws, vs = ws.map Val.str ∧ Draws word sep ns.sum (ns.sum - n) s1 t ws ss := by
    unfold getWordsIterator at e2
    obtain ⟨r, s1', e4, e2⟩ := PyM.bind_eq_ok e2
    have draw : (∀ D, r = some D → D = 0 ∨ (ns.sum : Int) ≤ D) → (do
        let ws ← word.call (some (.int (ns.sum : Int)))
        return .drawn (← PyM.lift ws.elems) : PyM σ WordsIter) s1' = (.ok wi, s2) →
        ∃ ws, vs = ws.map Val.str ∧ Draws word sep ns.sum (ns.sum - n) s1 t ws ss := by
      intro hD h
      obtain ⟨wv, s4, e5, h⟩ := PyM.bind_eq_ok h
      obtain ⟨⟨wl, rfl, hwl, hPw⟩, _⟩ := hw.call.many _ _ _ _ (hw.roac _ _ _ hI1 e4).1 e5
      obtain ⟨ws, rfl⟩ := all_isStr hPw
      rw [PyM.lift_bind (Val.elems_list _)] at h
      cases h
      have hdet : ∀ (l vs : List Val) (s t : σ) (wi' : WordsIter),
          Yields word (.drawn l) s vs wi' t → vs.length = l.length → vs = l ∧ s = t := by
        intro l
        induction l with
        | nil =>
          intro vs s t wi' h hl
          have := List.length_eq_zero_iff.1 hl
          subst this
          cases h; exact ⟨rfl, rfl⟩
        | cons x l ih =>
          intro vs s t wi' h hl
          cases h with
          | nil => simp at hl
          | cons h1 h2 =>
            cases h1
            obtain ⟨rfl, rfl⟩ := ih _ _ _ _ h2 (by simpa using hl)
            exact ⟨rfl, rfl⟩
      obtain ⟨rfl, rfl⟩ := hdet _ _ _ _ _ hy (by rw [hvl, hwl])
      exact ⟨ws, rfl, .atOnce e4 hD e5 rfl e3 rfl (by simpa using hwl)⟩
    cases r with
    | none => exact draw (by simp) e2
    | some D =>
      dsimp only at e2
      by_cases hc : D ≠ 0 ∧ (ns.sum : Int) > D
      · rw [if_pos hc] at e2
        cases e2
        have h0D := (hw.roac _ _ _ hI1 e4).2 D rfl
        obtain ⟨D, rfl⟩ := Int.eq_ofNat_of_zero_le h0D
        obtain ⟨ws, rfl, hb⟩ := blocks_of_yields hw (D := D) (by omega) (by omega) hI3 hy hvl
        exact ⟨ws, rfl, .inBlocks e4 (by omega) (by omega) e3 rfl hb⟩
      · rw [if_neg hc] at e2
        exact draw (fun D' hD' => by cases hD'; omega) e2
  obtain ⟨ws, rfl, hd⟩ := hdraw
  obtain ⟨ts, h1, h2, h3⟩ := C32_emit_many numwords word sep n e1 rfl hns (by omega) hL hd
    (by rw [List.length_map] at hsl; omega)
  rw [h0] at h1
  cases h1
  exact ⟨cnts, s1, ns, ws, ss, ts, e1, hns, by omega, hI1, hd, rfl, h2⟩

/-! ### C35 -/

/-- The list splits into consecutive blocks of `D` (the last possibly shorter) without repeats. -/
def BlocksNodup {α : Type} (D : Nat) (l : List α) : Prop := ∀ i, ((l.drop (i * D)).take D).Nodup

theorem blocksNodup_append {α : Type} {D : Nat} {l l' : List α} (hl : l.length = D) (h : l.Nodup)
    (h' : BlocksNodup D l') : BlocksNodup D (l ++ l') := by
  intro i
  cases i with
  | zero => simpa [← hl] using h
  | succ i =>
    have := h' i
    rwa [Nat.succ_mul, Nat.add_comm, ← List.drop_drop, ← hl, List.drop_left, hl]

theorem blocksNodup_short {α : Type} {D : Nat} {l : List α} (h : l.Nodup) (_hl : l.length ≤ D) :
    BlocksNodup D l := by
  intro i
  exact ((List.take_sublist _ _).trans (List.drop_sublist _ _)).nodup h

/-- A word emitter that reports `D` different words to be handed out without repeats per call, and
does so. -/
structure DistinctWords (I : σ → Prop) (word : WordChild σ) (D : Nat) : Prop where
  emitter : WordEmitterOf I word IsStr
  pos : ∀ s, I s → 0 < D
  info : ∀ s r t, I s → word.roac s = (.ok r, t) → r = some (D : Int)
  distinct : ∀ s (n : Nat) vs t, I s → n ≤ D → word.call (some (.int n)) s = (.ok (.list vs), t) →
    vs.Nodup

theorem DistinctWords.call {I : σ → Prop} {word : WordChild σ} {D : Nat}
    (h : DistinctWords I word D) {s t : σ} {n : Nat} {v : Val} {vs : List Val} (hs : I s)
    (hn : n ≤ D) (hc : word.call (some (.int n)) s = (.ok v, t)) (hv : v.elems = .ok vs) :
    vs.Nodup ∧ I t := by
  obtain ⟨⟨l, rfl, _, _⟩, ht⟩ := h.emitter.call.many _ _ _ _ hs hc
  cases hv
  exact ⟨h.distinct _ _ _ _ hs hn hc, ht⟩

theorem blocks_nodup {I : σ → Prop} {word : WordChild σ} {D : Nat} (hw : DistinctWords I word D)
    {rem : Nat} {s t : σ} {ws : List (List Char)} (h : Blocks word D rem s ws t) (hs : I s) :
    BlocksNodup D ws := by
  induction h with
  | last _ hle h he hl =>
    have := hw.call hs hle h he
    exact blocksNodup_short (List.Nodup.of_map _ this.1) (by omega)
  | more _ h he hl hr _ ih =>
    have := hw.call hs le_rfl h he
    exact blocksNodup_append hl (List.Nodup.of_map _ this.1) (ih (hw.emitter.reset _ _ this.2 hr))

/-- The words of a batch, in order of use, form blocks of `D` different words. -/
theorem batch_blocks {I : σ → Prop} {numwords sep : Child σ} {word : WordChild σ} {D : Nat}
    (hw : DistinctWords I word D)
    (hn : EmitterOf I numwords (fun v => ∃ k : Nat, 1 ≤ k ∧ v = .int k)) (hs : EmitterOf I sep IsStr)
    (n : Nat) {s t : σ} {l : List Val} (hs0 : I s)
    (h : Text.emitMany numwords word sep n s = (.ok l, t)) :
    ∃ ns ws ss ts, l = ts.map Val.str ∧ ts.length = n ∧ TextsOf ns ws ss ts ∧
      BlocksNodup D ws ∧ (ws.length ≤ D → ws.Nodup) := by
  obtain ⟨cnts, s1, ns, ws, ss, ts, e1, hns, hnl, hI1, hd, rfl, ht⟩ :=
    C32_returned hn hw.emitter hs n hs0 h
  have hlen : ts.length = n := by
    rw [← hnl]
    clear * - ht
    induction ht with
    | nil => rfl
    | cons _ _ ih => simp [ih]
  have hpos := hw.pos _ hI1
  have hb : BlocksNodup D ws := by
    cases hd with
    | atOnce hr hD hc hwe hs' hse hl =>
      cases hw.info _ _ _ hI1 hr
      have hle : ns.sum ≤ D := by
        rcases hD _ rfl with h | h <;> omega
      have := hw.call (hw.emitter.roac _ _ _ hI1 hr).1 hle hc hwe
      exact blocksNodup_short (List.Nodup.of_map _ this.1) (by omega)
    | @inBlocks s2 s3 D' sv hr h0 hD hs' hse hb =>
      have e := hw.info _ _ _ hI1 hr
      obtain rfl : D' = D := by
        have := Option.some.inj e; omega
      have hge : ns.length ≤ ns.sum := by
        clear * - ht
        induction ht with
        | nil => simp
        | cons h _ ih => have := h.length; simp; omega
      have hk : ((ns.sum : Int) - n) = ((ns.sum - n : Nat) : Int) := by omega
      rw [hk] at hs'
      exact blocks_nodup hw hb (hs.many _ _ _ _ (hw.emitter.roac _ _ _ hI1 hr).1 hs').2
  refine ⟨ns, ws, ss, ts, rfl, hlen, ht, hb, fun hle => ?_⟩
  have := hb 0
  rwa [Nat.zero_mul, List.drop_zero, List.take_of_length_le hle] at this

variable {K : Type} [Field K] [LinearOrder K] [FloorRing K] [IsStrictOrderedRing K] {R : Rng K}

omit [IsStrictOrderedRing K] in
theorem choice_child_call (n : Nat) (s : ChoiceSt Val R × Nat) :
    Choice.child (some (.int n)) s =
      match Choice.call (some (n : Int)) s with
      | (.ok l, t) => (.ok (.list l), t)
      | (.error e, t) => (.error e, t) := by
  unfold Choice.child
  change (if (n : Int) = 1 then (do return Val.list [← Choice.emit])
      else (do return Val.list (← Choice.emitMany n)) : ChoiceM Val R Val) s = _
  have e : Choice.call (some (n : Int)) = (if (n : Int) = 1 then (do return [← Choice.emit])
      else Choice.emitMany (n : Int) : ChoiceM Val R (List Val)) := rfl
  rw [e]
  by_cases hn : (n : Int) = 1
  · rw [if_pos hn, if_pos hn, PyM.bind_apply, PyM.bind_apply]
    rcases Choice.emit s with ⟨_ | _, _⟩ <;> rfl
  · rw [if_neg hn, if_neg hn, PyM.bind_apply]
    rcases Choice.emitMany (n : Int) s with ⟨_ | _, _⟩ <;> rfl

/-- The word emitter is a reachable `Choice` over `items` with `replace_only_after_call`. -/
def RoacChoice (items : List Val) (s : (ChoiceSt Val R × Nat) × τ) : Prop :=
  ChoiceReach R items s.1 ∧ s.1.1.roac = true

theorem roac_call {items : List Val} (hnd : items.Nodup) {s t : (ChoiceSt Val R × Nat) × τ}
    (h : RoacChoice items s) {n : Nat} (hn : n ≤ items.length) {v : Val} {vs : List Val}
    (hc : (Choice.words.onFst (τ := τ)).call (some (.int n)) s = (.ok v, t))
    (hv : v.elems = .ok vs) : vs.Nodup ∧ vs.length = n ∧ RoacChoice items t := by
  obtain ⟨s, x⟩ := s
  obtain ⟨t, y⟩ := t
  have hc' : (match Choice.child (some (.int n)) s with | (r, s') => (r, (s', x))) =
      ((.ok v, (t, y)) : Except Err Val × _) := hc
  rw [choice_child_call] at hc'
  rcases hcc : Choice.call (some (n : Int)) s with ⟨_ | l, s'⟩
  · rw [hcc] at hc'; cases hc'
  · rw [hcc] at hc'
    cases hc'
    cases hv
    have h1 := C14_distinct h.1 h.2 (some n) hn (vs := vs) hcc
    refine ⟨h1.1.nodup hnd, h1.2.1, ?_, ?_⟩
    · have := ChoiceReach.op s (.call (some n)) h.1
      have e : ((ChoiceOp.call (some n) : ChoiceOp K).run s).2 = t := by
        change (Choice.call (some (n : Int)) s).2 = t
        rw [hcc]
      rwa [e] at this
    · obtain ⟨g, e⟩ := h1.2.2
      rw [e]
      exact h.2

omit [IsStrictOrderedRing K] in
theorem roac_info {items : List Val} {s t : (ChoiceSt Val R × Nat) × τ} (h : RoacChoice items s)
    {r : Option Int} (hc : (Choice.words.onFst (τ := τ)).roac s = (.ok r, t)) :
    r = some (items.dedup.length : Int) ∧ t = s := by
  obtain ⟨s, x⟩ := s
  have hwf := Choice.reach_wf h.1
  have hr := hwf.roac h.2
  have hc' : (match (Choice.words (R := R)).roac s with | (r, s') => (r, (s', x))) = (.ok r, t) := hc
  have h2 : s.1.roac = true := h.2
  have e0 : (Choice.words (R := R)).roac s =
      (Choice.numUniqueValues >>= fun m => pure (some (m : Int))) s := by
    change Choice.roacInfo s = _
    unfold Choice.roacInfo
    rw [Choice.self_bind, if_pos h2]
  have e1 := Choice.numUniqueValues_repl s hr
  rw [hwf.items_eq] at e1
  rw [e0, PyM.bind_apply, e1] at hc'
  rcases hq : pyLenSet items with e | m
  · rw [hq] at hc'; cases hc'
  · rw [hq] at hc'
    cases hc'
    rw [Choice.pyLenSet_ok hq]
    exact ⟨rfl, rfl⟩

omit [IsStrictOrderedRing K] in
theorem roac_reset {items : List Val} {s t : (ChoiceSt Val R × Nat) × τ} (h : RoacChoice items s)
    (hc : (Choice.words.onFst (τ := τ)).reset s = (.ok ⟨⟩, t)) : RoacChoice items t := by
  obtain ⟨s, x⟩ := s
  have hc' : (match Choice.reset s with | (r, s') => (r, (s', x))) =
      ((.ok ⟨⟩, t) : Except Err Unit × _) := hc
  have hwf := Choice.reach_wf h.1
  have hr := hwf.roac h.2
  rcases hcc : Choice.reset s with ⟨r, s'⟩
  rw [hcc] at hc'
  cases hc'
  have := ChoiceReach.op s (.reset) h.1
  have e : ((ChoiceOp.reset : ChoiceOp K).run s).2 = s' := by
    change ((Choice.reset >>= fun _ => pure []) s : Except Err (List Val) × _).2 = s'
    rw [PyM.bind_ok hcc]; rfl
  rw [e] at this
  refine ⟨this, ?_⟩
  have hro : s.1.roac = true := h.2
  change s'.1.roac = true
  unfold Choice.reset at hcc
  rw [Choice.self_bind] at hcc
  obtain ⟨_, s1, e1, hcc⟩ := PyM.bind_eq_ok hcc
  rw [if_neg (not_not.2 hr)] at hcc
  cases hcc
  unfold Choice.newRng at e1
  split at e1 <;> cases e1
  exact hro

theorem onFst_inv {α : Type} {m : PyM σ α} {s t : σ × τ} {r : Except Err α}
    (h : m.onFst s = (r, t)) : m s.1 = (r, t.1) ∧ t.2 = s.2 := by
  unfold PyM.onFst at h
  rcases hm : m s.1 with ⟨r', s'⟩
  rw [hm] at h
  cases h
  exact ⟨rfl, rfl⟩

/-- A reachable `replace_only_after_call` `Choice` over strings meets the contract of a word
emitter. -/
theorem roac_wordEmitter {items : List Val} (hstr : ∀ x ∈ items, IsStr x) :
    WordEmitterOf (RoacChoice (R := R) (τ := τ) items) Choice.words.onFst IsStr := by
  have hmem : ∀ vs, DistinctPick items vs → ∀ x ∈ vs, IsStr x := by
    intro vs h x hx
    obtain ⟨ps, _, e⟩ := h
    have : some x ∈ ps.map fun i => items[i]? := by
      rw [← e]; exact List.mem_map_of_mem hx
    obtain ⟨i, _, hi⟩ := List.mem_map.1 this
    exact hstr x (List.mem_of_getElem? hi)
  have hstep : ∀ (n : Option Nat) (s t : (ChoiceSt Val R × Nat) × τ) vs, RoacChoice items s →
      wanted n ≤ items.length → Choice.call (n.map Int.ofNat) s.1 = (.ok vs, t.1) →
      (vs.length = wanted n ∧ ∀ x ∈ vs, IsStr x) ∧ RoacChoice items t := by
    intro n s t vs h hn hc
    have h1 := C14_distinct h.1 h.2 n hn hc
    refine ⟨⟨h1.2.1, hmem vs h1.1⟩, ?_, ?_⟩
    · have := ChoiceReach.op s.1 (.call n) h.1
      have e : ((ChoiceOp.call n : ChoiceOp K).run s.1).2 = t.1 := by
        change (Choice.call (n.map Int.ofNat) s.1).2 = t.1
        rw [hc]
      rwa [e] at this
    · obtain ⟨g, e⟩ := h1.2.2
      rw [e]; exact h.2
  have hpos : ∀ s : (ChoiceSt Val R × Nat) × τ, RoacChoice items s → 1 ≤ items.length := by
    intro s h
    have := (Choice.reach_wf h.1).ne
    exact List.length_pos_iff.2 this
  have hemit : ∀ (s t : (ChoiceSt Val R × Nat) × τ) v, RoacChoice items s →
      Choice.emit s.1 = (.ok v, t.1) → IsStr v ∧ RoacChoice items t := by
    intro s t v h hc
    have e : Choice.call (none.map Int.ofNat) s.1 = (.ok [v], t.1) := by
      change (do return [← Choice.emit] : ChoiceM Val R (List Val)) s.1 = _
      rw [PyM.bind_ok hc]; rfl
    have := hstep none s t [v] h (hpos s h) e
    exact ⟨this.1.2 v (by simp), this.2⟩
  refine ⟨⟨?_, ?_, ?_⟩, ?_, ?_⟩
  · intro s v t hI h
    exact hemit s t v hI (onFst_inv h).1
  · intro s v t hI h
    exact hemit s t v hI (onFst_inv h).1
  · intro n s v t hI h
    have h1 : Choice.child (some (.int n)) s.1 = (.ok v, t.1) := (onFst_inv h).1
    rw [choice_child_call] at h1
    rcases hcc : Choice.call (some (n : Int)) s.1 with ⟨_ | l, s'⟩
    · rw [hcc] at h1; cases h1
    · rw [hcc] at h1
      have e1 : s' = t.1 := congrArg Prod.snd h1
      have e2 : Except.ok (Val.list l) = (Except.ok v : Except Err Val) := congrArg Prod.fst h1
      cases e2
      subst e1
      by_cases hn : n ≤ items.length
      · have := hstep (some n) s t l hI hn hcc
        exact ⟨⟨l, rfl, this.1⟩, this.2⟩
      · have := hpos s hI
        obtain ⟨x, hx, _⟩ := C13_over_ask_roac_exact hI.1 hI.2 n (by omega)
        rw [hx] at hcc
        cases hcc
  · intro s t hI h
    exact roac_reset hI h
  · intro s r t hI h
    obtain ⟨rfl, rfl⟩ := roac_info hI h
    exact ⟨hI, fun D hD => by cases hD; omega⟩

/-- It hands out different words. -/
theorem roac_distinct {items : List Val} (hnd : items.Nodup) (hstr : ∀ x ∈ items, IsStr x) :
    DistinctWords (RoacChoice (R := R) (τ := τ) items) Choice.words.onFst items.length where
  emitter := roac_wordEmitter hstr
  pos _ hs := List.length_pos_iff.2 (Choice.reach_wf hs.1).ne
  info _ _ _ hs h := by rw [(roac_info hs h).1, List.Nodup.dedup hnd]
  distinct _ _ _ _ hs hn h := (roac_call hnd hs hn h rfl).1

/-- **C35.** Let the word emitter be a `Choice` with `replace_only_after_call` over `D` pairwise
different words, in any reachable state, and let the other children leave it such.  In every batch
that `text(n)` returns, the words in order of use form consecutive blocks of `D` words, none of
which contains a word twice; in particular a batch of at most `D` words has no repeats. -/
theorem C35_blocks {items : List Val} (hnd : items.Nodup) (hstr : ∀ x ∈ items, IsStr x)
    {numwords sep : Child ((ChoiceSt Val R × Nat) × τ)}
    (hn : EmitterOf (RoacChoice items) numwords (fun v => ∃ k : Nat, 1 ≤ k ∧ v = .int k))
    (hs : EmitterOf (RoacChoice items) sep IsStr)
    (n : Nat) {s t : (ChoiceSt Val R × Nat) × τ} {l : List Val} (hs0 : RoacChoice items s)
    (h : Text.emitMany numwords Choice.words.onFst sep n s = (.ok l, t)) :
    ∃ ns ws ss ts, l = ts.map Val.str ∧ ts.length = n ∧ TextsOf ns ws ss ts ∧
      BlocksNodup items.length ws ∧ (ws.length ≤ items.length → ws.Nodup) :=
  batch_blocks (roac_distinct hnd hstr) hn hs n hs0 h

omit [IsStrictOrderedRing K] in
theorem roac_reset_run {items : List Val} {s : (ChoiceSt Val R × Nat) × τ}
    (h : RoacChoice items s) :
    ∃ t, (Choice.words.onFst (τ := τ)).reset s = (.ok ⟨⟩, t) ∧ t.1.1.weights = s.1.1.weights := by
  obtain ⟨s, x⟩ := s
  have hr : s.1.replace = true := (Choice.reach_wf h.1).roac h.2
  obtain ⟨g, e, hn⟩ : ∃ g e, Choice.newRng s.1.rngSeed s =
      ((.ok ⟨⟩, ({ s.1 with rng := g }, e)) : Except Err PUnit × _) := by
    unfold Choice.newRng Rng.new
    cases s.1.rngSeed with
    | none => exact ⟨_, _, rfl⟩
    | some y => exact ⟨_, _, rfl⟩
  have : Choice.reset s = ((.ok ⟨⟩, ({ s.1 with rng := g }, e)) : Except Err PUnit × _) := by
    unfold Choice.reset
    rw [Choice.self_bind, PyM.bind_ok hn, if_neg (not_not.2 hr)]; rfl
  refine ⟨(({ s.1 with rng := g }, e), x), ?_, rfl⟩
  change (match Choice.reset s with | (r, s') => (r, (s', x))) = _
  rw [this]

theorem roac_call_run {items : List Val} (hstr : ∀ x ∈ items, IsStr x)
    {s : (ChoiceSt Val R × Nat) × τ} (h : RoacChoice items s) (hw : s.1.1.weights = none) {n : Nat}
    (hn : n ≤ items.length) :
    ∃ (ws : List (List Char)) (t : _), (Choice.words.onFst (τ := τ)).call (some (.int n)) s =
        (.ok (.list (ws.map Val.str)), t) ∧ ws.length = n ∧ t.1.1.weights = none := by
  obtain ⟨vs, t', hc⟩ := C14_unweighted_succeeds h.1 h.2 (some n) hn hw
  have hrun : (Choice.words.onFst (τ := τ)).call (some (.int n)) s =
      (.ok (.list vs), (t', s.2)) := by
    change (match Choice.child (some (.int n)) s.1 with | (r, s') => (r, (s', s.2))) = _
    have hc' : Choice.call (some (n : Int)) s.1 = (.ok vs, t') := hc
    rw [choice_child_call, hc']
  obtain ⟨⟨l, e, hl, hP⟩, _⟩ := (roac_wordEmitter hstr).call.many _ _ _ _ h hrun
  cases e
  obtain ⟨ws, rfl⟩ := all_isStr hP
  obtain ⟨_, _, g, e⟩ := C14_distinct h.1 h.2 (some n) hn hc
  exact ⟨ws, _, hrun, by simpa using hl, by rw [e]; exact hw⟩

/-- Without weights the blocks can always be drawn. -/
theorem roac_blocks_exist {items : List Val} (hnd : items.Nodup) (hstr : ∀ x ∈ items, IsStr x)
    {rem : Nat} (h0 : 0 < rem) {s : (ChoiceSt Val R × Nat) × τ} (h : RoacChoice items s)
    (hw : s.1.1.weights = none) :
    ∃ ws t, Blocks (Choice.words.onFst (τ := τ)) items.length rem s ws t := by
  have hpos : 0 < items.length := List.length_pos_iff.2 (Choice.reach_wf h.1).ne
  induction rem using Nat.strongRecOn generalizing s with
  | _ rem ih =>
  by_cases hle : rem ≤ items.length
  · obtain ⟨ws, t, h1, h2, _⟩ := roac_call_run hstr h hw hle
    exact ⟨ws, t, .last h0 hle h1 rfl h2⟩
  · obtain ⟨ws, t, h1, h2, h3⟩ := roac_call_run hstr h hw le_rfl
    have ht := (roac_call hnd h le_rfl h1 rfl).2.2
    obtain ⟨u, h4, h5⟩ := roac_reset_run ht
    obtain ⟨ws', v, h6⟩ := ih (rem - items.length) (by omega) (by omega) (roac_reset ht h4)
      (h5.trans h3)
    exact ⟨ws ++ ws', v, .more (by omega) h1 rfl h2 h4 h6⟩

/-- **C35 (success).** Without weights, a batch needing more words than there are is always
completed: given the word counts and the separators, `text(n)` returns. -/
theorem C35_succeeds {items : List Val} (hnd : items.Nodup) (hstr : ∀ x ∈ items, IsStr x)
    {numwords sep : Child ((ChoiceSt Val R × Nat) × τ)} (n : Nat)
    {s s1 s2 : (ChoiceSt Val R × Nat) × τ} {cnts : List Val} {ns : List Nat}
    {ss : List (List Char)} (h1 : RoacChoice items s1) (h2 : RoacChoice items s2)
    (hw : s2.1.1.weights = none)
    (hn : numwords (some (.int n)) s = (.ok (.list cnts), s1)) (hns : AreCounts cnts ns)
    (hlen : ns.length = n) (hpos : ∀ k ∈ ns, 1 ≤ k) (hmany : items.length < ns.sum)
    (hs : sep (some (.int (ns.sum - n))) s1 = (.ok (.list (ss.map Val.str)), s2))
    (hss : ss.length + n = ns.sum) :
    ∃ l t, Text.emitMany numwords Choice.words.onFst sep n s = (.ok l, t) := by
  have h0 : 0 < items.length := List.length_pos_iff.2 (Choice.reach_wf h1.1).ne
  obtain ⟨ws, t, hb⟩ := roac_blocks_exist (rem := ns.sum) hnd hstr (by omega) h2 hw
  have hr : (Choice.words.onFst (τ := τ)).roac s1 = (.ok (some (items.length : Int)), s1) := by
    rcases hr : (Choice.words.onFst (τ := τ)).roac s1 with ⟨e | r, t'⟩
    · exfalso
      obtain ⟨s1, x⟩ := s1
      have hro : s1.1.roac = true := h1.2
      have hrep : s1.1.replace = true := (Choice.reach_wf h1.1).roac h1.2
      have := (onFst_inv hr).1
      change Choice.roacInfo s1 = _ at this
      unfold Choice.roacInfo at this
      rw [Choice.self_bind, if_pos hro] at this
      have e1 : Choice.numUniqueValues s1 = (.ok s1.1.items.dedup.length, s1) := by
        rw [Choice.numUniqueValues_repl s1 hrep, pyLenSet, if_pos]
        rw [allHashable_iff, (Choice.reach_wf h1.1).items_eq]
        intro v hv
        obtain ⟨c, rfl⟩ := hstr v hv
        rfl
      rw [PyM.bind_ok e1] at this
      cases this
    · obtain ⟨rfl, rfl⟩ := roac_info h1 hr
      rw [List.Nodup.dedup hnd]
  obtain ⟨ts, h, _⟩ := C32_emit_many numwords Choice.words.onFst sep n hn rfl hns hlen hpos
    (.inBlocks (D := items.length) hr h0 hmany hs rfl hb) hss
  exact ⟨_, _, h⟩

/-! A `Choice` over three words with `replace_only_after_call`, used for two texts of three and two
words. -/

/-- Five words from a three-word list. -/
example :
    (do
      let st ← Choice.init (R := demoRng) [.str ['a'], .str ['b'], .str ['c']] none true true
        (some 4) none
      PyM.lift (Text.emitMany (constChild .none [.int 3, .int 2]) Choice.words.onFst
        (constChild .none [.str ['-'], .str ['-'], .str ['-']]) 2 ((st, 0), ())).1 :
      PyM Nat (List Val)) 0 =
    (.ok [.str ['a', '-', 'b', '-', 'c'], .str ['a', '-', 'b']], 0) := by decide +kernel

end Fauxdoc
