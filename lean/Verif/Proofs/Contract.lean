import Verif.Spec.Contract
import Verif.Spec.Emitter
import Verif.Proofs.World2
import Verif.Props.Text
/-
Emitter classes fulfil the contract if their children do.
-/
set_option linter.unusedSectionVars false
namespace Fauxdoc
open PyM

namespace PyM
variable {σ : Type} {α β : Type}

/-- From state `s`, `m` ends in a state satisfying `I`, and a returned value satisfies `Q`. -/
def EnsuresAt (I : σ → Prop) (m : PyM σ α) (Q : α → Prop) (s : σ) : Prop :=
  I (m s).2 ∧ ∀ a, (m s).1 = .ok a → Q a

/-- `m` preserves `I`, whether it returns or raises, and returned values satisfy `Q`. -/
def Ensures (I : σ → Prop) (m : PyM σ α) (Q : α → Prop) : Prop := ∀ s, I s → EnsuresAt I m Q s

variable {I : σ → Prop}

theorem Ensures.pure {Q : α → Prop} {a : α} (h : Q a) : Ensures I (Pure.pure a : PyM σ α) Q :=
  fun _ hs => ⟨hs, fun b hb => by cases hb; exact h⟩

theorem Ensures.raise {Q : α → Prop} (e : Err) : Ensures I (PyM.raise e : PyM σ α) Q :=
  fun _ hs => ⟨hs, fun b hb => by cases hb⟩

theorem Ensures.lift {Q : α → Prop} {x : Except Err α} (h : ∀ a, x = .ok a → Q a) :
    Ensures I (PyM.lift x : PyM σ α) Q := fun _ hs => ⟨hs, h⟩

theorem Ensures.bind {Q : α → Prop} {T : β → Prop} {m : PyM σ α} {k : α → PyM σ β}
    (hm : Ensures I m Q) (hk : ∀ a, Q a → Ensures I (k a) T) : Ensures I (m >>= k) T := by
  intro s hs
  obtain ⟨h1, h2⟩ := hm s hs
  unfold EnsuresAt
  rw [bind_apply]
  rcases hms : m s with ⟨e | a, s'⟩
  · rw [hms] at h1
    exact ⟨h1, fun a ha => by cases ha⟩
  · rw [hms] at h1 h2
    exact hk a (h2 a rfl) s' h1

theorem Ensures.get_bind {T : β → Prop} {k : σ → PyM σ β}
    (h : ∀ s, I s → EnsuresAt I (k s) T s) : Ensures I ((PyM.get : PyM σ σ) >>= k) T :=
  fun s hs => h s hs

theorem Ensures.mono {Q T : α → Prop} {m : PyM σ α} (hm : Ensures I m Q) (h : ∀ a, Q a → T a) :
    Ensures I m T := fun s hs => ⟨(hm s hs).1, fun a ha => h a ((hm s hs).2 a ha)⟩

theorem Ensures.keeps {Q : α → Prop} {m : PyM σ α} (hm : Ensures I m Q) : Keeps I m :=
  fun s hs => (hm s hs).1

theorem Keeps.ensures {m : PyM σ α} (hm : Keeps I m) : Ensures I m fun _ => True :=
  fun s hs => ⟨hm s hs, fun _ _ => trivial⟩

theorem Ensures.ite {Q : α → Prop} {c : Prop} [Decidable c] {m n : PyM σ α}
    (hm : c → Ensures I m Q) (hn : ¬ c → Ensures I n Q) : Ensures I (if c then m else n) Q := by
  by_cases h : c
  · rw [if_pos h]; exact hm h
  · rw [if_neg h]; exact hn h

theorem mapPyM_ensures {Q : β → Prop} {f : α → PyM σ β} {l : List α}
    (h : ∀ a ∈ l, Ensures I (f a) Q) :
    Ensures I (mapPyM f l) fun bs => bs.length = l.length ∧ ∀ b ∈ bs, Q b := by
  induction l with
  | nil => exact Ensures.pure ⟨rfl, by simp⟩
  | cons a as ih =>
    refine Ensures.bind (h a (by simp)) fun b hb =>
      Ensures.bind (ih fun x hx => h x (by simp [hx])) fun bs hbs => Ensures.pure ?_
    exact ⟨by simp [hbs.1], by simpa using ⟨hb, hbs.2⟩⟩

theorem mapPyM_forall₂ {Q : α → β → Prop} {f : α → PyM σ β} {l : List α}
    (h : ∀ a ∈ l, Ensures I (f a) (Q a)) :
    Ensures I (mapPyM f l) fun bs => List.Forall₂ Q l bs := by
  induction l with
  | nil => exact Ensures.pure .nil
  | cons a as ih =>
    exact Ensures.bind (h a (by simp)) fun b hb =>
      Ensures.bind (ih fun x hx => h x (by simp [hx])) fun bs hbs => Ensures.pure (.cons hb hbs)

end PyM

variable {σ G : Type} {I : σ → Prop}

/-- `c`, called with an admissible argument, preserves `I` and answers as it should. -/
def Contract (I : σ → Prop) (c : Child σ) (P : Val → Prop) : Prop :=
  ∀ arg, ArgOK arg → Ensures I (c arg) (Answers P arg)

theorem answers_int {P : Val → Prop} {n : Int} {v : Val} (h : Answers P (some (.int n)) v) :
    ∃ l, v = .list l ∧ (l.length : Int) = n ∧ ∀ y ∈ l, P y := by
  obtain ⟨i, l, h1, h2, h3, h4⟩ := h
  cases h1
  exact ⟨l, h2, h3, h4⟩

theorem argOK_int {n : Int} (h : 0 ≤ n) : ArgOK (some (.int n)) := by
  intro i hi
  cases hi
  exact h

theorem Contract.emitterOf {c : Child σ} {P : Val → Prop} (h : Contract I c P) : EmitterOf I c P where
  one s v t hI e := by
    have := h none trivial s hI
    unfold EnsuresAt at this
    rw [e] at this
    exact ⟨this.2 v rfl, this.1⟩
  none s v t hI e := by
    have := h (some .none) (fun i hi => by cases hi) s hI
    unfold EnsuresAt at this
    rw [e] at this
    exact ⟨this.2 v rfl, this.1⟩
  many n s v t hI e := by
    have := h (some (.int n)) (argOK_int (by omega)) s hI
    unfold EnsuresAt at this
    rw [e] at this
    obtain ⟨l, h1, h2, h3⟩ := answers_int (this.2 v rfl)
    exact ⟨⟨l, h1, by omega, h3⟩, this.1⟩

/-- `Emitter.__call__`. -/
theorem emitterCallOr_contract {bad : Val → PyM σ Val} {emit : PyM σ Val}
    {emitMany : Int → PyM σ (List Val)} {P : Val → Prop}
    (hb : ∀ v : Val, v ≠ .none → v.asInt = none → Ensures I (bad v) fun _ => False)
    (h1 : Ensures I emit P)
    (h2 : ∀ n : Int, 0 ≤ n → n ≠ 1 →
      Ensures I (emitMany n) fun l => (l.length : Int) = n ∧ ∀ x ∈ l, P x) :
    Contract I (emitterCallOr bad emit emitMany) P := by
  have key : ∀ v : Val, v ≠ .none → v.AtLeast 0 →
      Ensures I (match v.asInt with
        | none => bad v
        | some n =>
          if n = 1 then do return .list [← emit]
          else do return .list (← emitMany n)) (Answers P (some v)) := by
    intro v hv hn
    have hans : ∀ {i : Int} {l : List Val}, v.asInt = some i → (l.length : Int) = i →
        (∀ y ∈ l, P y) → Answers P (some v) (.list l) := by
      intro i l h h' h''
      cases v with
      | none => exact absurd rfl hv
      | _ => exact ⟨i, l, h, rfl, h', h''⟩
    rcases hi : v.asInt with _ | i
    · exact (hb v hv hi).mono fun _ h => h.elim
    · dsimp only
      refine Ensures.ite (fun h => ?_) fun h => ?_
      · refine Ensures.bind h1 fun x hx => Ensures.pure (hans hi (by simp [h]) ?_)
        simpa using hx
      · exact Ensures.bind (h2 i (hn i hi) h) fun l hl => Ensures.pure (hans hi hl.1 hl.2)
  intro arg ha
  match arg, ha with
  | none, _ => exact h1
  | some .none, _ => exact h1
  | some (.bool b), ha => exact key (.bool b) (by simp) ha
  | some (.int b), ha => exact key (.int b) (by simp) ha
  | some (.str b), ha => exact key (.str b) (by simp) ha
  | some (.list b), ha => exact key (.list b) (by simp) ha
  | some (.tuple b), ha => exact key (.tuple b) (by simp) ha
  | some (.other b), ha => exact key (.other b) (by simp) ha

theorem emitterCall_contract {emit : PyM σ Val} {emitMany : Int → PyM σ (List Val)} {P : Val → Prop}
    (h1 : Ensures I emit P)
    (h2 : ∀ n : Int, 0 ≤ n → n ≠ 1 →
      Ensures I (emitMany n) fun l => (l.length : Int) = n ∧ ∀ x ∈ l, P x) :
    Contract I (emitterCall emit emitMany) P :=
  emitterCallOr_contract (fun _ _ _ => Ensures.raise _) h1 h2

theorem argOK_bad {v : Val} (h : v.asInt = none) : ArgOK (some v) := by
  intro i hi
  rw [h] at hi
  cases hi

theorem not_answers_bad {P : Val → Prop} {v x : Val} (hv : v ≠ .none) (h : v.asInt = none) :
    ¬ Answers P (some v) x := by
  cases v with
  | none => exact absurd rfl hv
  | _ =>
    rintro ⟨i, l, h1, _⟩
    rw [h] at h1
    cases h1

theorem Word.emitBad_contract {c : Child σ} {L : Val → Prop} (hc : Contract I c L) (v : Val)
    (hv : v ≠ .none) (h : v.asInt = none) : Ensures I (Word.emitBad c v) fun _ => False :=
  Ensures.bind (hc (some v) (argOK_bad h)) fun _ hx => (not_answers_bad hv h hx).elim

/-! ### Word -/

theorem sumInts_ok {l : List Val} {ns : List Int} {t : Int} (h : sumInts l = .ok (ns, t)) :
    List.Forall₂ (fun v n => v.asInt = some n) l ns ∧ t = ns.sum := by
  unfold sumInts at h
  obtain ⟨is, h1, h2⟩ := Py.bind_eq_ok h
  cases h2
  refine ⟨?_, rfl⟩
  rw [mapPy_ok_iff] at h1
  refine h1.imp fun v n hv => ?_
  unfold Val.toInt at hv
  split at hv
  · cases hv; assumption
  · cases hv

theorem sum_atLeast {P : Val → Prop} {k : Int} (hP : ∀ v, P v → v.AtLeast k) {l : List Val}
    {ns : List Int} (h : List.Forall₂ (fun v n => v.asInt = some n) l ns) (hl : ∀ x ∈ l, P x) :
    (∀ n ∈ ns, k ≤ n) ∧ (l.length : Int) * k ≤ ns.sum ∧ ns.length = l.length := by
  induction h with
  | nil => simp
  | cons h1 h2 ih =>
    obtain ⟨a, b, c⟩ := ih fun x hx => hl x (by simp [hx])
    have := hP _ (hl _ (by simp)) _ h1
    refine ⟨by simpa using ⟨this, a⟩, ?_, by simp [c]⟩
    simp only [List.length_cons, List.sum_cons]
    push_cast
    linarith

theorem joinEmpty_ok {l : List Val} {t : List Char} (h : joinEmpty l = .ok t) :
    ∃ cs : List (List Char), l = cs.map Val.str ∧ t = cs.flatten := by
  unfold joinEmpty at h
  obtain ⟨cs, h1, h2⟩ := Py.bind_eq_ok h
  cases h2
  refine ⟨cs, ?_, rfl⟩
  rw [mapPy_ok_iff] at h1
  clear h
  induction h1 with
  | nil => rfl
  | @cons v c l cs hv _ ih =>
    rw [ih, List.map_cons]
    unfold Val.chars at hv
    split at hv
    · cases hv; rfl
    · cases hv

theorem partition_ok {chars : List Val} {ns : List Int} (hns : ∀ n ∈ ns, 0 ≤ n) {a : Nat}
    (ha : (a : Int) + ns.sum ≤ chars.length) {ws : List Val}
    (h : Word.partition chars a ns = .ok ws) :
    List.Forall₂ (fun w n => ∃ cs : List (List Char), w = .str cs.flatten ∧
      (cs.length : Int) = n ∧ ∀ c ∈ cs, Val.str c ∈ chars) ws ns := by
  induction ns generalizing a ws with
  | nil => cases h; exact .nil
  | cons n ns ih =>
    unfold Word.partition at h
    obtain ⟨w, h1, h2⟩ := Py.bind_eq_ok h
    obtain ⟨ws', h3, h4⟩ := Py.bind_eq_ok h2
    cases h4
    have hn := hns n (by simp)
    have hsum : 0 ≤ ns.sum := List.sum_nonneg fun x hx => hns x (by simp [hx])
    obtain ⟨k, rfl⟩ := Int.eq_ofNat_of_zero_le hn
    rw [List.sum_cons] at ha
    have e : ((a : Int) + (k : Int)) = ((a + k : Nat) : Int) := by push_cast; rfl
    refine .cons ?_ (ih (fun x hx => hns x (by simp [hx])) (a := a + k) (by push_cast; omega)
      (by rw [← e]; exact h3))
    obtain ⟨cs, h5, rfl⟩ := joinEmpty_ok h1
    rw [pyListSlice1_nat _ _ _ (by omega)] at h5
    refine ⟨cs, rfl, ?_, fun c hc => ?_⟩
    · have := congrArg List.length h5
      rw [List.length_map, List.length_take, List.length_drop] at this
      omega
    · have : Val.str c ∈ (chars.drop a).take k := by rw [h5]; exact List.mem_map_of_mem hc
      exact List.mem_of_mem_drop (List.mem_of_mem_take this)

theorem Word.contract {length alphabet : Child σ} {L A P : Val → Prop} (hl : Contract I length L)
    (ha : Contract I alphabet A) (hL : ∀ v, L v → v.AtLeast 0)
    (hP : ∀ s, Spelled L A s → P (.str s)) : Contract I (Word.call length alphabet) P := by
  refine emitterCallOr_contract (Word.emitBad_contract hl) ?_ fun n h0 h1 => ?_
  · unfold Word.emit
    refine Ensures.bind (hl none trivial) fun k hk => ?_
    refine Ensures.bind (ha (some k) (hL k hk)) fun cs hcs => ?_
    refine Ensures.bind (Q := fun l => cs.elems = .ok l) (Ensures.lift fun _ h => h) fun l hl => ?_
    refine Ensures.bind (Q := fun t => joinEmpty l = .ok t) (Ensures.lift fun _ h => h) fun t ht =>
      Ensures.pure (hP t ?_)
    obtain ⟨ws, rfl, rfl⟩ := joinEmpty_ok ht
    by_cases hk0 : k = .none
    · subst hk0
      exact .whole hk hcs hl
    · have hex : ∃ i l', k.asInt = some i ∧ cs = .list l' ∧ (l'.length : Int) = i ∧ ∀ y ∈ l', A y := by
        cases k <;> first | exact absurd rfl hk0 | exact hcs
      obtain ⟨i, l', h1, rfl, h3, h4⟩ := hex
      cases hl
      refine .chars hk (by rw [h1, ← h3, List.length_map]) fun c hc => h4 _ (List.mem_map_of_mem hc)
  · unfold Word.emitMany
    refine Ensures.bind (hl _ (argOK_int h0)) fun ls hls => ?_
    obtain ⟨l, rfl, hlen, hall⟩ := answers_int hls
    refine Ensures.bind (Q := fun x => x = l) (Ensures.lift fun a ha => by cases ha; rfl) fun x hx => ?_
    subst hx
    refine Ensures.bind (Q := fun p => sumInts x = .ok p) (Ensures.lift fun a ha => ha) fun p hp => ?_
    obtain ⟨ns, total⟩ := p
    obtain ⟨hf, rfl⟩ := sumInts_ok hp
    obtain ⟨hns, hs, hlen'⟩ := sum_atLeast hL hf hall
    dsimp only
    refine Ensures.bind (ha _ (argOK_int (by simpa using hs))) fun cs hcs => ?_
    obtain ⟨cl, rfl, hcl, hcA⟩ := answers_int hcs
    refine Ensures.bind (Q := fun y => y = cl) (Ensures.lift fun a ha => by cases ha; rfl)
      fun chars hch => ?_
    subst hch
    refine Ensures.lift fun ws hws => ?_
    have hp := partition_ok (a := 0) hns (by omega) hws
    refine ⟨by rw [hp.length_eq, hlen', hlen], fun w hw => ?_⟩
    obtain ⟨i, hi, rfl⟩ := List.getElem_of_mem hw
    have hi' : i < ns.length := by rw [← hp.length_eq]; exact hi
    have hix : i < x.length := by omega
    obtain ⟨cs, e1, e2, e3⟩ := List.Forall₂.get hp hi hi'
    rw [show ws[i] = _ from e1]
    refine hP _ (.chars (hall x[i] (List.getElem_mem hix)) ?_ fun c hc => hcA _ (e3 c hc))
    rw [e2]
    exact List.Forall₂.get hf hix hi'

/-! ### Text -/

/-- What is needed of a word emitter. -/
structure WordContract (I : σ → Prop) (w : Text.WordChild σ) (P : Val → Prop) : Prop where
  call : Contract I w.call P
  reset : Keeps I w.reset
  roac : Ensures I w.roac fun r => ∀ D, r = some D → 0 ≤ D

namespace Text
variable {word : WordChild σ} {P : Val → Prop}

/-- The number of words per block is never negative, and the words still to come are words. -/
def WordsIter.OK (P : Val → Prop) : WordsIter → Prop
  | .drawn l => ∀ x ∈ l, P x
  | .blocks nu _ _ buf => 0 ≤ nu ∧ ∀ x ∈ buf, P x

theorem getWordsIterator_ensures (hw : WordContract I word P) {total : Int} (ht : 0 ≤ total) :
    Ensures I (getWordsIterator word total) (WordsIter.OK P) := by
  unfold getWordsIterator
  have hall : Ensures I (do
      let ws ← word.call (some (.int total))
      return .drawn (← PyM.lift ws.elems) : PyM σ WordsIter) (WordsIter.OK P) := by
    refine Ensures.bind (hw.call _ (argOK_int ht)) fun ws hws => ?_
    obtain ⟨l, rfl, -, hl⟩ := answers_int hws
    exact Ensures.bind (Q := fun y => y = l) (Ensures.lift fun a ha => by cases ha; rfl) fun y hy =>
      Ensures.pure (by subst hy; exact hl)
  refine Ensures.bind hw.roac fun r hr => ?_
  rcases r with _ | D
  · exact hall
  · refine Ensures.ite (fun h => Ensures.pure ?_) fun h => hall
    exact ⟨hr D rfl, by simp⟩

theorem nextBlock_ensures (hw : WordContract I word P) {nu : Int} (hnu : 0 ≤ nu) (fuel : Nat) :
    ∀ rem, Ensures I (nextBlock word nu fuel rem) fun p => P p.1 ∧ p.2.OK P := by
  induction fuel with
  | zero => intro rem; exact Ensures.raise _
  | succ fuel ih =>
    intro rem
    unfold nextBlock
    refine Ensures.ite (fun h => ?_) fun h => Ensures.raise _
    have hneed : 0 ≤ clamp nu none (some rem) := by
      unfold clamp
      simp only
      split <;> omega
    dsimp only
    refine Ensures.bind (hw.call _ (argOK_int hneed)) fun ws hws => ?_
    obtain ⟨l, rfl, -, hl⟩ := answers_int hws
    refine Ensures.bind (Q := fun y => y = l) (Ensures.lift fun a ha => by cases ha; rfl) fun y hy => ?_
    subst hy
    cases y with
    | nil => exact Ensures.bind hw.reset.ensures fun _ _ => ih _
    | cons v rest =>
      exact Ensures.pure ⟨hl v (by simp), hnu, fun x hx => hl x (by simp [hx])⟩

theorem nextWord_ensures (hw : WordContract I word P) {wi : WordsIter} (h : wi.OK P) :
    Ensures I (nextWord word wi) fun p => P p.1 ∧ p.2.OK P := by
  rcases wi with (_ | ⟨v, l⟩) | ⟨nu, rem, needed, _ | ⟨v, l⟩⟩
  · exact Ensures.raise _
  · exact Ensures.pure ⟨h v (by simp), fun x hx => h x (by simp [hx])⟩
  · unfold nextWord
    refine Ensures.ite (fun _ => ?_) fun _ => ?_
    · exact nextBlock_ensures hw h.1 _ _
    · exact Ensures.bind hw.reset.ensures fun _ _ => nextBlock_ensures hw h.1 _ _
  · exact Ensures.pure ⟨h.2 v (by simp), h.1, fun x hx => h.2 x (by simp [hx])⟩

/-- Separators and words, alternately, `k` of each. -/
inductive Pairs (P S : Val → Prop) : Nat → List Val → Prop
  | nil : Pairs P S 0 []
  | cons {k : Nat} {s w : Val} {l : List Val} (hs : S s) (hw : P w) (h : Pairs P S k l) :
    Pairs P S (k + 1) (s :: w :: l)

theorem Pairs.text {S : Val → Prop} {k : Nat} {l : List Val} (h : Pairs P S k l) {w : List Char}
    {t : List Char} (hw : P (.str w)) (hj : joinEmpty (.str w :: l) = .ok t) :
    ∃ ws ss, ws.length = k + 1 ∧ (∀ w ∈ ws, P (.str w)) ∧ (∀ s ∈ ss, S (.str s)) ∧ TextOf ws ss t := by
  induction h generalizing w t with
  | nil =>
    obtain ⟨cs, h1, rfl⟩ := joinEmpty_ok hj
    cases cs with
    | nil => cases h1
    | cons c cs =>
      rw [List.map_cons, List.cons.injEq] at h1
      obtain ⟨e1, e2⟩ := h1
      cases e1
      rw [eq_comm, List.map_eq_nil_iff] at e2
      subst e2
      refine ⟨[w], [], rfl, by simpa using hw, by simp, ?_⟩
      simpa using TextOf.one w
  | @cons k s v l hs hv _ ih =>
    obtain ⟨cs, h1, rfl⟩ := joinEmpty_ok hj
    match cs, h1 with
    | c :: d :: e :: cs, h1 =>
      simp only [List.map_cons, List.cons.injEq] at h1
      obtain ⟨e1, rfl, rfl, rfl⟩ := h1
      cases e1
      have hj' : joinEmpty (.str e :: cs.map Val.str) = .ok (e :: cs).flatten :=
        joinEmpty_strs (e :: cs)
      obtain ⟨ws, ss, a1, a2, a3, a4⟩ := ih hv hj'
      refine ⟨w :: ws, d :: ss, by simp [a1], by simpa using ⟨hw, a2⟩, by simpa using ⟨hs, a3⟩, ?_⟩
      have := TextOf.more w d a4
      simpa using this

theorem renderRest_ensures (hw : WordContract I word P) {S : Val → Prop} (k : Nat) :
    ∀ {wi : WordsIter} (seps : List Val), wi.OK P → k ≤ seps.length → (∀ s ∈ seps, S s) →
    Ensures I (renderRest word k wi seps) fun p => Pairs P S k p.1 ∧ p.2.1.OK P ∧
      p.2.2.length = seps.length - k ∧ ∀ s ∈ p.2.2, S s := by
  induction k with
  | zero => intro wi seps h _ hS; exact Ensures.pure ⟨.nil, h, by simp, hS⟩
  | succ k ih =>
    intro wi seps h hk hS
    cases seps with
    | nil => simp at hk
    | cons s seps =>
      unfold renderRest nextSep
      refine Ensures.bind (nextWord_ensures hw h) fun p hp => ?_
      refine Ensures.bind (ih seps hp.2 (by simpa using hk) fun x hx => hS x (by simp [hx]))
        fun q hq => Ensures.pure ?_
      exact ⟨.cons (hS s (by simp)) hp.1 hq.1, hq.2.1, by simp [hq.2.2.1], hq.2.2.2⟩

theorem renderAll_ensures (hw : WordContract I word P) {N S Q : Val → Prop}
    (hQ : ∀ t, Rendered N P S t → Q (.str t)) {ls : List Val} {ns : List Int}
    (hf : List.Forall₂ (fun v n => v.asInt = some n) ls ns) (hN : ∀ v ∈ ls, N v)
    (hns : ∀ n ∈ ns, 1 ≤ n) : ∀ {wi : WordsIter} (seps : List Val), wi.OK P →
    (seps.length : Int) = ns.sum - ns.length → (∀ s ∈ seps, S s) →
    Ensures I (renderAll word ns wi seps) fun l => l.length = ns.length ∧ ∀ x ∈ l, Q x := by
  induction hf with
  | nil => intro wi seps h _ _; exact Ensures.pure ⟨rfl, by simp⟩
  | @cons v n ls ns hv hf ih =>
    intro wi seps h hlen hS
    unfold renderAll
    have hn := hns n (by simp)
    have hsum : (ns.length : Int) ≤ ns.sum := by
      clear * - hns
      induction ns with
      | nil => simp
      | cons m ns ih =>
        have := ih fun x hx => hns x (by
          rcases List.mem_cons.1 hx with rfl | hx
          · simp
          · simp [hx])
        have := hns m (by simp)
        simp; omega
    rw [List.sum_cons, List.length_cons] at hlen
    push_cast at hlen
    rw [if_neg (by omega)]
    refine Ensures.bind (nextWord_ensures hw h) fun p hp => ?_
    refine Ensures.bind (renderRest_ensures hw _ _ hp.2 (by omega) hS) fun q hq => ?_
    refine Ensures.bind (Q := fun t => joinEmpty (p.1 :: q.1) = .ok t) (Ensures.lift fun _ h => h)
      fun t ht => ?_
    refine Ensures.bind (ih (fun x hx => hN x (by simp [hx])) (fun x hx => hns x (by simp [hx])) _
      hq.2.1 (by rw [hq.2.2.1]; omega) hq.2.2.2) fun l hl => Ensures.pure ?_
    refine ⟨by simp [hl.1], by
      intro x hx
      rcases List.mem_cons.1 hx with rfl | hx
      · apply hQ
        obtain ⟨cs, h1, h2⟩ := joinEmpty_ok ht
        obtain ⟨c, cs, rfl⟩ : ∃ c cs', cs = c :: cs' := by
          cases cs with
          | nil => cases h1
          | cons c cs => exact ⟨c, cs, rfl⟩
        have hp1 : p.1 = .str c := (List.cons.inj h1).1
        rw [hp1] at ht hp
        obtain ⟨ws, ss, a1, a2, a3, a4⟩ := hq.1.text hp.1 ht
        exact ⟨v, ws, ss, hN v (by simp), by rw [hv, a1]; congr 1; omega, a2, a3, a4⟩
      · exact hl.2 x hx⟩

theorem emitMany_ensures {numwords sep : Child σ} {N S Q : Val → Prop} (hn : Contract I numwords N)
    (hw : WordContract I word P) (hs : Contract I sep S) (hN : ∀ v, N v → v.AtLeast 1)
    (hQ : ∀ t, Rendered N P S t → Q (.str t)) (n : Int) (h0 : 0 ≤ n) :
    Ensures I (emitMany numwords word sep n) fun l => (l.length : Int) = n ∧ ∀ x ∈ l, Q x := by
  unfold emitMany
  refine Ensures.bind (hn _ (argOK_int h0)) fun ls hls => ?_
  obtain ⟨l, rfl, hlen, hall⟩ := answers_int hls
  refine Ensures.bind (Q := fun x => x = l) (Ensures.lift fun a ha => by cases ha; rfl) fun x hx => ?_
  subst hx
  refine Ensures.bind (Q := fun p => sumInts x = .ok p) (Ensures.lift fun a ha => ha) fun p hp => ?_
  obtain ⟨ns, total⟩ := p
  obtain ⟨hf, rfl⟩ := sumInts_ok hp
  obtain ⟨h1, h2, hlen'⟩ := sum_atLeast hN hf hall
  dsimp only
  refine Ensures.bind (getWordsIterator_ensures hw (by omega)) fun wi hwi => ?_
  refine Ensures.bind (hs _ (argOK_int (by omega))) fun ss hss => ?_
  obtain ⟨sl, rfl, hsl, hsS⟩ := answers_int hss
  refine Ensures.bind (Q := fun y => y = sl) (Ensures.lift fun a ha => by cases ha; rfl) fun seps hy => ?_
  subst hy
  refine (renderAll_ensures hw hQ hf hall h1 seps hwi (by omega) hsS).mono fun l hl => ?_
  exact ⟨by rw [hl.1, hlen', hlen], hl.2⟩

theorem contract {numwords sep : Child σ} {N S Q : Val → Prop} (hn : Contract I numwords N)
    (hw : WordContract I word P) (hs : Contract I sep S) (hN : ∀ v, N v → v.AtLeast 1)
    (hQ : ∀ t, Rendered N P S t → Q (.str t)) : Contract I (Text.call numwords word sep) Q := by
  refine emitterCallOr_contract (Word.emitBad_contract hn) ?_ fun n h0 _ => emitMany_ensures hn hw hs hN hQ n h0
  unfold Text.emit
  refine Ensures.bind (emitMany_ensures hn hw hs hN hQ 1 (by omega)) fun l hl => ?_
  refine Ensures.lift fun v hv => ?_
  obtain ⟨x, rfl⟩ := List.length_eq_one_iff.1 (show l.length = 1 by omega)
  cases hv
  exact hl.2 _ (by simp)

end Text

/-! ### Wrappers -/

theorem Callback.call_ensures {L : Attr σ G} (hL : ∀ s g, I s → I (L.set g s)) (cb : Callback G)
    {args : List Val} {kwargs : Dict Val} {P : Val → Prop} (h : cb.Yields args kwargs P) :
    Ensures I (cb.call L args kwargs) P := by
  unfold Callback.call
  refine Ensures.ite (fun _ => Ensures.raise _) fun _ => ?_
  refine Ensures.ite (fun _ => ?_) fun _ => ?_
  · intro s hs
    unfold EnsuresAt Attr.run
    refine ⟨hL _ _ hs, fun v hv => ?_⟩
    unfold Callback.invokeRng at hv
    by_cases h1 : "rng" ∈ kwargs.keys
    · rw [if_pos h1] at hv; cases hv
    · rw [if_neg h1] at hv
      by_cases h2 : cb.accepts args.length (kwargs.keys ++ ["rng"]) = true
      · rw [if_pos h2] at hv; exact h.2 _ v hv
      · rw [if_neg h2] at hv; cases hv
  · refine Ensures.lift fun v hv => ?_
    unfold Callback.invoke at hv
    by_cases h2 : cb.accepts args.length kwargs.keys = true
    · rw [if_pos h2] at hv; exact h.1 v hv
    · rw [if_neg h2] at hv; cases hv

theorem WrapOne.contract {L : Attr σ G} (hL : ∀ s g, I s → I (L.set g s)) {src : Child σ}
    {cb : Callback G} {S P : Val → Prop} (hs : Contract I src S)
    (hcb : ∀ v, S v → cb.Yields [v] [] P) : Contract I (WrapOne.call L src cb) P := by
  refine emitterCallOr_contract (Word.emitBad_contract hs) ?_ fun n h0 _ => ?_
  · exact Ensures.bind (hs none trivial) fun v hv => cb.call_ensures hL (hcb v hv)
  · refine Ensures.bind (hs _ (argOK_int h0)) fun vs hvs => ?_
    obtain ⟨l, rfl, hlen, hall⟩ := answers_int hvs
    refine Ensures.bind (Q := fun x => x = l) (Ensures.lift fun a ha => by cases ha; rfl) fun x hx => ?_
    subst hx
    refine (mapPyM_ensures fun v hv => cb.call_ensures hL (hcb v (hall v hv))).mono fun bs hbs => ?_
    exact ⟨by rw [hbs.1, hlen], hbs.2⟩

theorem WrapMany.contract {L : Attr σ G} (hL : ∀ s g, I s → I (L.set g s)) {srcs : Dict (Child σ)}
    {cb : Callback G} {T : List (String × (Val → Prop))} {P : Val → Prop}
    (hs : List.Forall₂ (fun kc kp => kp.1 = kc.1 ∧ Contract I kc.2 kp.2) srcs T)
    (hcb : ∀ d : Dict Val, List.Forall₂ (fun kp kv => kv.1 = kp.1 ∧ kp.2 kv.2) T d →
      cb.Yields [] d P) : Contract I (WrapMany.call L srcs cb) P := by
  have hdraw : ∀ arg, ArgOK arg → Ensures I (WrapMany.draw srcs arg) fun d =>
      List.Forall₂ (fun kp kv => kv.1 = kp.1 ∧ Answers kp.2 arg kv.2) T d := by
    intro arg ha
    clear hcb
    unfold WrapMany.draw
    induction hs with
    | nil => exact Ensures.pure .nil
    | @cons a b _ _ h1 _ ih =>
      refine Ensures.bind (Q := fun kv => kv.1 = b.1 ∧ Answers b.2 arg kv.2) (Ensures.bind (h1.2 arg ha)
        fun v hv => Ensures.pure ⟨h1.1.symm, hv⟩) fun b hb => ?_
      exact Ensures.bind ih fun bs hbs => Ensures.pure (.cons hb hbs)
  refine emitterCallOr_contract (fun v _ h => Ensures.bind (hdraw _ (argOK_bad h)) fun _ _ => Ensures.raise _) ?_
    fun n h0 _ => ?_
  · exact Ensures.bind (hdraw none trivial) fun d hd => cb.call_ensures hL (hcb d hd)
  · refine Ensures.bind (hdraw _ (argOK_int h0)) fun d hd => ?_
    refine (mapPyM_ensures (Q := P) fun i hi => ?_).mono fun bs hbs => ?_
    · refine Ensures.bind (Q := fun row => WrapMany.row d (i : Int) = .ok row)
        (Ensures.lift fun a ha => ha) fun row hrow => cb.call_ensures hL (hcb row ?_)
      unfold WrapMany.row at hrow
      rw [mapPy_ok_iff] at hrow
      clear hdraw hs hcb
      induction hd generalizing row with
      | nil => cases hrow; exact .nil
      | cons h1 _ ih =>
        cases hrow with
        | cons h2 h3 =>
          obtain ⟨x, h4, h5⟩ := Py.bind_eq_ok h2
          cases h5
          refine .cons ⟨h1.1, ?_⟩ (ih _ h3)
          obtain ⟨l, e, hlen, hall⟩ := answers_int h1.2
          rw [e] at h4
          have hi' : i < l.length := by
            rw [List.mem_range] at hi
            omega
          unfold Val.getItem at h4
          dsimp only at h4
          rw [Choice.pyListGet_of_lt _ _ hi'] at h4
          cases h4
          exact hall _ (List.getElem_mem _)
    · exact ⟨by rw [hbs.1, List.length_range]; omega, hbs.2⟩

/-! ### Emitters based on fields -/

theorem CopyFields.contract (str : Val → List Char) (g : SourceGroup σ) (sep : Option (List Char))
    {P : Val → Prop} (hP : ∀ v, P v) : Contract I (CopyFields.call str g sep) P := by
  have h1 : Ensures I (CopyFields.emit str g sep) P := by
    unfold CopyFields.emit
    refine Ensures.get_bind fun s hs => ?_
    have : ∀ m : PyM σ Val, Ensures I m P → EnsuresAt I m P s := fun m hm => hm s hs
    refine this _ ?_
    refine Ensures.ite (fun _ => ?_) fun _ => ?_
    · split
      · exact Ensures.pure (hP _)
      · exact Ensures.raise _
    · dsimp only
      split
      · exact Ensures.ite (fun _ => Ensures.pure (hP _)) fun _ => Ensures.pure (hP _)
      · exact Ensures.pure (hP _)
  refine emitterCallOr_contract (fun _ _ _ => Ensures.bind h1 fun _ _ => Ensures.raise _) h1 fun n h0 _ => ?_
  refine Ensures.bind h1 fun v hv => Ensures.pure ⟨by simp [h0], fun x hx => ?_⟩
  exact hP x

theorem BasedOnFields.contract {L : Attr σ G} (hL : ∀ s g, I s → I (L.set g s)) (g : SourceGroup σ)
    {cb : Callback G} {P : Val → Prop} (hcb : ∀ args kwargs, cb.Yields args kwargs P) :
    Contract I (BasedOnFields.call L g cb) P := by
  have h1 : Ensures I (BasedOnFields.emit L g cb) P := by
    unfold BasedOnFields.emit
    refine Ensures.get_bind fun s hs => ?_
    split
    · exact cb.call_ensures hL (hcb _ _) s hs
    · exact cb.call_ensures hL (hcb _ _) s hs
  refine emitterCallOr_contract (fun _ _ _ => Ensures.bind h1 fun _ _ => Ensures.raise _) h1 fun n h0 _ => ?_
  refine Ensures.bind h1 fun v hv => Ensures.pure ⟨by simp [h0], fun x hx => ?_⟩
  rw [List.mem_replicate] at hx
  rw [hx.2]
  exact hv

/-- A field returns something and preserves `I`. -/
theorem Field.call_ensures {cache : Attr σ Val} (hc : ∀ s v, I s → I (cache.set v s))
    {emitter rep gate : Child σ} {E N T P : Val → Prop} (he : Contract I emitter E)
    (hr : Contract I rep N) (hg : Contract I gate T) (hN : ∀ v, N v → v.AtLeast 0)
    (hP : ∀ v, P v) : Ensures I (Field.call cache emitter rep gate) P := by
  unfold Field.call
  have hset : ∀ v, Ensures I (PyM.modify (cache.set v)) fun _ => True :=
    fun v s hs => ⟨hc s v hs, fun _ _ => trivial⟩
  refine Ensures.bind (hg none trivial) fun t _ => ?_
  refine Ensures.ite (fun _ => ?_) fun _ => ?_
  · refine Ensures.bind (hr none trivial) fun n hn => ?_
    refine Ensures.bind (he (some n) (hN n hn)) fun v _ => ?_
    exact Ensures.bind (hset v) fun _ _ => Ensures.pure (hP v)
  · exact Ensures.bind (hset _) fun _ _ => Ensures.pure (hP _)

end Fauxdoc
