import Verif.Proofs.Interleave
import Verif.Props.Seeds3
/-
C107: programs that share no objects do not influence each other.
-/
set_option linter.unusedSectionVars false
namespace Fauxdoc
open PyM World
variable {K : Type} [Field K] [LinearOrder K] [FloorRing K] [IsStrictOrderedRing K] {R : Rng K}

/-- **C107.** Let `P` be a set of existing objects that contains everything its objects depend on, with
seeds, and that no other object has an emitter in.  A program that uses objects in `P` gets the same
values, documents and exceptions, and leaves the objects in `P` in the same state, whatever steps that
do not touch `P` come before, between and after its own. -/
theorem C107_woven (P : Ref → Prop) (str : Val → List Char) (w v : World R)
    (hP : SelfContained P w) (hA : Secluded P w) (acts : List Act) (outs : List (Except Err Outcome))
    (h : Woven P str w acts outs v) :
    outs = (runActs str acts w).1 ∧ ∀ x, P x → v.obj x = (runActs str acts w).2.obj x := by
  obtain ⟨h1, h2⟩ := woven_agree (nodes := fun x => (w.obj x).node) hP.children hP.sources h w hA
    (agree_self hP)
  exact ⟨h1, h2.same⟩

/-- **C107 (any two interleavings).** -/
theorem C107_interleavings (P : Ref → Prop) (str : Val → List Char) (w v v' : World R)
    (hP : SelfContained P w) (hA : Secluded P w) (acts : List Act)
    (outs outs' : List (Except Err Outcome)) (h : Woven P str w acts outs v)
    (h' : Woven P str w acts outs' v') :
    outs = outs' ∧ ∀ x, P x → v.obj x = v'.obj x := by
  obtain ⟨h1, h2⟩ := C107_woven P str w v hP hA acts outs h
  obtain ⟨h3, h4⟩ := C107_woven P str w v' hP hA acts outs' h'
  exact ⟨h1.trans h3.symm, fun x hx => (h2 x hx).trans (h4 x hx).symm⟩

/-- A step that does not touch `P` leaves the objects in `P` alone, whatever their seeds. -/
theorem C107_untouched (P : Ref → Prop) (str : Val → List Char) (w v : World R) (hA : Secluded P w)
    (h : Foreign P str w v) : Secluded P v ∧ ∀ x, P x → v.obj x = w.obj x :=
  ⟨(h.away (.refl hA)).apart, (h.away (.refl hA)).same⟩

/-- A use of objects outside `P` is a step that does not touch `P`, but for what it returns. -/
theorem Act.foreign {P : Ref → Prop} (str : Val → List Char) (w : World R) (a : Act)
    (ha : a.On fun x => ¬ P x) : Foreign P str w (a.run str w).2 := by
  have key : ∀ {α : Type} (m : PyM (World R) α) (f : α → Outcome),
      ((m >>= fun x => pure (f x) : PyM (World R) Outcome) w).2 = (m w).2 := by
    intro α m f
    rw [bind_apply]
    rcases m w with ⟨e | x, u⟩ <;> rfl
  cases a with
  | call fuel r arg => exact (key _ _).symm ▸ .call fuel arg ha
  | reset fuel r => exact (key _ fun _ => .done).symm ▸ .reset fuel ha
  | seed fuel r z => exact (key _ fun _ => .done).symm ▸ .seed fuel (some z) ha
  | document fuel fields => exact (key _ _).symm ▸ .document fuel ha
  | resetFields fuel fields => exact (key _ fun _ => .done).symm ▸ .resetFields fuel ha
  | seedFields fuel z fields => exact (key _ fun _ => .done).symm ▸ .seedFields fuel (some z) ha

theorem Act.On.mono {P Q : Ref → Prop} (h : ∀ x, P x → Q x) {a : Act} (ha : a.On P) : a.On Q := by
  cases a with
  | call _ _ _ | reset _ _ | seed _ _ _ => exact h _ ha
  | document _ _ | resetFields _ _ | seedFields _ _ _ => exact fun kf hkf => h _ (ha kf hkf)

theorem sideOf_cons {α : Type} (b c : Bool) (x : α) (l : List (Bool × α)) :
    sideOf b ((c, x) :: l) = if c = b then x :: sideOf b l else sideOf b l := by
  unfold sideOf
  by_cases h : c = b <;> simp [h]

theorem runTwo_woven {P : Ref → Prop} (b : Bool) (str : Val → List Char) (l : List (Bool × Act))
    (h : ∀ a ∈ l, if a.1 = b then a.2.On P else a.2.On fun x => ¬ P x) (w : World R) :
    Woven P str w (sideOf b l) (sideOf b (runTwo str l w).1) (runTwo str l w).2 := by
  induction l generalizing w with
  | nil => exact .nil w
  | cons a l ih =>
    obtain ⟨c, a⟩ := a
    have ha := h (c, a) (by simp)
    have := ih (fun a ha => h a (List.mem_cons_of_mem _ ha)) (a.run str w).2
    change Woven P str w (sideOf b ((c, a) :: l))
      (sideOf b ((c, (a.run str w).1) :: (runTwo str l (a.run str w).2).1)) _
    rw [sideOf_cons, sideOf_cons]
    dsimp only at ha
    by_cases hc : c = b
    · rw [if_pos hc] at ha ⊢
      rw [if_pos hc]
      exact .own ha this
    · rw [if_neg hc] at ha ⊢
      rw [if_neg hc]
      exact .other (a.foreign str w ha) this

/-- **C107 (two programs).** Two programs use disjoint sets of objects, each of which contains
everything its objects depend on.  However their uses are interleaved, each gets what it would get if
it were alone, and leaves its objects as if it were alone. -/
theorem C107_two (P Q : Ref → Prop) (str : Val → List Char) (w : World R)
    (hP : SelfContained P w) (hQ : SelfContained Q w) (hPA : Secluded P w) (hQA : Secluded Q w)
    (hPQ : ∀ x, P x → ¬ Q x) (l : List (Bool × Act))
    (hl : ∀ a ∈ l, if a.1 = true then a.2.On P else a.2.On Q) :
    sideOf true (runTwo str l w).1 = (runActs str (sideOf true l) w).1 ∧
    sideOf false (runTwo str l w).1 = (runActs str (sideOf false l) w).1 ∧
    (∀ x, P x → (runTwo str l w).2.obj x = (runActs str (sideOf true l) w).2.obj x) ∧
    ∀ x, Q x → (runTwo str l w).2.obj x = (runActs str (sideOf false l) w).2.obj x := by
  have h1 := C107_woven P str w _ hP hPA _ _ (runTwo_woven true str l (fun a ha => by
    have := hl a ha
    by_cases hb : a.1 = true
    · rw [if_pos hb] at this ⊢; exact this
    · rw [if_neg hb] at this ⊢; exact this.mono fun x hq hp => hPQ x hp hq) w)
  have h2 := C107_woven Q str w _ hQ hQA _ _ (runTwo_woven false str l (fun a ha => by
    have := hl a ha
    by_cases hb : a.1 = true
    · rw [if_pos hb] at this
      rw [if_neg (by rw [hb]; simp)]
      exact this.mono hPQ
    · rw [if_neg hb] at this
      rw [if_pos (by simpa using hb)]
      exact this) w)
  exact ⟨h1.1, h2.1, h1.2, h2.2⟩

/-- Using a schema again and again produces its sequence of documents. -/
theorem runActs_documents (str : Val → List Char) (fuel : Nat) (fields : Dict Ref) (k : Nat)
    (w : World R) : (runActs str (List.replicate k (.document fuel fields)) w).1 =
      (World.documents str fuel fields k w).map fun d => d.map Outcome.document := by
  induction k generalizing w with
  | zero => rfl
  | succ k ih =>
    rw [List.replicate_succ]
    unfold runActs World.documents
    have : (Act.document fuel fields).run str w =
        ((World.document str fuel fields w).1.map Outcome.document,
          (World.document str fuel fields w).2) := by
      unfold Act.run
      dsimp only
      rw [bind_apply]
      rcases World.document str fuel fields w with ⟨e | x, u⟩ <;> rfl
    dsimp only
    rw [this, ih]
    rfl

/-- **C107 (documents).** The documents of a schema whose fields are in `P`, whatever happens
elsewhere between them. -/
theorem C107_documents (P : Ref → Prop) (str : Val → List Char) (w v : World R)
    (hP : SelfContained P w) (hA : Secluded P w) (fuel : Nat) (fields : Dict Ref) (k : Nat)
    (outs : List (Except Err Outcome))
    (h : Woven P str w (List.replicate k (.document fuel fields)) outs v) :
    outs = (World.documents str fuel fields k w).map fun d => d.map Outcome.document := by
  rw [← runActs_documents]
  exact (C107_woven P str w v hP hA _ outs h).1

/-! ### Sharing -/

/-- Two fields with the same emitter: the fields are objects 3 and 6. -/
def sharingWorld : World demoRng :=
  ((do
    let e ← World.newSequential .list [.int 1, .int 2] false
    let _ ← World.newField 5 "a" e none none false (some 4)
    let _ ← World.newField 5 "b" e none none false (some 4)) emptyWorld).2

/-- **C107 (violated with a shared emitter).** -/
theorem C107_shared_violated :
    sideOf true (runTwo demoStr [(false, .call 5 6 none), (true, .call 5 3 none)] sharingWorld).1 ≠
      sideOf true (runTwo demoStr [(true, .call 5 3 none), (false, .call 5 6 none)] sharingWorld).1 := by
  decide +kernel

/-- **C107 (violated by building).** Building a `BasedOnFields` calls its source field, so that the
next value of that field is another one. -/
theorem C107_based_on_violated :
    (World.call demoStr 5 3 none (World.newBasedOnFields demoStr 5 [3] true
        { sig := none, run := fun _ _ => .ok .none, runRng := fun _ _ => pure .none } none sharingWorld).2).1 ≠
      (World.call demoStr 5 3 none sharingWorld).1 := by
  decide +kernel

/-! ### Examples -/

/-- A schema: the objects 0 to 3. -/
def tagsWorld : World demoRng :=
  (World.newField 5 "tags" 0 none none false (some 4) (World.newChoice .list
    [.str ['x'], .str ['y'], .str ['z']] none false true none none emptyWorld).2).2

/-- Two schemas: the objects 0 to 3 and 4 to 7. -/
def twoWorld : World demoRng :=
  (World.newField 5 "n" 4 none none false (some 5)
    (World.newSequential .list [.int 1, .int 2] false tagsWorld).2).2

theorem twoWorld_self : SelfContained (· ∈ [0, 1, 2, 3]) twoWorld ∧
    SelfContained (· ∈ [4, 5, 6, 7]) twoWorld := by
  refine ⟨⟨?_, ?_, ?_⟩, ⟨?_, ?_, ?_⟩⟩ <;> decide +kernel

theorem beyond_grown {a : Attrs R} {w v : World R} (hg : Grown a w v)
    (h : ∀ x, w.next ≤ x → (w.obj x).node = none) : ∀ x, v.next ≤ x → (v.obj x).node = none := by
  intro x hx
  rw [hg.next] at hx
  rw [node_of_base (hg.base x (Nat.lt_of_succ_le hx).ne')]
  exact h x (Nat.le_of_succ_le hx)

theorem beyond_field (fuel : Nat) (name : String) (e : Ref) (hide : Bool) (s : Option Int)
    (w : World R) (h : ∀ x, w.next ≤ x → (w.obj x).node = none) :
    ∀ x, (World.newField fuel name e none none hide s w).2.next ≤ x →
      ((World.newField fuel name e none none hide s w).2.obj x).node = none :=
  beyond_grown (newField_grown fuel name e w.next (w.next + 1) hide s
      (World.newStatic (.bool true) (World.newStatic .none w).2).2)
    (beyond_grown (.alloc _ _) (beyond_grown (.alloc _ _) h))

theorem twoWorld_beyond (x : Ref) (hx : 8 ≤ x) : (twoWorld.obj x).node = none := by
  have h1 : ∀ x, (World.newChoice (R := demoRng) .list [.str ['x'], .str ['y'], .str ['z']] none false
      true none none emptyWorld).2.next ≤ x → ((World.newChoice (R := demoRng) .list
      [.str ['x'], .str ['y'], .str ['z']] none false true none none emptyWorld).2.obj x).node = none := by
    rcases step_cases (str := demoStr) (.newChoice (w := emptyWorld) .list
      [.str ['x'], .str ['y'], .str ['z']] none false true none none) with h | ⟨a, h, _⟩
    · intro x _; rw [node_of_base (h.base x)]; rfl
    · exact beyond_grown h fun _ _ => rfl
  have h2 := beyond_field 5 "tags" 0 false (some 4) _ h1
  have h3 : ∀ x, (World.newSequential .list [.int 1, .int 2] false tagsWorld).2.next ≤ x →
      ((World.newSequential .list [.int 1, .int 2] false tagsWorld).2.obj x).node = none := by
    rcases step_cases (str := demoStr) (.newSequential (w := tagsWorld) .list [.int 1, .int 2] false)
      with h | ⟨a, h, _⟩
    · intro x hx; rw [node_of_base (h.base x)]; exact h2 x (h.next ▸ hx)
    · exact beyond_grown h h2
  have h4 := beyond_field 5 "n" 4 false (some 5) _ h3
  have hn : twoWorld.next = 8 := by decide +kernel
  exact h4 x (hn ▸ hx)

theorem twoWorld_apart : Secluded (· ∈ [0, 1, 2, 3]) twoWorld ∧ Secluded (· ∈ [4, 5, 6, 7]) twoWorld := by
  have h1 : ∀ x ∈ List.range 8, x ∉ [0, 1, 2, 3] → ∀ c ∈ (twoWorld.obj x).children,
      c ∉ [0, 1, 2, 3] := by decide +kernel
  have h2 : ∀ x ∈ List.range 8, x ∉ [4, 5, 6, 7] → ∀ c ∈ (twoWorld.obj x).children,
      c ∉ [4, 5, 6, 7] := by decide +kernel
  have hb : ∀ x, x ∉ List.range 8 → (twoWorld.obj x).children = [] := by
    intro x hx
    unfold Attrs.children
    rw [twoWorld_beyond x (by simpa using hx)]
    rfl
  refine ⟨⟨by decide +kernel, fun x hx c hc => ?_⟩, ⟨by decide +kernel, fun x hx c hc => ?_⟩⟩ <;>
  · by_cases hr : x ∈ List.range 8
    · first | exact h1 x hr hx c hc | exact h2 x hr hx c hc
    · rw [hb x hr] at hc; cases hc

/-- The uses of one program: documents of `tags`, a reset, and another document. -/
def tagsActs : List Act :=
  [.document 5 [("tags", 3)], .document 5 [("tags", 3)], .reset 5 3, .document 5 [("tags", 3)]]

/-- Two programs, interleaved. -/
def bothActs : List (Bool × Act) :=
  [(false, .call 5 7 none), (true, .document 5 [("tags", 3)]), (false, .seed 5 7 9),
    (true, .document 5 [("tags", 3)]), (true, .reset 5 3), (false, .call 5 7 none),
    (true, .document 5 [("tags", 3)]), (false, .call 5 7 none)]

example : sideOf true (runTwo demoStr bothActs twoWorld).1 = (runActs demoStr tagsActs twoWorld).1 :=
  (C107_two (· ∈ [0, 1, 2, 3]) (· ∈ [4, 5, 6, 7]) demoStr twoWorld twoWorld_self.1 twoWorld_self.2
    twoWorld_apart.1 twoWorld_apart.2 (by decide) bothActs (by
      intro a ha
      simp only [bothActs, List.mem_cons, List.not_mem_nil, or_false] at ha
      rcases ha with rfl | rfl | rfl | rfl | rfl | rfl | rfl | rfl <;> simp [Act.On])).1
/-- The outcomes: two different documents, and the first one again after the reset. -/
example : (runActs demoStr tagsActs twoWorld).1 =
    [.ok (.document [("tags", .str ['y'])]), .ok (.document [("tags", .str ['z'])]), .ok .done,
     .ok (.document [("tags", .str ['y'])])] := by decide +kernel
/-- The other program counts, and starts again after 2. -/
example : sideOf false (runTwo demoStr bothActs twoWorld).1 =
    [.ok (.value (.int 1)), .ok .done, .ok (.value (.int 2)), .ok (.value (.int 1))] := by decide +kernel
/-- Steps of other programs may build objects, such as copies of the field `tags`, and seed with
`None`. -/
example : ∃ outs v, Woven (· ∈ [0, 1, 2, 3]) demoStr twoWorld [.document 5 [("tags", 3)]] outs v ∧
    outs = [.ok (.document [("tags", .str ['y'])])] ∧ v.next = 12 :=
  ⟨_, _, .other (.newCopyFields [3] true none) (.other
      (.newField 5 "copy" false none (by simp : (8 : Ref) ∉ [0, 1, 2, 3]) (rep := none) (gate := none)
        (by simp) (by simp))
      (.other (.seed 5 (r := 11) none (by simp)) (.own (a := .document 5 [("tags", 3)])
        (by simp [Act.On]) (.other (.call 5 (r := 11) none (by simp)) (.nil _))))),
    by decide +kernel, by decide +kernel⟩

end Fauxdoc
