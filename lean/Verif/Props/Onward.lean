import Verif.Proofs.Onward
import Verif.Proofs.Recycle
import Verif.Props.Heap
import Verif.Props.Gate
import Verif.Spec.WorldDemo
/-
C113: generating never starts over.
-/
set_option linter.unusedSectionVars false
namespace Fauxdoc
open PyM World
variable {K : Type} [Field K] [LinearOrder K] [FloorRing K] {R : Rng K}

/-- **C113 (calls).** Whatever is called with whatever argument, and whether it succeeds or not: the
generator of every `Choice` is left in a state that draws led to, unless a `Text` at or below the
called object uses up and restarts its list of words. -/
theorem C113_call_partial (str : Val → List Char) (fuel : Nat) (r : Ref) (arg : Option Val)
    {w : World R} (h : NoRecycling w r) : Onward w (World.call str fuel r arg w).2 :=
  (call_drawn str (P := Below w r) (fun _ hx c hc => hx.trans (.step hc (.self c)))
    (fun q n wd s k hq => h q n wd s k hq) fuel r (.self r) arg w
    ⟨Frame.refl _ _, fun _ _ _ => .here⟩).2

/-- **C113 (documents).** The same for generating a document. -/
theorem C113_document_partial (str : Val → List Char) (fuel : Nat) (fields : Dict Ref) {w : World R}
    (h : ∀ kr ∈ fields, NoRecycling w kr.2) : Onward w (document str fuel fields w).2 := by
  let P : Ref → Prop := fun x => ∃ kr ∈ fields, Below w kr.2 x
  have hcall : ∀ kr ∈ fields, Keeps (Drawn P w) (World.call str fuel kr.2 none) := fun kr hkr =>
    call_drawn str (P := P) (fun _ ⟨kr, hkr, hx⟩ c hc => ⟨kr, hkr, hx.trans (.step hc (.self c))⟩)
      (fun q n wd s k ⟨kr, hkr, hx⟩ => h kr hkr q n wd s k hx) fuel kr.2 ⟨kr, hkr, .self _⟩ none
  have hk : Keeps (Drawn P w) (document str fuel fields) := by
    intro v hv
    unfold World.document Schema.call
    rw [run_get_bind]
    have hl : ∀ (fs : Dict Ref) (doc : Dict Val), (∀ kf ∈ fs, kf ∈ fields) → Keeps (Drawn P w)
        (Schema.loop (fun r => (v.obj r).hide) (fun r => World.call str fuel r none) doc fs) := by
      intro fs
      induction fs with
      | nil => exact fun doc _ => Keeps.pure _ _
      | cons kf fs ihf =>
        intro doc hfs
        have ih := fun doc => ihf doc fun kf hkf => hfs kf (List.mem_cons_of_mem _ hkf)
        unfold Schema.loop
        refine Keeps.bind (hcall kf (hfs kf (by simp))) fun v => ?_
        split
        · exact ih _
        · exact ih _
    exact hl fields [] (fun _ hkf => hkf) v hv
  exact (hk w ⟨Frame.refl _ _, fun _ _ _ => .here⟩).2

section
variable [IsStrictOrderedRing K]

/-- `static(n)`. -/
theorem World.call_static_many (str : Val → List Char) (fuel : Nat) {r : Ref} {w : World R}
    (hn : (w.obj r).node = some .static) (n : Nat) : call str (fuel + 1) r (some (.int n)) w =
      (.ok (.list (List.replicate n (w.obj r).static.value)), w) := by
  unfold call
  rw [run_get_bind, hn]
  change (if (n : Int) = 1 then (do return Val.list [← (staticAttr r).run Static.emit])
    else (do return Val.list (← (staticAttr r).run (Static.emitMany n))) : PyM _ Val) w = _
  have hset : (staticAttr r).set (w.obj r).static w = w := (staticAttr r).set_get w
  by_cases h1 : (n : Int) = 1
  · obtain rfl : n = 1 := by omega
    rw [if_pos h1, bind_apply]
    unfold Attr.run
    change (Except.ok (Val.list [(w.obj r).static.value]), (staticAttr r).set (w.obj r).static w) = _
    rw [hset]; rfl
  · rw [if_neg h1, bind_apply]
    unfold Attr.run
    change (Except.ok (Val.list (List.replicate (n : Int).toNat (w.obj r).static.value)),
      (staticAttr r).set (w.obj r).static w) = _
    rw [hset, Int.toNat_natCast]

/-- A `Static` keeps no state. -/
theorem World.call_static_state (str : Val → List Char) (fuel : Nat) {r : Ref} {w : World R}
    (hn : (w.obj r).node = some .static) (arg : Option Val) :
    (call str (fuel + 1) r arg w).2 = w := by
  unfold call
  rw [run_get_bind, hn]
  have hk : ∀ {β : Type} (m : PyM (StaticSt Val) β), (∀ s, (m s).2 = s) →
      Keeps (· = w) ((staticAttr r).run m) := by
    rintro β m hm v rfl
    rw [Attr.run_state _ m v |>.2, hm]
    exact (staticAttr r).set_get v
  exact emitterCall_keeps (hk _ fun _ => rfl) (fun n => hk _ fun _ => rfl) arg w rfl

/-- The states of a store in which only the generator of the word list has changed. -/
def WordState (w : World R) (wd : Ref) (v : World R) : Prop :=
  ∃ g, v = w.withGen wd g

theorem recycling_words {w : World R} {r n wd s : Ref} {k : Nat} {seed : Int}
    (h : RecyclingText w r n wd s k seed) (str : Val → List Char) (fuel : Nat) :
    Text.Recycles (WordState w wd) (wordsOf str (fuel + 1) wd) (w.obj wd).choice.items.length
      (w.withGen wd (R.ofSeed seed)) := by
  obtain ⟨kind, hk⟩ := h.words
  have hwf := Choice.reach_wf h.reachable.choose_spec
  have hupd : ∀ (v : World R) c e, WordState w wd v → (∃ g, c = { (v.obj wd).choice with rng := g }) →
      e = v.entropy → ∃ g, c = { (w.obj wd).choice with rng := g } ∧
        ({ v.upd wd (fun a => { a with choice := c }) with entropy := e } : World R) = w.withGen wd g := by
    rintro v c e ⟨g, rfl⟩ ⟨g', rfl⟩ rfl
    rw [withGen_obj, if_pos rfl]
    refine ⟨g', rfl, ?_⟩
    unfold World.withGen World.upd
    dsimp only
    congr 1
    funext x
    by_cases hx : x = wd
    · simp only [if_pos hx]; rfl
    · simp only [if_neg hx]
  have hnode : ∀ v, WordState w wd v → (v.obj wd).node = some (.choice kind) ∧
      (v.obj wd).choice.roac = true ∧ (v.obj wd).choice.rngSeed = some seed ∧
      (v.obj wd).choice.items = (w.obj wd).choice.items ∧
      Choice.WF (w.obj wd).choice.items (v.obj wd).choice := by
    rintro v ⟨g, rfl⟩
    rw [withGen_obj, if_pos rfl]
    exact ⟨hk, h.roac, h.seeded, rfl, hwf.items_eq, hwf.ne, hwf.weights, hwf.roac, hwf.num⟩
  have hreset : ∀ v, WordState w wd v →
      World.reset (fuel + 1) wd v = (.ok (), w.withGen wd (R.ofSeed seed)) := by
    intro v hv
    obtain ⟨n1, n2, n3, n4, n5⟩ := hnode v hv
    unfold World.reset
    rw [run_get_bind, n1]
    change onChoice wd Choice.reset v = _
    unfold onChoice
    obtain ⟨g, en, hs, hr⟩ := Choice.reset_run ((v.obj wd).choice, v.entropy)
    obtain ⟨rfl, rfl⟩ := hs seed n3
    have hrep := n5.roac n2
    rw [hr, if_pos hrep]
    obtain ⟨g1, hg1, hg2⟩ := hupd v _ _ hv ⟨R.ofSeed seed, rfl⟩ rfl
    have : g1 = R.ofSeed seed := (congrArg ChoiceSt.rng hg1).symm
    subst this
    exact congrArg (Prod.mk _) hg2
  refine ⟨List.length_pos_iff.2 hwf.ne, ⟨_, rfl⟩, ?_, hreset, ?_⟩
  · intro m v x t hv hm hle e
    obtain ⟨n1, n2, n3, n4, n5⟩ := hnode v hv
    change World.call str (fuel + 1) wd (some (.int m)) v = _ at e
    unfold World.call at e
    rw [run_get_bind, n1] at e
    change onChoice wd (Choice.child (some (.int m))) v = _ at e
    unfold onChoice at e
    rw [choice_child_call] at e
    rcases hc : Choice.call (some (m : Int)) ((v.obj wd).choice, v.entropy) with ⟨_ | l, c, en⟩
    · rw [hc] at e; cases e
    · rw [hc] at e
      cases e
      have hd := distinct_of_wf (s := (_, _)) n5 n2 (some m) hle hc
      obtain ⟨_, hlen, g, hg⟩ := hd
      obtain ⟨g1, hg1, hg2⟩ := hupd v c en hv ⟨g, (congrArg Prod.fst hg)⟩ (congrArg Prod.snd hg)
      exact ⟨l, rfl, hlen, g1, hg2⟩
  · intro v hv
    obtain ⟨n1, n2, n3, n4, n5⟩ := hnode v hv
    change World.roacInfo wd v = _
    unfold World.roacInfo
    rw [run_get_bind, n1]
    change onChoice wd Choice.roacInfo v = _
    unfold onChoice
    have hro : Choice.roacInfo ((v.obj wd).choice, v.entropy) =
        (.ok (some ((w.obj wd).choice.items.length : Int)), ((v.obj wd).choice, v.entropy)) := by
      unfold Choice.roacInfo
      rw [Choice.self_bind, if_pos n2, bind_apply,
        Choice.numUniqueValues_repl _ (n5.roac n2)]
      have : pyLenSet (v.obj wd).choice.items = .ok (w.obj wd).choice.items.length := by
        unfold pyLenSet
        rw [n4, if_pos (allHashable_iff.2 fun x hx => ?_), h.distinct.dedup]
        obtain ⟨t, rfl⟩ := h.strings x hx
        rfl
      dsimp only
      rw [this]
      rfl
    rw [hro]
    dsimp only
    congr 1
    unfold World.upd
    obtain ⟨obj, next, ent⟩ := v
    dsimp only
    congr 1
    funext x
    split
    · next hx => rw [hx]
    · rfl

/-- **C113, violated.** Take a `Text` with a fixed number of words over a seeded list of words with
`replace_only_after_call`.  If the texts of one call need more words than the list has, then after a
call of it everything is as it was after the call before — so every later such call returns the
same texts as that one. -/
theorem C113_stuck_violated (str : Val → List Char) {w w1 w2 : World R} {r n wd s : Ref} {k : Nat}
    {seed : Int} (h : RecyclingText w r n wd s k seed) (number : Nat)
    (hmany : (w.obj wd).choice.items.length < number * k) (fuel : Nat) {v1 v2 : Val}
    (h1 : World.call str (fuel + 2) r (some (.int number)) w = (.ok v1, w1))
    (h2 : World.call str (fuel + 2) r (some (.int number)) w1 = (.ok v2, w2)) :
    w2 = w1 ∧ World.call str (fuel + 2) r (some (.int number)) w2 = (.ok v2, w2) := by
  have hst : ∀ {x t : World R} {v : Val}, Text.call (World.call str (fuel + 1) n)
      (wordsOf str (fuel + 1) wd) (World.call str (fuel + 1) s) (some (.int number)) x = (.ok v, t) →
      ∃ l, Text.emitMany (World.call str (fuel + 1) n) (wordsOf str (fuel + 1) wd)
        (World.call str (fuel + 1) s) number x = (.ok l, t) := by
    intro x t v hx
    change (if (number : Int) = 1 then (do return Val.list [← Text.emit _ _ _])
      else (do return Val.list (← Text.emitMany _ _ _ number)) : PyM _ Val) x = _ at hx
    by_cases hk : (number : Int) = 1
    · rw [if_pos hk] at hx
      obtain ⟨y, s1, e1, e2⟩ := bind_eq_ok hx
      cases e2
      unfold Text.emit at e1
      obtain ⟨l, s2, e3, e4⟩ := bind_eq_ok e1
      have : t = s2 := (congrArg Prod.snd e4).symm
      rw [hk, this]
      exact ⟨l, e3⟩
    · rw [if_neg hk] at hx
      obtain ⟨y, s1, e1, e2⟩ := bind_eq_ok hx
      cases e2
      exact ⟨y, e1⟩
  obtain ⟨kind, hk⟩ := h.words
  have hne : ∀ {x : Ref}, (w.obj x).node = some .static → x ≠ wd := by
    rintro x hx rfl
    rw [hk] at hx; cases hx
  have hobj : ∀ {x : Ref} {v : World R}, (w.obj x).node = some .static → WordState w wd v →
      v.obj x = w.obj x := by
    rintro x v hx ⟨g, rfl⟩
    rw [withGen_obj, if_neg (hne hx)]
  have hrec := recycling_words h str fuel
  have hw : WordState w wd w := ⟨(w.obj wd).choice.rng, by
    unfold World.withGen World.upd
    obtain ⟨obj, next, ent⟩ := w
    dsimp only
    congr 1
    funext x
    split
    · next hx => rw [hx]
    · rfl⟩
  have hnum : ∀ v, WordState w wd v → World.call str (fuel + 1) n (some (.int number)) v =
      (.ok (.list (List.replicate number (.int k))), v) := by
    intro v hv
    rw [call_static_many str fuel (by rw [hobj h.counts.1 hv]; exact h.counts.1), hobj h.counts.1 hv,
      h.counts.2]
  have hsep : ∀ a v, WordState w wd v → (World.call str (fuel + 1) s a v).2 = v := fun a v hv =>
    call_static_state str fuel (by rw [hobj h.seps hv]; exact h.seps) a
  have hcs : AreCounts (List.replicate number (.int k)) (List.replicate number k) := by
    unfold AreCounts
    rw [List.map_replicate, List.map_replicate]
    rfl
  have hsum : (w.obj wd).choice.items.length < (List.replicate number k).sum := by
    rw [List.sum_replicate, smul_eq_mul]; exact hmany
  have hr : (w.obj r).node = some (.text n wd s) := h.node
  rw [call_text str (fuel + 1) _ hr] at h1
  obtain ⟨l1, e1⟩ := hst h1
  obtain ⟨_, hw1⟩ := Text.emitMany_stage hrec hcs hsum hnum hsep hw hw e1 e1
  have hr1 : (w1.obj r).node = some (.text n wd s) := by
    obtain ⟨g, rfl⟩ := hw1
    rw [withGen_obj]
    split
    · next hx => rw [hx, hk] at hr; cases hr
    · exact hr
  have h2' := h2
  rw [call_text str (fuel + 1) _ hr1] at h2'
  obtain ⟨l2, e2⟩ := hst h2'
  obtain ⟨rfl, _⟩ := Text.emitMany_stage hrec hcs hsum hnum hsep hw hw1 e1 e2
  exact ⟨rfl, h2⟩
end

/-! ### A concrete text -/

/-- `Text(Static(2), Choice(['a', 'b', 'c'], [1, 1, 1], replace_only_after_call=True), rng_seed=1)`. -/
def loopSchema : PyM (World demoRng) Ref := do
  let n ← World.newStatic (.int 2)
  let wd ← World.newChoice .list [.str ['a'], .str ['b'], .str ['c']] (some [1, 1, 1]) true true none none
  World.newText 5 n wd none (some 1)

def loopWorld : World demoRng := (loopSchema emptyWorld).2

/-- The text after two single texts. -/
def loopUsed : World demoRng :=
  (World.call demoStr 5 3 (some (.int 1)) (World.call demoStr 5 3 (some (.int 1)) loopWorld).2).2

/-- Where the generator of a `Choice` of the examples stands. -/
def genAt (w : World demoRng) (r : Ref) : Nat := (w.obj r).choice.rng

theorem streamRng_onward {f : Nat → ℚ} {h0 h1} {g h : (streamRng f h0 h1).G}
    (e : (streamRng f h0 h1).Onward g h) : @LE.le Nat _ g h := by
  induction e with
  | here => exact le_rfl
  | random _ ih => exact Nat.le_succ_of_le ih
  | randbelow _ _ ih => exact Nat.le_succ_of_le ih
  | sample _ _ _ ih => exact Nat.le_succ_of_le ih

/-- **C113, violated.** A call can take the generator of a list of words back: it stood at 7 and
stands at 2 afterwards.  The second and the third call for two texts return the same texts. -/
theorem C113_violated :
    ¬ Onward loopUsed (World.call demoStr 5 3 (some (.int 2)) loopUsed).2 ∧
    (World.call demoStr 5 3 (some (.int 2))
      (World.call demoStr 5 3 (some (.int 2)) loopWorld).2).1 =
        .ok (.list [.str ['c', ' ', 'a'], .str ['b', ' ', 'c']]) ∧
    (World.call demoStr 5 3 (some (.int 2)) (World.call demoStr 5 3 (some (.int 2))
      (World.call demoStr 5 3 (some (.int 2)) loopWorld).2).2).1 =
        .ok (.list [.str ['c', ' ', 'a'], .str ['b', ' ', 'c']]) := by
  refine ⟨fun h => ?_, by decide +kernel, by decide +kernel⟩
  have h1 : genAt loopUsed 1 ≤ genAt (World.call demoStr 5 3 (some (.int 2)) loopUsed).2 1 :=
    streamRng_onward (h 1 .list (by decide +kernel))
  have h2 : genAt loopUsed 1 = 7 := by decide +kernel
  have h3 : genAt (World.call demoStr 5 3 (some (.int 2)) loopUsed).2 1 = 2 := by
    decide +kernel
  rw [h2, h3] at h1
  exact absurd h1 (by decide)

theorem ChoiceSt.eq_of {c d : ChoiceSt Val demoRng} (h : c.items = d.items ∧ c.weights = d.weights ∧
    c.cumWeights = d.cumWeights ∧ c.replace = d.replace ∧ c.roac = d.roac ∧ c.shuffled = d.shuffled ∧
    c.shuffledIndex = d.shuffledIndex ∧ c.numUniqueItems = d.numUniqueItems ∧
    c.rngSeed = d.rngSeed ∧ c.rng = d.rng) : c = d := by
  obtain ⟨_, _, _, _, _, _, _, _, _, _⟩ := c
  obtain ⟨_, _, _, _, _, _, _, _, _, _⟩ := d
  obtain ⟨rfl, rfl, rfl, rfl, rfl, rfl, rfl, rfl, rfl, rfl⟩ := h
  rfl

/-- `Choice(['a', 'b', 'c'], [1, 1, 1], replace_only_after_call=True, rng_seed=1)`. -/
def loopInit : Except Err (ChoiceSt Val demoRng) × Nat :=
  Choice.init [.str ['a'], .str ['b'], .str ['c']] (some [1, 1, 1]) true true (some 1) none 0

/-- The word list of `loopWorld`. -/
def loopWords : ChoiceSt Val demoRng :=
  match loopInit.1 with
  | .ok c => c
  | .error _ => blank.choice

theorem loopInit_eq : loopInit = (.ok loopWords, 0) := by
  have h1 : loopInit.1.isOk = true := by decide +kernel
  refine Prod.ext ?_ (by decide +kernel)
  unfold loopWords
  rcases h : loopInit.1 with e | c
  · rw [h] at h1; cases h1
  · rfl

theorem loopWorld_words : (loopWorld.obj 1).choice = loopWords := ChoiceSt.eq_of (by decide +kernel)

/-- The text of `C113_violated` is one of those of `C113_stuck_violated`: four words are needed for
two texts, and there are three. -/
theorem loop_recycling : RecyclingText loopWorld 3 0 1 2 2 1 where
  node := by decide +kernel
  counts := by decide +kernel
  seps := by decide +kernel
  words := ⟨.list, by decide +kernel⟩
  reachable := by
    rw [loopWorld_words, show loopWords.items = [.str ['a'], .str ['b'], .str ['c']] by decide +kernel]
    exact ⟨0, .init (some [1, 1, 1]) true true (some 1) none 0 _ _ loopInit_eq⟩
  roac := by decide +kernel
  seeded := by decide +kernel
  distinct := by decide +kernel
  strings := by
    rw [show (loopWorld.obj 1).choice.items = [.str ['a'], .str ['b'], .str ['c']] by decide +kernel]
    simp

/-- One text at a time needs only two words: its generator goes on, from 1 to 4 to 7, although the
list could be used up. -/
example : genAt loopUsed 1 = 7 ∧ genAt loopWorld 1 = 1 := by
  decide +kernel

/-- The schema of the other examples has no such text. -/
example (r : Ref) : NoRecycling demoWorld' r := by
  intro q n wd s k hq hn
  exfalso
  have : ∀ q < 20, ∀ n wd s, (demoWorld'.obj q).node ≠ some (.text n wd s) := by
    intro q hq n wd s h
    have h1 : ∀ q < 20, (match (demoWorld'.obj q).node with | some (.text ..) => false | _ => true) = true := by
      decide +kernel
    have h2 := h1 q hq
    rw [h] at h2
    cases h2
  by_cases h20 : q < 20
  · exact this q h20 n wd s hn
  · rw [show demoWorld'.obj q = World.blank from if_neg h20] at hn
    cases hn

end Fauxdoc
