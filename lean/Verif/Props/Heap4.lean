import Verif.Proofs.Program
import Verif.Props.Text2
import Verif.Props.Heap
/-
C61: `num_unique_values` bounds the number of different values, for whole trees of emitters.
-/
set_option linter.unusedSectionVars false
namespace Fauxdoc
open PyM World
variable {K : Type} [Field K] [LinearOrder K] [FloorRing K] [IsStrictOrderedRing K] {R : Rng K}
variable {str : Val → List Char}

theorem Src.all_has {α : Type} (s : Src α) : s.All fun x => s.Has x := by
  cases s with
  | fin l => exact fun x hx => hx
  | inf f => exact fun k => ⟨k, rfl⟩

theorem Src.All.mono {α : Type} {P Q : α → Prop} {s : Src α} (h : s.All P) (hPQ : ∀ x, P x → Q x) :
    s.All Q := by
  cases s with
  | fin l => exact fun x hx => hPQ x (h x hx)
  | inf f => exact fun k => hPQ _ (h k)

theorem Callback.Yields.all {G : Type} (cb : Callback G) (args : List Val) (kwargs : Dict Val)
    {P : Val → Prop} (h : ∀ v, P v) : cb.Yields args kwargs P :=
  ⟨fun v _ => h v, fun _ v _ => h v⟩

/-- The stores of such programs are among those of `Built`, with the possible values as declared
ones. -/
theorem Steps.built {w0 w : World R} (h : Steps str w0 w) (h0 : w0.Blank)
    {V : Ref → Val → Prop} (hV : ∀ r, r < w.next → ∀ v, V r v ↔ Emits w r v) : Built V str w := by
  induction h generalizing V with
  | start => exact .empty _ fun r => by rw [h0 r]; rfl
  | @step w u hs h' ih =>
    have gw : Grounded w := hs.grounded (.blank h0)
    have gu : Grounded u := h'.grounded gw
    have hold : ∀ r, r < w.next → ∀ v, V r v ↔ Emits w r v := fun r hr v =>
      (hV r (hr.trans_le h'.old.1) v).trans (Emits.iff (fun x hx => (h'.old.2 x hx).1) gw gu hr)
    have hb := ih hold
    have hnew : u.next = w.next + 1 → ∀ v, Emits u w.next v → V w.next v := fun e v hv =>
      (hV w.next (by rw [e]; exact Nat.lt_succ_self _) v).2 hv
    have hup : ∀ {r v}, r < w.next → V r v → Emits u r v := fun {r v} hr hv =>
      (hV r (hr.trans_le h'.old.1) v).1 hv
    have hopen : ∀ {a : Attrs R}, Grown a w u → a.isOpen = true → ∀ v, V w.next v :=
      fun hg ha v => hnew hg.next v (.any ((isOpen_of_base hg.new).trans ha) v)
    cases h' with
    | newStatic x =>
      have hg := Grown.alloc ({ blank with node := some .static, static := Static.init x } : Attrs R) w
      exact .newStatic hb x (hnew hg.next x (.item (items_of_base hg.new) (by simp [Static.init])))
    | newIterative f rac =>
      by_cases hc : ∃ st, Iterative.init f rac = .ok st
      · obtain ⟨st, hc⟩ := hc
        have hu : World.newIterative f rac w =
            World.alloc ({ blank with node := some .iterative, iter := st } : Attrs R) w := by
          unfold World.newIterative
          rw [bind_apply, lift_apply, hc]
        have hf : st.factory = f := by
          unfold Iterative.init Iterative.setFactory at hc
          rcases hk : Iterative.checkIterFactory f with e | _ <;> rw [hk] at hc <;> cases hc
          rfl
        refine .newIterative hb f rac (f.src.all_has.mono fun x hx => ?_)
        rw [hu] at hnew
        have hg := Grown.alloc ({ blank with node := some .iterative, iter := st } : Attrs R) w
        refine hnew hg.next x (.iter (node_of_base hg.new) ?_)
        rw [factory_of_base hg.new]
        change st.factory.src.Has x
        rw [hf]; exact hx
      · have hu : (World.newIterative f rac w).2 = w := by
          unfold World.newIterative
          rw [bind_apply, lift_apply]
          rcases hk : Iterative.init f rac with e | st
          · rfl
          · exact absurd ⟨st, hk⟩ hc
        rw [hu]; exact hb
    | newSequential kind items rac =>
      refine .newSequential hb kind items rac fun x hx => ?_
      have hu : World.newSequential kind items rac w = World.alloc ({ blank with
          node := some (.sequential kind)
          seq := ⟨items, ⟨⟨.fin items, true⟩, rac, .fin []⟩⟩ } : Attrs R) w := by
        unfold World.newSequential Sequential.init
        rw [if_neg (by intro he; rw [List.isEmpty_iff.1 he] at hx; cases hx)]
        rfl
      rw [hu] at hnew
      have hg := Grown.alloc ({ blank with
          node := some (.sequential kind)
          seq := ⟨items, ⟨⟨.fin items, true⟩, rac, .fin []⟩⟩ } : Attrs R) w
      exact hnew hg.next x (.item (items_of_base hg.new) hx)
    | newChoice kind items weights replace roac s cum =>
      refine .newChoice hb kind items weights replace roac s cum fun hok x hx => ?_
      unfold World.newChoice at hnew hok
      rcases hi : (Choice.init items weights replace roac s cum : PyM Nat (ChoiceSt Val R)) w.entropy
        with ⟨e | st, ent⟩ <;> rw [hi] at hnew hok
      · obtain ⟨r, hr⟩ := hok; cases hr
      · have hg := Grown.alloc ({ blank with node := some (.choice kind), choice := st } : Attrs R)
          { w with entropy := ent }
        refine hnew hg.next x (.item (items_of_base hg.new) ?_)
        change x ∈ st.items
        rw [(Choice.init_ok hi).1.1]; exact hx
    | @newWord fuel l c s h1 h2 hl =>
      have hg := newWord_grown fuel l c s w
      refine .newWord hb fuel _ _ s (fun v hv => hl v ((hold _ h1 v).1 hv)) fun x hx => ?_
      refine hnew hg.next _ ?_
      cases hx with
      | chars hk hl' hc =>
        exact .word (node_of_base hg.new) (hup h1 hk) hl' fun c hc' => hup h2 (hc c hc')
      | whole hk hv he => exact .wordNone (node_of_base hg.new) (hup h1 hk) (hup h2 hv) he
    | @newText fuel n wd sp s h1 h2 h3 hn =>
      have hg := newText_grown fuel n wd sp s w
      refine .newText hb fuel _ _ _ s (fun v hv => hn v ((hold _ h1 v).1 hv)) fun x hx => ?_
      obtain ⟨k, ws, ss, hk, hl, hw, hs', ht⟩ := hx
      exact hnew hg.next _ (.text (node_of_base hg.new) (hup h1 hk) hl
        (fun y hy => hup h2 (hw y hy)) (fun y hy => hup h3 (hs' y hy)) ht)
    | newWrapOne fuel cb s h1 =>
      exact .newWrapOne hb fuel _ cb s fun v _ =>
        .all cb _ _ (hopen (newWrapOne_grown fuel _ cb s w) rfl)
    | newWrapMany fuel cb s h1 =>
      exact .newWrapMany hb fuel _ cb s fun d _ =>
        .all cb _ _ (hopen (newWrapMany_grown fuel _ cb s w) rfl)
    | newCopyFields single sep h1 =>
      exact .newCopyFields hb _ single sep (hopen (.alloc _ w) rfl)
    | newBasedOnFields fuel single cb s h1 =>
      exact .newBasedOnFields hb fuel _ single cb s fun _ _ =>
        .all cb _ _ (hopen (newBasedOn_grown fuel _ single cb s w) rfl)
    | newField fuel name hide s h1 h2 h3 hr =>
      exact .newField hb fuel name _ _ _ hide s (fun v hv => hr v ((hold _ h2 v).1 hv))
        (hopen (newField_grown fuel name _ _ _ hide s w) rfl)
    | call fuel r arg ha => exact .call hb fuel r arg ha
    | reset fuel r => exact .reset hb fuel r
    | seed fuel r s => exact .seed hb fuel r s
    | document fuel fields => exact .document hb fuel fields
    | resetFields fuel fields => exact .resetFields hb fuel fields
    | seedFields fuel s fields => exact .seedFields hb fuel s fields

theorem Steps.typed {w0 w : World R} (h : Steps str w0 w) (h0 : w0.Blank) :
    AllTyped (Emits w) w :=
  built_typed (h.built h0 fun _ _ _ => Iff.rfl)

/-! ### Counting -/

/-- The number is what the formulas of `num_unique_values` give for the tree of emitters. -/
inductive Counted (w : World R) : Ref → ℚ → Prop
  | items {r : Ref} {k : ItemsKind} {l : List Val} (hi : (w.obj r).items = some (k, l)) :
    Counted w r l.dedup.length
  | word {r l c : Ref} {n q : ℚ} {k : ItemsKind} {is : List Val}
    (hn : (w.obj r).node = some (.word l c)) (hc : Counted w c n)
    (hi : (w.obj l).items = some (k, is)) (hq : wordNumUnique (some n) (some is) = .ok (some q)) :
    Counted w r q
  | text {r n wd sp : Ref} {m p q : ℚ} {k : ItemsKind} {is : List Val}
    (hn : (w.obj r).node = some (.text n wd sp)) (hw : Counted w wd m) (hs : Counted w sp p)
    (hi : (w.obj n).items = some (k, is))
    (hq : textNumUnique (some m) (some p) (some is) = .ok (some q)) : Counted w r q

theorem Counted.mono {w v : World R} {n : Nat} (hb : ∀ x, x < n → (v.obj x).base = (w.obj x).base)
    (ho : ∀ x, ∀ c ∈ (w.obj x).children, c < x) {r : Ref} (hr : r < n) {q : ℚ}
    (h : Counted w r q) : Counted v r q := by
  have hch : ∀ {r c : Ref} {nd : Node}, (w.obj r).node = some nd → c ∈ Node.childRefs (some nd) →
      r < n → c < n := by
    intro r c nd h1 h2 h3
    have := ho r c (by unfold Attrs.children; rw [h1]; exact h2)
    exact lt_trans this h3
  induction h with
  | items hi => exact .items ((items_of_base (hb _ hr)).trans hi)
  | word hn _ hi hq ih =>
    exact .word ((node_of_base (hb _ hr)).trans hn) (ih (hch hn (by simp [Node.childRefs]) hr))
      ((items_of_base (hb _ (hch hn (by simp [Node.childRefs]) hr))).trans hi) hq
  | text hn _ _ hi hq ih1 ih2 =>
    exact .text ((node_of_base (hb _ hr)).trans hn) (ih1 (hch hn (by simp [Node.childRefs]) hr))
      (ih2 (hch hn (by simp [Node.childRefs]) hr))
      ((items_of_base (hb _ (hch hn (by simp [Node.childRefs]) hr))).trans hi) hq

theorem pyPow_nat {q x : ℚ} {v : Val} (hv : v.AtLeast 0) (h : pyPow q v = .ok x) :
    ∃ k : Nat, v.asInt = some (k : Int) ∧ x = q ^ k := by
  unfold pyPow at h
  rcases ha : v.asInt with _ | i
  · rw [ha] at h; cases h
  · rw [ha] at h
    cases i with
    | ofNat k => cases h; exact ⟨k, rfl, rfl⟩
    | negSucc k =>
      have := hv _ ha
      omega

/-- The strings among the values. -/
def strsOf (F : Finset Val) : Finset (List Char) :=
  F.image fun v => match v with
    | .str s => s
    | _ => []

theorem mem_strsOf {F : Finset Val} {s : List Char} (h : .str s ∈ F) : s ∈ strsOf F :=
  Finset.mem_image.2 ⟨.str s, h, rfl⟩

theorem card_strsOf (F : Finset Val) : (strsOf F).card ≤ F.card := Finset.card_image_le

/-- Summing a bound over the items. -/
theorem sum_bound {f : Val → Py ℚ} {g : Nat → Nat} {is : List Val} {xs : List ℚ}
    (h : mapPy f is = .ok xs)
    (hf : ∀ v ∈ is, ∀ x, f v = .ok x → ∃ k : Nat, v.asInt = some (k : Int) ∧ (g k : ℚ) ≤ x) :
    ∃ L : List Nat, (is.map Val.asInt = L.map fun (k : Nat) => some (k : Int)) ∧
      ((L.map g).sum : ℚ) ≤ xs.sum := by
  rw [mapPy_ok_iff] at h
  induction h with
  | nil => exact ⟨[], rfl, by simp⟩
  | @cons v x is xs h1 _ ih =>
    obtain ⟨L, hL, hs⟩ := ih fun v hv => hf v (by simp [hv])
    obtain ⟨k, hk, hx⟩ := hf v (by simp) x h1
    refine ⟨k :: L, by simp [hk, hL], ?_⟩
    simp only [List.map_cons, List.sum_cons, Nat.cast_add]
    linarith

theorem emits_items {w : World R} {r : Ref} {k : ItemsKind} {l : List Val}
    (hi : (w.obj r).items = some (k, l)) {v : Val} : Emits w r v ↔ v ∈ l := by
  have hno : (w.obj r).isOpen = false ∧ (w.obj r).node ≠ some .iterative ∧
      (∀ a b, (w.obj r).node ≠ some (.word a b)) ∧
      ∀ a b c, (w.obj r).node ≠ some (.text a b c) := by
    have hx := hi
    unfold Attrs.items at hx
    unfold Attrs.isOpen
    rcases hn : (w.obj r).node with _ | node
    · rw [hn] at hx; cases hx
    · rw [hn] at hx
      cases node <;> first | (cases hx; done) | simp
  obtain ⟨h1, h2, h3, h4⟩ := hno
  refine ⟨fun hv => ?_, .item hi⟩
  cases hv with
  | item hi' hx => rw [hi] at hi'; cases hi'; exact hx
  | iter hn => exact absurd hn h2
  | word hn => exact absurd hn (h3 _ _)
  | wordNone hn => exact absurd hn (h3 _ _)
  | text hn => exact absurd hn (h4 _ _ _)
  | any ho => rw [h1] at ho; cases ho

/-- The values an emitter can emit are no more than counted. -/
theorem Counted.bound {w : World R} (ht : AllTyped (Emits w) w) {r : Ref} {q : ℚ}
    (h : Counted w r q) : ∃ F : Finset Val, (F.card : ℚ) ≤ q ∧ ∀ v, Emits w r v → v ∈ F := by
  have hnat : ∀ {l : Ref} {k : ItemsKind} {is : List Val} {L : List Nat},
      (w.obj l).items = some (k, is) →
      (is.map Val.asInt = L.map fun (k : Nat) => some (k : Int)) →
      ∀ v, Emits w l v → ∃ k ∈ L, v.asInt = some ((k : Nat) : Int) := by
    intro l k is L hi hL v hv
    have hvi : v ∈ is := (emits_items hi).1 hv
    have : v.asInt ∈ is.map Val.asInt := List.mem_map_of_mem hvi
    rw [hL] at this
    obtain ⟨k, hk, he⟩ := List.mem_map.1 this
    exact ⟨k, hk, he.symm⟩
  induction h with
  | @items r k l hi =>
    exact ⟨l.toFinset, by rw [List.card_toFinset],
      fun v hv => List.mem_toFinset.2 ((emits_items hi).1 hv)⟩
  | @word r l c n q k is hn hc hi hq ih =>
    obtain ⟨F, hF, hm⟩ := ih
    have htl : ∀ v, Emits w l v → v.AtLeast 0 := by
      have := (ht r trivial).1
      unfold Attrs.Typed at this
      rw [hn] at this
      exact this.2
    unfold wordNumUnique at hq
    dsimp only at hq
    rcases hx : mapPy (pyPow n) is with e | xs <;> rw [hx] at hq <;> cases hq
    obtain ⟨L, hL, hs⟩ := sum_bound (g := fun k => (strsOf F).card ^ k) hx (by
      intro v hv x hx
      obtain ⟨k, h1, rfl⟩ := pyPow_nat (htl v (.item hi hv)) hx
      refine ⟨k, h1, ?_⟩
      rw [Nat.cast_pow]
      exact pow_le_pow_left₀ (Nat.cast_nonneg _)
        (le_trans (Nat.cast_le.2 (card_strsOf F)) hF) k)
    refine ⟨(wordSet (strsOf F) L).image Val.str, ?_, fun v hv => ?_⟩
    · exact le_trans (Nat.cast_le.2 (Finset.card_image_le.trans (card_wordSet_le _ L))) hs
    · have hcase : ∃ cs : List (List Char), cs.length ∈ L ∧ (∀ x ∈ cs, Emits w c (.str x)) ∧
          v = .str cs.flatten := by
        cases hv with
        | item hi' => unfold Attrs.items at hi'; rw [hn] at hi'; cases hi'
        | iter hn' => rw [hn] at hn'; cases hn'
        | word hn' hk hl hcs =>
          rw [hn] at hn'; cases hn'
          obtain ⟨k, hkL, he⟩ := hnat hi hL _ hk
          rw [hl] at he
          have : k = _ := (Int.ofNat.inj (Option.some.inj he)).symm
          exact ⟨_, this ▸ hkL, hcs, rfl⟩
        | wordNone hn' hk hv he =>
          rw [hn] at hn'; cases hn'
          obtain ⟨k, _, he⟩ := hnat hi hL _ hk
          cases he
        | text hn' => rw [hn] at hn'; cases hn'
        | any ho => unfold Attrs.isOpen at ho; rw [hn] at ho; cases ho
      obtain ⟨cs, h1, h2, rfl⟩ := hcase
      exact Finset.mem_image_of_mem _ (mem_wordSet.2 ⟨cs, h1, fun c hc' =>
        mem_strsOf (hm _ (h2 c hc')), rfl⟩)
  | @text r n wd sp m p q k is hn _ _ hi hq ih1 ih2 =>
    obtain ⟨F, hF, hm⟩ := ih1
    obtain ⟨G, hG, hg⟩ := ih2
    have htn : ∀ v, Emits w n v → v.AtLeast 1 := by
      have := (ht r trivial).1
      unfold Attrs.Typed at this
      rw [hn] at this
      exact this.2
    unfold textNumUnique at hq
    dsimp only at hq
    obtain ⟨xs, hx, hq⟩ := Py.bind_eq_ok hq
    cases hq
    obtain ⟨L, hL, hs⟩ := sum_bound (g := fun k => (strsOf F).card ^ k * (strsOf G).card ^ (k - 1)) hx
      (by
      intro v hv x hx
      have hv1 := htn v (.item hi hv)
      obtain ⟨a, ha, hx⟩ := Py.bind_eq_ok hx
      obtain ⟨i, hi', hx⟩ := Py.bind_eq_ok hx
      obtain ⟨b, hb, hx⟩ := Py.bind_eq_ok hx
      cases hx
      obtain ⟨k, h1, rfl⟩ := pyPow_nat (fun j hj => by have := hv1 j hj; omega) ha
      have hk1 := hv1 _ h1
      have hik : i = k := by
        unfold Val.toInt at hi'
        rw [h1] at hi'
        cases hi'; rfl
      subst hik
      obtain ⟨k', h2, rfl⟩ := pyPow_nat (v := .int ((k : Int) - 1))
        (fun j hj => by cases hj; omega) hb
      have hk' : k' = k - 1 := by
        have : (k : Int) - 1 = k' := Option.some.inj h2
        omega
      subst hk'
      refine ⟨k, h1, ?_⟩
      rw [Nat.cast_mul, Nat.cast_pow, Nat.cast_pow]
      exact mul_le_mul
        (pow_le_pow_left₀ (Nat.cast_nonneg _) (le_trans (Nat.cast_le.2 (card_strsOf F)) hF) k)
        (pow_le_pow_left₀ (Nat.cast_nonneg _) (le_trans (Nat.cast_le.2 (card_strsOf G)) hG) _)
        (pow_nonneg (Nat.cast_nonneg _) _)
        (pow_nonneg (le_trans (Nat.cast_nonneg _) hF) _))
    have hpos : ∀ k ∈ L, 1 ≤ k := by
      intro k hk
      have : some (k : Int) ∈ L.map fun (k : Nat) => some (k : Int) := List.mem_map_of_mem hk
      rw [← hL] at this
      obtain ⟨v, hv, he⟩ := List.mem_map.1 this
      have := htn v (.item hi hv) _ he
      omega
    refine ⟨(L.toFinset.biUnion fun k => textsOver (strsOf F) (strsOf G) (k - 1)).image Val.str, ?_,
      fun v hv => ?_⟩
    · refine le_trans (Nat.cast_le.2 (Finset.card_image_le.trans (Finset.card_biUnion_le.trans
        (le_trans (Finset.sum_le_sum fun k hk => ?_) (sum_toFinset_le L _))))) hs
      have := card_textsOver_le (strsOf F) (strsOf G) (k - 1)
      rwa [Nat.sub_add_cancel (hpos k (List.mem_toFinset.1 hk))] at this
    · cases hv with
      | item hi' => unfold Attrs.items at hi'; rw [hn] at hi'; cases hi'
      | iter hn' => rw [hn] at hn'; cases hn'
      | word hn' => rw [hn] at hn'; cases hn'
      | wordNone hn' => rw [hn] at hn'; cases hn'
      | @text _ _ _ _ _ ws ss t hn' hk hl hws hss htx =>
        rw [hn] at hn'; cases hn'
        obtain ⟨k, hkL, he⟩ := hnat hi hL _ hk
        rw [hl] at he
        have : k = ws.length := (Int.ofNat.inj (Option.some.inj he)).symm
        subst this
        refine Finset.mem_image_of_mem _ (Finset.mem_biUnion.2 ⟨_, List.mem_toFinset.2 hkL, ?_⟩)
        rw [htx.length, Nat.add_sub_cancel]
        exact mem_textsOver htx (fun x hx => mem_strsOf (hm _ (hws x hx)))
          fun x hx => mem_strsOf (hg _ (hss x hx))
      | any ho => unfold Attrs.isOpen at ho; rw [hn] at ho; cases ho

/-! ### The stored counts are right -/

/-- The object is a `Word` or a `Text`. -/
def Attrs.isString (a : Attrs R) : Bool :=
  match a.node with
  | some (.word ..) | some (.text ..) => true
  | _ => false

/-- Every count stored by a `Word` or `Text` is what the formulas give. -/
def CountsRight (w : World R) : Prop :=
  ∀ r q, r < w.next → (w.obj r).isString = true → (w.obj r).numUnique = some q → Counted w r q

theorem Choice.unique_rewound {s : ChoiceSt Val R × Nat} (h : s.1.Rewound) :
    Choice.numUniqueValues s = (pyLenSet s.1.items, s) := by
  by_cases hr : s.1.replace = true
  · exact Choice.numUniqueValues_repl s hr
  · unfold Choice.numUniqueValues
    rw [Choice.self_bind]
    obtain ⟨h1, h2, _⟩ := h (by simpa using hr)
    rw [if_pos hr, Choice.shuffledIndex_bind, h1]
    change (pyLenSet _, s) = _
    have h3 := Choice.pyListSlice1_nat s.1.shuffled 0 s.1.shuffled.length (by simp)
    simp only [Nat.cast_zero, zero_add, List.drop_zero, List.take_length] at h3
    rw [h3]
    unfold pyLenSet
    rw [allHashable_perm h2, ← List.card_toFinset, List.toFinset_eq_of_perm _ _ h2,
      List.card_toFinset]

/-- Right after a reset, `num_unique_values` is what the formulas give. -/
theorem numUnique_counted {w : World R} (hf : CountsRight w) {c : Ref} (hc : c < w.next)
    (hr : ∀ k, (w.obj c).node = some (.choice k) → (w.obj c).choice.Rewound) {n : ℚ}
    (h : (numUniqueValues c w).1 = .ok (some n)) :
    Counted w c n := by
  unfold numUniqueValues at h
  rw [run_get_bind] at h
  rcases hn : (w.obj c).node with _ | node
  · rw [hn] at h; cases h
  · rw [hn] at h
    have hs : ∀ {l k}, (w.obj c).items = some (k, l) → n = (l.dedup.length : ℚ) → Counted w c n :=
      fun hi he => he ▸ .items hi
    cases node with
    | choice k =>
      have := Choice.unique_rewound (s := ((w.obj c).choice, w.entropy)) (hr k hn)
      have e : (onChoice c Choice.numUniqueValues w).1 = pyLenSet (w.obj c).choice.items := by
        unfold onChoice
        rw [this]
      dsimp only at h
      rw [bind_apply] at h
      rcases hq : onChoice c Choice.numUniqueValues w with ⟨x | m, w1⟩ <;> rw [hq] at e h
      · cases h
      · cases h
        exact hs (k := k) (by unfold Attrs.items; rw [hn]) (by rw [Choice.pyLenSet_ok e.symm])
    | static =>
      rcases hq : Static.numUniqueValues (w.obj c).static with x | m
      · dsimp only at h; rw [hq] at h; cases h
      · dsimp only at h
        rw [hq] at h
        cases h
        exact hs (k := .list) (by unfold Attrs.items; rw [hn]) (by rw [Choice.pyLenSet_ok hq])
    | sequential k =>
      rcases hq : Sequential.numUniqueValues (w.obj c).seq with x | m
      · dsimp only at h; rw [hq] at h; cases h
      · dsimp only at h
        rw [hq] at h
        cases h
        exact hs (k := k) (by unfold Attrs.items; rw [hn]) (by rw [Choice.pyLenSet_ok hq])
    | word l a => exact hf c n hc (by unfold Attrs.isString; rw [hn]) (Except.ok.inj h)
    | text a b d => exact hf c n hc (by unfold Attrs.isString; rw [hn]) (Except.ok.inj h)
    | _ => cases h

theorem CountsRight.kept {w v : World R} (h : CountsRight w) (gw : Grounded w) (hk : Kept w v) :
    CountsRight v := by
  intro r q hr hs hq
  have h1 : (w.obj r).isString = true := by
    unfold Attrs.isString at hs ⊢; rw [← node_of_base (hk.base r)]; exact hs
  exact (h r q (hk.next ▸ hr) h1 ((hk.unique r).symm.trans hq)).mono
    (fun x _ => hk.base x) gw.older hr

theorem CountsRight.grown {a : Attrs R} {w v : World R} (h : CountsRight w) (gw : Grounded w)
    (hg : Grown a w v) (hnew : a.isString = true → ∀ q, (v.obj w.next).numUnique = some q →
      Counted v w.next q) : CountsRight v := by
  intro r q hr hs hq
  by_cases hrn : r = w.next
  · subst hrn
    refine hnew ?_ q hq
    unfold Attrs.isString at hs ⊢; rw [← node_of_base hg.new]; exact hs
  · have hr' : r < w.next := by
      rw [hg.next] at hr
      exact lt_of_le_of_ne (Nat.le_of_lt_succ hr) hrn
    have h1 : (w.obj r).isString = true := by
      unfold Attrs.isString at hs ⊢; rw [← node_of_base (hg.base r hrn)]; exact hs
    exact (h r q hr' h1 ((hg.unique r hrn).symm.trans hq)).mono
      (fun x hx => hg.base x (Nat.ne_of_lt hx)) gw.older hr'

theorem alloc_unique {a : Attrs R} (ha : a.numUnique = none) (w : World R) :
    ((alloc a w).2.obj w.next).numUnique = none := by
  change ((if w.next = w.next then a else w.obj w.next) : Attrs R).numUnique = _
  rw [if_pos rfl, ha]

theorem updateWord_cases (r l c : Ref) (w : World R) :
    (updateWordNumUnique r l c w).2 = w ∨ ∃ nc m, (numUniqueValues c w).1 = .ok nc ∧
      wordNumUnique nc ((w.obj l).items.map (·.2)) = .ok m ∧
      (updateWordNumUnique r l c w).2 = w.upd r fun a => { a with numUnique := m } := by
  unfold updateWordNumUnique
  have hst := numUniqueValues_state c w
  rcases hn : numUniqueValues c w with ⟨x | nc, w'⟩ <;> rw [hn] at hst <;> dsimp only at hst <;>
    subst hst
  · rw [PyM.bind_err hn]; exact .inl rfl
  · rw [PyM.bind_ok hn, run_get_bind]
    rcases hm : wordNumUnique nc ((w'.obj l).items.map (·.2)) with x | m
    · refine .inl ?_
      rw [PyM.bind_err (by rw [lift_apply, hm] : PyM.lift _ w' = (.error x, w'))]
    · refine .inr ⟨nc, m, rfl, hm, ?_⟩
      rw [PyM.lift_bind hm]
      rfl

theorem updateText_cases (r n wd sp : Ref) (w : World R) :
    (updateTextNumUnique r n wd sp w).2 = w ∨ ∃ nw ns m, (numUniqueValues wd w).1 = .ok nw ∧
      (numUniqueValues sp w).1 = .ok ns ∧
      textNumUnique nw ns ((w.obj n).items.map (·.2)) = .ok m ∧
      (updateTextNumUnique r n wd sp w).2 = w.upd r fun a => { a with numUnique := m } := by
  unfold updateTextNumUnique
  have hst := numUniqueValues_state wd w
  rcases hn : numUniqueValues wd w with ⟨x | nw, w'⟩ <;> rw [hn] at hst <;> dsimp only at hst <;>
    subst hst
  · rw [PyM.bind_err hn]; exact .inl rfl
  · rw [PyM.bind_ok hn]
    have hst' := numUniqueValues_state sp w'
    rcases hn' : numUniqueValues sp w' with ⟨x | ns, w''⟩ <;> rw [hn'] at hst' <;>
      dsimp only at hst' <;> subst hst'
    · rw [PyM.bind_err hn']; exact .inl rfl
    · rw [PyM.bind_ok hn', run_get_bind]
      rcases hm : textNumUnique nw ns ((w''.obj n).items.map (·.2)) with x | m
      · refine .inl ?_
        rw [PyM.bind_err (by rw [lift_apply, hm] : PyM.lift _ w'' = (.error x, w''))]
      · refine .inr ⟨nw, ns, m, rfl, rfl, hm, ?_⟩
        rw [PyM.lift_bind hm]
        rfl

theorem setUnique_base (r : Ref) (m : Option ℚ) (w : World R) (x : Ref) :
    ((w.upd r fun a => { a with numUnique := m }).obj x).base = (w.obj x).base := by
  rw [upd_obj]
  by_cases hx : x = r
  · rw [if_pos hx, hx]; rfl
  · rw [if_neg hx]

/-- The store after a constructor has created the object with attributes `a` and reset it. -/
structure Prepared (a : Attrs R) (w w2 : World R) : Prop where
  grown : Grown a w w2
  unique : (w2.obj w.next).numUnique = none
  right : CountsRight w2
  grounded : Grounded w2

theorem prepared {a : Attrs R} {w : World R} (hf : CountsRight w) (gw : Grounded w)
    (ha : a.numUnique = none) (hc : ∀ c ∈ a.children, c < w.next) (hr : a.random = true)
    (fuel : Nat) : Prepared a w (reset fuel w.next (alloc a w).2).2 ∧
      ((reset fuel w.next (alloc a w).2).1 = .ok () →
        ∀ c ∈ a.children, ∀ k, ((reset fuel w.next (alloc a w).2).2.obj c).node = some (.choice k) →
          ((reset fuel w.next (alloc a w).2).2.obj c).choice.Rewound) := by
  have g1 := Grown.alloc a w
  have hk := reset_kept fuel w.next (alloc a w).2
  have hu := alloc_unique ha w
  have gr := gw.grown g1 hc
  have hg2 := g1.kept hk
  refine ⟨⟨hg2, (hk.unique _).trans hu,
    (hf.grown gw g1 fun _ q hq => by rw [hu] at hq; cases hq).kept gr hk, gr.kept hk⟩,
    fun hok c hcm k hk' => ?_⟩
  have hcm' : c ∈ ((reset fuel w.next (alloc a w).2).2.obj w.next).children := by
    unfold Attrs.children
    rw [node_of_base hg2.new]; exact hcm
  have : ((reset fuel w.next (alloc a w).2).2.obj c).Rewound :=
    (alloc_reset hr (r := w.next) rfl (Prod.ext hok rfl) c (.step hcm' (.self c))).2
  unfold Attrs.Rewound at this
  rw [hk'] at this
  exact this

theorem newWord_counted (fuel : Nat) {l c : Ref} (s : Option Int) {w : World R}
    (hf : CountsRight w) (gw : Grounded w) (h1 : l < w.next) (h2 : c < w.next) {q : ℚ}
    (hq : ((World.newWord fuel l c s w).2.obj w.next).numUnique = some q) :
    Counted (World.newWord fuel l c s w).2 w.next q := by
  revert hq
  have e : World.newWord fuel l c s w = (reset fuel w.next >>= fun _ =>
      updateWordNumUnique w.next l c >>= fun _ => pure w.next)
      (alloc { blank with node := some (.word l c), seed := s } w).2 := rfl
  rw [e]
  obtain ⟨hp, hrw⟩ := prepared (a := ({ blank with node := some (.word l c), seed := s } : Attrs R))
    hf gw rfl (by simp [Attrs.children, Node.childRefs, h1, h2]) rfl fuel
  rcases hr : reset fuel w.next (alloc ({ blank with node := some (.word l c), seed := s } : Attrs R)
    w).2 with ⟨x | u, w2⟩
  · rw [hr] at hp
    rw [PyM.bind_err hr]
    intro hq
    rw [hp.unique] at hq; cases hq
  rw [hr] at hp hrw
  rw [PyM.bind_ok hr]
  have e2 : ((updateWordNumUnique w.next l c >>= fun _ => (pure w.next : PyM (World R) Ref)) w2).2 =
      (updateWordNumUnique w.next l c w2).2 := by
    rw [bind_apply]
    rcases updateWordNumUnique w.next l c w2 with ⟨x | m, w3⟩ <;> rfl
  rw [e2]
  intro hq
  have hc2 : c < w2.next := by rw [hp.grown.next]; exact Nat.lt_succ_of_lt h2
  rcases updateWord_cases w.next l c w2 with h | ⟨nc, m, hnc, hm, h⟩ <;> rw [h] at hq ⊢
  · rw [hp.unique] at hq; cases hq
  rw [upd_obj, if_pos rfl] at hq
  dsimp only at hq
  subst hq
  rcases nc with _ | n
  · cases hm
  rcases hi : (w2.obj l).items with _ | ⟨k, is⟩ <;> rw [hi] at hm
  · cases hm
  have hb := setUnique_base w.next (some q) w2
  exact .word ((node_of_base (hb _)).trans (node_of_base hp.grown.new))
    ((numUnique_counted hp.right hc2 (hrw rfl c (by simp [Attrs.children, Node.childRefs])) hnc).mono
      (n := w2.next) (fun x _ => hb x) hp.grounded.older hc2)
    ((items_of_base (hb l)).trans hi) hm

theorem newText_counted (fuel : Nat) {n wd sp : Ref} (s : Option Int) {w : World R}
    (hf : CountsRight w) (gw : Grounded w) (h1 : n < w.next) (h2 : wd < w.next) (h3 : sp < w.next)
    {q : ℚ} (hq : ((World.newText fuel n wd (some sp) s w).2.obj w.next).numUnique = some q) :
    Counted (World.newText fuel n wd (some sp) s w).2 w.next q := by
  revert hq
  have e : World.newText fuel n wd (some sp) s w = (reset fuel w.next >>= fun _ =>
      updateTextNumUnique w.next n wd sp >>= fun _ => pure w.next)
      (alloc { blank with node := some (.text n wd sp), seed := s } w).2 := rfl
  rw [e]
  obtain ⟨hp, hrw⟩ := prepared
    (a := ({ blank with node := some (.text n wd sp), seed := s } : Attrs R))
    hf gw rfl (by simp [Attrs.children, Node.childRefs, h1, h2, h3]) rfl fuel
  rcases hr : reset fuel w.next (alloc ({ blank with node := some (.text n wd sp), seed := s } :
    Attrs R) w).2 with ⟨x | u, w2⟩
  · rw [hr] at hp
    rw [PyM.bind_err hr]
    intro hq
    rw [hp.unique] at hq; cases hq
  rw [hr] at hp hrw
  rw [PyM.bind_ok hr]
  have e2 : ((updateTextNumUnique w.next n wd sp >>= fun _ => (pure w.next : PyM (World R) Ref))
      w2).2 = (updateTextNumUnique w.next n wd sp w2).2 := by
    rw [bind_apply]
    rcases updateTextNumUnique w.next n wd sp w2 with ⟨x | m, w3⟩ <;> rfl
  rw [e2]
  intro hq
  have hw2 : wd < w2.next := by rw [hp.grown.next]; exact Nat.lt_succ_of_lt h2
  have hs2 : sp < w2.next := by rw [hp.grown.next]; exact Nat.lt_succ_of_lt h3
  rcases updateText_cases w.next n wd sp w2 with h | ⟨nw, ns, m, hnw, hns, hm, h⟩ <;> rw [h] at hq ⊢
  · rw [hp.unique] at hq; cases hq
  rw [upd_obj, if_pos rfl] at hq
  dsimp only at hq
  subst hq
  rcases nw with _ | a
  · cases hm
  rcases ns with _ | b
  · cases hm
  rcases hi : (w2.obj n).items with _ | ⟨k, is⟩ <;> rw [hi] at hm
  · cases hm
  have hb := setUnique_base w.next (some q) w2
  exact .text ((node_of_base (hb _)).trans (node_of_base hp.grown.new))
    ((numUnique_counted hp.right hw2 (hrw rfl wd (by simp [Attrs.children, Node.childRefs])) hnw).mono
      (n := w2.next) (fun x _ => hb x) hp.grounded.older hw2)
    ((numUnique_counted hp.right hs2 (hrw rfl sp (by simp [Attrs.children, Node.childRefs])) hns).mono
      (n := w2.next) (fun x _ => hb x) hp.grounded.older hs2)
    ((items_of_base (hb n)).trans hi) hm

theorem Step.right {w v : World R} (h : Step str w v) (gw : Grounded w) (hw : CountsRight w) :
    CountsRight v := by
  have hal : ∀ a : Attrs R, a.isString = false → Grown a w v → CountsRight v := fun a ha hg =>
    hw.grown gw hg fun h => by rw [ha] at h; cases h
  cases h with
  | newStatic x => exact hal _ rfl (.alloc _ w)
  | newIterative f rac =>
    revert hal
    unfold World.newIterative
    rw [bind_apply, lift_apply]
    rcases Iterative.init f rac with e | st
    · exact fun _ => hw
    · exact fun hal => hal _ rfl (.alloc _ w)
  | newSequential kind items rac =>
    revert hal
    unfold World.newSequential
    rw [bind_apply, lift_apply]
    rcases Sequential.init items rac with e | st
    · exact fun _ => hw
    · exact fun hal => hal _ rfl (.alloc _ w)
  | newChoice kind items weights replace roac s cum =>
    revert hal
    unfold World.newChoice
    rcases (Choice.init items weights replace roac s cum : PyM Nat (ChoiceSt Val R)) w.entropy
      with ⟨x | st, e⟩
    · exact fun _ => hw.kept gw ⟨rfl, fun _ => rfl, fun _ => rfl⟩
    · have := Grown.alloc ({ blank with node := some (.choice kind), choice := st } : Attrs R)
        { w with entropy := e }
      exact fun hal => hal _ rfl ⟨this.next, this.base, this.unique, this.new⟩
  | newWord fuel s h1 h2 _ =>
    exact hw.grown gw (newWord_grown fuel _ _ s w) fun _ q hq => newWord_counted fuel s hw gw h1 h2 hq
  | newText fuel s h1 h2 h3 _ =>
    exact hw.grown gw (newText_grown fuel _ _ _ s w) fun _ q hq =>
      newText_counted fuel s hw gw h1 h2 h3 hq
  | newWrapOne fuel cb s h1 => exact hal _ rfl (newWrapOne_grown fuel _ cb s w)
  | newWrapMany fuel cb s h1 => exact hal _ rfl (newWrapMany_grown fuel _ cb s w)
  | newCopyFields single sep _ => exact hal _ rfl (.alloc _ w)
  | newBasedOnFields fuel single cb s _ => exact hal _ rfl (newBasedOn_grown fuel _ single cb s w)
  | newField fuel name hide s h1 h2 h3 _ => exact hal _ rfl (newField_grown fuel name _ _ _ hide s w)
  | call fuel r arg _ => exact hw.kept gw (call_kept str fuel r arg w)
  | reset fuel r => exact hw.kept gw (reset_kept fuel r w)
  | seed fuel r s => exact hw.kept gw (seed_kept fuel r s w)
  | document fuel fields => exact hw.kept gw (document_kept fuel fields w)
  | resetFields fuel fields => exact hw.kept gw (resetFields_kept fuel fields w)
  | seedFields fuel s fields => exact hw.kept gw (seedFields_kept fuel s fields w)

theorem Steps.right {w0 w : World R} (h : Steps str w0 w) (h0 : w0.Blank) : CountsRight w := by
  induction h with
  | start =>
    intro r q _ hs _
    rw [h0 r] at hs; cases hs
  | step h1 h' ih => exact h'.right (h1.grounded (.blank h0)) ih

theorem Steps.trans {w v u : World R} (h : Steps str w v) (h' : Steps str v u) : Steps str w u := by
  induction h' with
  | start => exact h
  | step _ h2 ih => exact .step ih h2

theorem Answers.mono {P Q : Val → Prop} {arg : Option Val} {v : Val} (h : Answers P arg v)
    (hPQ : ∀ x, P x → Q x) : Answers Q arg v := by
  unfold Answers at h ⊢
  split at h
  · exact hPQ v h
  · exact hPQ v h
  · obtain ⟨i, l, h1, h2, h3, h4⟩ := h
    exact ⟨i, l, h1, h2, h3, fun y hy => hPQ y (h4 y hy)⟩

/-- **C61.** Whatever a program has built and done, if `num_unique_values` of an object is the number
`q`, there is a set of at most `q` values such that all values it emits from then on are in it,
whatever else the program builds and does; the words of a `Text` may come from `Word`s, the
characters of these from a `Choice`, and so on.  (A `Choice` without replacement counts only what is
left, so for one it is asked before anything is handed out.) -/
theorem C61_bound (str : Val → List Char) {w0 w : World R} (h : Steps str w0 w) (h0 : w0.Blank)
    {r : Ref} {q : ℚ} (hq : (World.numUniqueValues r w).1 = .ok (some q))
    (hc : ∀ k, (w.obj r).node = some (.choice k) → (w.obj r).choice.Rewound) :
    ∃ F : Finset Val, (F.card : ℚ) ≤ q ∧ ∀ w', Steps str w w' → ∀ fuel arg v, ArgOK arg →
      (World.call str fuel r arg w').1 = .ok v → Answers (· ∈ F) arg v := by
  have gw := h.grounded (.blank h0)
  have hr : r < w.next := by
    by_contra hr
    have := gw.beyond r (Nat.le_of_not_lt hr)
    unfold World.numUniqueValues at hq
    rw [run_get_bind, this] at hq
    cases hq
  obtain ⟨F, hF, hm⟩ := (numUnique_counted (h.right h0) hr hc hq).bound (h.typed h0)
  refine ⟨F, hF, fun w' h' fuel arg v ha hv => ?_⟩
  have := (call_typed str fuel r trivial arg ha w' ((h.trans h').typed h0)).2 v hv
  exact this.mono fun x hx => hm x ((Emits.iff (fun x hx => (h'.old.2 x hx).1) gw
    ((h.trans h').grounded (.blank h0)) hr).1 hx)

/-! ### The formulas -/

theorem wordNumUnique_sum (q : ℚ) (L : List Nat) :
    wordNumUnique (some q) (some (L.map fun (k : Nat) => Val.int k)) =
      .ok (some (L.map fun k => q ^ k).sum) := by
  unfold wordNumUnique
  dsimp only
  have : mapPy (pyPow q) (L.map fun (k : Nat) => Val.int k) =
      .ok ((L.map fun (k : Nat) => Val.int k).map fun v => q ^ (v.asInt.getD 0).toNat) := by
    apply mapPy_ok_map
    intro v hv
    obtain ⟨k, _, rfl⟩ := List.mem_map.1 hv
    rfl
  rw [this, Py.ok_bind, List.map_map]
  rfl

theorem textNumUnique_sum (q p : ℚ) (L : List Nat) (hL : ∀ k ∈ L, 1 ≤ k) :
    textNumUnique (some q) (some p) (some (L.map fun (k : Nat) => Val.int k)) =
      .ok (some (L.map fun k => q ^ k * p ^ (k - 1)).sum) := by
  unfold textNumUnique
  dsimp only
  have : mapPy (fun v => do
      let a ← pyPow q v
      let i ← v.toInt
      let b ← pyPow p (.int (i - 1))
      return a * b) (L.map fun (k : Nat) => Val.int k) =
      .ok ((L.map fun (k : Nat) => Val.int k).map fun v =>
        q ^ (v.asInt.getD 0).toNat * p ^ ((v.asInt.getD 0).toNat - 1)) := by
    apply mapPy_ok_map
    intro v hv
    obtain ⟨k, hk, rfl⟩ := List.mem_map.1 hv
    have h1 := hL k hk
    obtain ⟨j, rfl⟩ := Nat.exists_eq_add_of_le' h1
    have e : (((j + 1 : Nat) : Int) - 1) = Int.ofNat j := by
      rw [Int.ofNat_eq_natCast]; omega
    change (pyPow p (.int (((j + 1 : Nat) : Int) - 1)) >>= fun b => .ok (q ^ (j + 1) * b)) = _
    rw [e]
    rfl
  rw [this, Py.ok_bind, List.map_map]
  rfl

theorem onChoice_congr {β : Type} (r : Ref) (m : ChoiceM Val R β) {w v : World R}
    (h : v.obj r = w.obj r) (he : v.entropy = w.entropy) :
    (onChoice r m v).1 = (onChoice r m w).1 := by
  unfold onChoice
  rw [h, he]

theorem numUnique_congr (c : Ref) {w v : World R} (h : v.obj c = w.obj c)
    (he : v.entropy = w.entropy) : (numUniqueValues c v).1 = (numUniqueValues c w).1 := by
  unfold numUniqueValues
  rw [run_get_bind, run_get_bind, h]
  rcases (w.obj c).node with _ | node
  · rfl
  · cases node with
    | choice k =>
      dsimp only
      have := onChoice_congr c Choice.numUniqueValues h he
      rcases hv : onChoice c Choice.numUniqueValues v with ⟨x | a, v'⟩ <;>
        rcases hw : onChoice c Choice.numUniqueValues w with ⟨y | b, w'⟩ <;> rw [hv, hw] at this <;>
        cases this
      · rw [PyM.bind_err hv, PyM.bind_err hw]
      · rw [PyM.bind_ok hv, PyM.bind_ok hw]; rfl
    | static =>
      dsimp only
      cases Static.numUniqueValues (w.obj c).static <;> rfl
    | sequential k =>
      dsimp only
      cases Sequential.numUniqueValues (w.obj c).seq <;> rfl
    | _ => rfl

theorem setUnique_congr {r c : Ref} (hc : c ≠ r) (m : Option ℚ) (w : World R) :
    (numUniqueValues c (w.upd r fun a => { a with numUnique := m })).1 = (numUniqueValues c w).1 :=
  numUnique_congr c (by rw [upd_obj, if_neg hc]) rfl

theorem newWord_update {fuel : Nat} {l c r : Ref} {s : Option Int} {w w' : World R}
    (h : World.newWord fuel l c s w = (.ok r, w')) :
    r = w.next ∧ (w'.obj r).node = some (.word l c) ∧
      ∃ w2, updateWordNumUnique r l c w2 = (.ok (), w') := by
  have hg := newWord_grown fuel l c s w
  rw [h] at hg
  unfold World.newWord at h
  obtain ⟨q, w3, h3, h⟩ := PyM.bind_eq_ok h
  obtain ⟨u, w4, h4, h⟩ := PyM.bind_eq_ok h
  obtain ⟨u', w5, h5, h⟩ := PyM.bind_eq_ok h
  rw [PyM.pure_apply, Prod.mk.injEq, Except.ok.injEq] at h
  obtain ⟨rfl, rfl⟩ := h
  have hq : q = w.next := by cases h3; rfl
  subst hq
  exact ⟨rfl, node_of_base hg.new, w4, h5⟩

theorem newText_update {fuel : Nat} {n wd sp r : Ref} {s : Option Int} {w w' : World R}
    (h : World.newText fuel n wd (some sp) s w = (.ok r, w')) :
    r = w.next ∧ (w'.obj r).node = some (.text n wd sp) ∧
      ∃ w2, updateTextNumUnique r n wd sp w2 = (.ok (), w') := by
  have hg := newText_grown fuel n wd sp s w
  rw [h] at hg
  unfold World.newText at h
  obtain ⟨x, w1, h1, h⟩ := PyM.bind_eq_ok h
  cases h1
  obtain ⟨q, w3, h3, h⟩ := PyM.bind_eq_ok h
  obtain ⟨u, w4, h4, h⟩ := PyM.bind_eq_ok h
  obtain ⟨u', w5, h5, h⟩ := PyM.bind_eq_ok h
  rw [PyM.pure_apply, Prod.mk.injEq, Except.ok.injEq] at h
  obtain ⟨rfl, rfl⟩ := h
  have hq : q = w.next := by cases h3; rfl
  subst hq
  exact ⟨rfl, node_of_base hg.new, w4, h5⟩

/-- **C61 (formula for `Word`).** A new `Word` whose alphabet has `n` different values and whose
lengths are the numbers `L` reports the sum of the `n ^ k` for `k` in `L`; if the alphabet or the
lengths cannot be counted, it reports `None`. -/
theorem C61_word (fuel : Nat) {l c r : Ref} {s : Option Int} {w w' : World R}
    (h : World.newWord fuel l c s w = (.ok r, w')) (h1 : l < w.next) (h2 : c < w.next)
    {nc : Option ℚ} (hc : (World.numUniqueValues c w').1 = .ok nc) :
    (∀ n k, ∀ L : List Nat, nc = some n →
      (w'.obj l).items = some (k, L.map fun (k : Nat) => Val.int k) →
      (World.numUniqueValues r w').1 = .ok (some (L.map fun k => n ^ k).sum)) ∧
    (nc = none ∨ (w'.obj l).items = none → (World.numUniqueValues r w').1 = .ok none) := by
  obtain ⟨rfl, hn, w2, hu⟩ := newWord_update h
  have hval : (World.numUniqueValues w.next w').1 = .ok (w'.obj w.next).numUnique := by
    unfold World.numUniqueValues
    rw [run_get_bind, hn]
    rfl
  have hst : ∃ m nc', (numUniqueValues c w2).1 = .ok nc' ∧
      wordNumUnique nc' ((w2.obj l).items.map (·.2)) = .ok m ∧
      w' = w2.upd w.next fun a => { a with numUnique := m } := by
    unfold updateWordNumUnique at hu
    obtain ⟨nc', w6, h7, h5a⟩ := PyM.bind_eq_ok hu
    have := numUniqueValues_state c w2
    rw [h7] at this
    dsimp only at this
    subst this
    rw [PyM.run_get_bind] at h5a
    obtain ⟨m, w7, h8, h5c⟩ := PyM.bind_eq_ok h5a
    rw [PyM.lift_apply, Prod.mk.injEq] at h8
    obtain ⟨h8, rfl⟩ := h8
    rw [PyM.modify_apply, Prod.mk.injEq] at h5c
    exact ⟨m, nc', by rw [h7], h8, h5c.2.symm⟩
  obtain ⟨m, nc', hc', hm, rfl⟩ := hst
  rw [setUnique_congr (Nat.ne_of_lt h2), hc'] at hc
  cases hc
  have hl : ((w2.upd w.next fun a => { a with numUnique := m }).obj l).items = (w2.obj l).items := by
    rw [upd_obj, if_neg (Nat.ne_of_lt h1)]
  rw [hl, hval, upd_obj, if_pos rfl]
  dsimp only
  refine ⟨?_, ?_⟩
  · rintro n k L rfl hi
    rw [hi] at hm
    have := wordNumUnique_sum n L
    rw [show (some (k, L.map fun (k : Nat) => Val.int k)).map (·.2) =
      some (L.map fun (k : Nat) => Val.int k) from rfl, this] at hm
    cases hm; rfl
  · rintro (rfl | hi)
    · cases hm; rfl
    · rw [hi] at hm
      cases nc <;> (cases hm; rfl)

/-- **C61 (formula for `Text`).** A new `Text` whose words have `m` and whose separators have `p`
different values and whose word counts are the positive numbers `L` reports the sum of the
`m ^ k * p ^ (k - 1)` for `k` in `L`; if words, separators or counts cannot be counted, it reports
`None`. -/
theorem C61_text (fuel : Nat) {n wd sp r : Ref} {s : Option Int} {w w' : World R}
    (h : World.newText fuel n wd (some sp) s w = (.ok r, w')) (h1 : n < w.next) (h2 : wd < w.next)
    (h3 : sp < w.next) {nw ns : Option ℚ} (hw : (World.numUniqueValues wd w').1 = .ok nw)
    (hs : (World.numUniqueValues sp w').1 = .ok ns) :
    (∀ m p k, ∀ L : List Nat, nw = some m → ns = some p → (∀ k ∈ L, 1 ≤ k) →
      (w'.obj n).items = some (k, L.map fun (k : Nat) => Val.int k) →
      (World.numUniqueValues r w').1 = .ok (some (L.map fun k => m ^ k * p ^ (k - 1)).sum)) ∧
    (nw = none ∨ ns = none ∨ (w'.obj n).items = none →
      (World.numUniqueValues r w').1 = .ok none) := by
  obtain ⟨rfl, hn, w2, hu⟩ := newText_update h
  have hval : (World.numUniqueValues w.next w').1 = .ok (w'.obj w.next).numUnique := by
    unfold World.numUniqueValues
    rw [run_get_bind, hn]
    rfl
  have hst : ∃ m nw' ns', (numUniqueValues wd w2).1 = .ok nw' ∧ (numUniqueValues sp w2).1 = .ok ns' ∧
      textNumUnique nw' ns' ((w2.obj n).items.map (·.2)) = .ok m ∧
      w' = w2.upd w.next fun a => { a with numUnique := m } := by
    unfold updateTextNumUnique at hu
    obtain ⟨nw', w6, h7, h5a⟩ := PyM.bind_eq_ok hu
    have := numUniqueValues_state wd w2
    rw [h7] at this
    dsimp only at this
    subst this
    obtain ⟨ns', w6', h7', h5b⟩ := PyM.bind_eq_ok h5a
    have := numUniqueValues_state sp w6
    rw [h7'] at this
    dsimp only at this
    subst this
    rw [PyM.run_get_bind] at h5b
    obtain ⟨m, w7, h8, h5c⟩ := PyM.bind_eq_ok h5b
    rw [PyM.lift_apply, Prod.mk.injEq] at h8
    obtain ⟨h8, rfl⟩ := h8
    rw [PyM.modify_apply, Prod.mk.injEq] at h5c
    exact ⟨m, nw', ns', by rw [h7], by rw [h7'], h8, h5c.2.symm⟩
  obtain ⟨m, nw', ns', hw', hs', hm, rfl⟩ := hst
  rw [setUnique_congr (Nat.ne_of_lt h2), hw'] at hw
  rw [setUnique_congr (Nat.ne_of_lt h3), hs'] at hs
  cases hw
  cases hs
  have hl : ((w2.upd w.next fun a => { a with numUnique := m }).obj n).items = (w2.obj n).items := by
    rw [upd_obj, if_neg (Nat.ne_of_lt h1)]
  rw [hl, hval, upd_obj, if_pos rfl]
  dsimp only
  refine ⟨?_, ?_⟩
  · rintro a p k L rfl rfl hL hi
    rw [hi] at hm
    have := textNumUnique_sum a p L hL
    rw [show (some (k, L.map fun (k : Nat) => Val.int k)).map (·.2) =
      some (L.map fun (k : Nat) => Val.int k) from rfl, this] at hm
    cases hm; rfl
  · rintro (rfl | rfl | hi)
    · cases hm; rfl
    · cases nw <;> (cases hm; rfl)
    · rw [hi] at hm
      cases nw <;> cases ns <;> (cases hm; rfl)

/-! ### Where it fails -/

/-- `l = Static(1); a = Sequential(['a']); w = Word(l, a); a.iterator_factory = lambda:
iter(['a', 'b'])`. -/
def staleCount : PyM (World demoRng) Unit := do
  let l ← World.newStatic (.int 1)
  let a ← World.newSequential .list [.str ['a']] false
  let _ ← World.newWord 5 l a (some 1)
  World.setFactory a ⟨.fin [.str ['a'], .str ['b']], true⟩

/-- **C61 (finding).** A `Word` does not notice that its alphabet changes: it still promises one
value, and emits two. -/
theorem C61_stale_violated : (staleCount emptyWorld).1 = .ok () ∧
    (World.numUniqueValues 2 (staleCount emptyWorld).2).1 = .ok (some 1) ∧
    (World.call demoStr 5 2 (some (.int 2)) (staleCount emptyWorld).2).1 =
      .ok (.list [.str ['a'], .str ['b']]) := by
  decide +kernel

/-! ### Example -/

/-- `len = Static(2)`. -/
def count1 : World demoRng := (World.newStatic (.int 2) emptyWorld).2
/-- `abc = Choice(['a', 'b', 'b'], replace=False)`. -/
def count2 : World demoRng :=
  (World.newChoice .list [.str ['a'], .str ['b'], .str ['b']] none false false (some 1) none count1).2
/-- `word = Word(len, abc)`. -/
def count3 : World demoRng := (World.newWord 5 0 1 (some 6) count2).2
/-- `sep = Static('-')`. -/
def count4 : World demoRng := (World.newStatic (.str ['-']) count3).2
/-- `text = Text(len, word, sep)`. -/
def count5 : World demoRng := (World.newText 6 0 2 (some 3) (some 7) count4).2
/-- `abc(2)`. -/
def count6 : World demoRng := (World.call demoStr 6 1 (some (.int 2)) count5).2

theorem count_steps : Steps demoStr emptyWorld count6 := by
  have hlen : ∀ {w : World demoRng}, (w.obj 0).items = some (.list, [.int 2]) → ∀ v, Emits w 0 v →
      v = .int 2 := fun hi v hv => by simpa using (emits_items hi).1 hv
  have s1 : Step demoStr emptyWorld count1 := .newStatic _
  have s2 : Step demoStr count1 count2 := .newChoice _ _ _ _ _ _ _
  have s3 : Step demoStr count2 count3 := .newWord 5 _ (by decide +kernel) (by decide +kernel)
    fun v hv => by rw [hlen (by decide +kernel) v hv]; rintro i ⟨⟩; decide
  have s4 : Step demoStr count3 count4 := .newStatic _
  have s5 : Step demoStr count4 count5 := .newText 6 _ (by decide +kernel) (by decide +kernel)
    (by decide +kernel) fun v hv => by rw [hlen (by decide +kernel) v hv]; rintro i ⟨⟩; decide
  have s6 : Step demoStr count5 count6 := .call 6 1 _ (by rintro i ⟨⟩; decide)
  exact .step (.step (.step (.step (.step (.step .start s1) s2) s3) s4) s5) s6

/-- Two different characters give four words and sixteen texts. -/
example : (World.numUniqueValues 2 count6).1 = .ok (some 4) ∧
    (World.numUniqueValues 4 count6).1 = .ok (some 16) ∧
    (World.numUniqueValues 1 count6).1 = .ok (some 1) := by
  decide +kernel

example : ∃ w', World.newText 6 0 2 (some 3) (some 7) count4 = (.ok 4, w') ∧
    (World.numUniqueValues 4 w').1 = .ok (some ([2].map fun k => (4 : ℚ) ^ k * 1 ^ (k - 1)).sum) := by
  have h : World.newText 6 0 2 (some 3) (some 7) count4 = (.ok 4, count5) :=
    Prod.ext (by decide +kernel) rfl
  exact ⟨count5, h, (C61_text 6 h (by decide +kernel) (by decide +kernel) (by decide +kernel)
    (nw := some 4) (ns := some 1) (by decide +kernel) (by decide +kernel)).1 4 1 .list [2] rfl rfl
    (by decide) (by decide +kernel)⟩

example : ∃ F : Finset Val, (F.card : ℚ) ≤ 16 ∧ ∀ w', Steps demoStr count6 w' → ∀ fuel arg v,
    ArgOK arg → (World.call demoStr fuel 4 arg w').1 = .ok v → Answers (· ∈ F) arg v :=
  C61_bound demoStr count_steps (fun _ => rfl) (by decide +kernel)
    (fun k hk => by
      have : (count6.obj 4).node = some (.text 0 2 3) := by decide +kernel
      rw [this] at hk; cases hk)

end Fauxdoc
