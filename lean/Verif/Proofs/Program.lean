import Verif.Spec.Program
import Verif.Spec.Halt
import Verif.Props.Contract
import Verif.Props.Heap3
/-
What the steps of a program leave alone.
-/
set_option linter.unusedSectionVars false
namespace Fauxdoc
open PyM World
variable {K : Type} [Field K] [LinearOrder K] [FloorRing K] [IsStrictOrderedRing K] {R : Rng K}
variable {str : Val → List Char}

/-- What decides about the values an object can emit. -/
def Attrs.base (a : Attrs R) :
    Option Node × Option (ItemsKind × List Val) × Factory Val × Factory Val :=
  (a.node, a.items, a.iter.factory, a.seq.it.factory)

theorem items_of_shape {a b : Attrs R} (h : b.shape = a.shape) : b.items = a.items := by
  have hi : ∀ a : Attrs R, a.shape.items = a.items := by
    intro a
    unfold Attrs.items
    rw [shape_node]
    have h1 : a.shape.choice.items = a.choice.items := by
      unfold Attrs.shape
      split <;> first | rfl | (unfold ChoiceSt.config; dsimp only; split <;> rfl)
    have h2 : a.shape.static = a.static := by unfold Attrs.shape; split <;> rfl
    have h3 : a.shape.seq.items = a.seq.items := by unfold Attrs.shape; split <;> rfl
    rw [h1, h2, h3]
  rw [← hi b, h, hi]

theorem base_of_shape {a b : Attrs R} (h : b.shape = a.shape) : b.base = a.base := by
  have h3 : ∀ a : Attrs R, a.shape.iter.factory = a.iter.factory := by
    intro a; unfold Attrs.shape; split <;> rfl
  have h4 : ∀ a : Attrs R, a.shape.seq.it.factory = a.seq.it.factory := by
    intro a; unfold Attrs.shape; split <;> rfl
  unfold Attrs.base
  rw [node_of_shape h, items_of_shape h, ← h3 b, ← h4 b, h, h3, h4]

theorem unique_of_shape {a b : Attrs R} (h : b.shape = a.shape) : b.numUnique = a.numUnique := by
  have h3 : ∀ a : Attrs R, a.shape.numUnique = a.numUnique := by
    intro a; unfold Attrs.shape; split <;> rfl
  rw [← h3 b, h, h3]

theorem node_of_base {a b : Attrs R} (h : b.base = a.base) : b.node = a.node := congrArg Prod.fst h
theorem items_of_base {a b : Attrs R} (h : b.base = a.base) : b.items = a.items :=
  congrArg (·.2.1) h
theorem factory_of_base {a b : Attrs R} (h : b.base = a.base) : b.iter.factory = a.iter.factory :=
  congrArg (·.2.2.1) h
theorem seqFactory_of_base {a b : Attrs R} (h : b.base = a.base) :
    b.seq.it.factory = a.seq.it.factory := congrArg (·.2.2.2) h
theorem isOpen_of_base {a b : Attrs R} (h : b.base = a.base) : b.isOpen = a.isOpen := by
  unfold Attrs.isOpen; rw [node_of_base h]

/-- Nothing new, nothing different as far as possible values go. -/
structure Kept (w v : World R) : Prop where
  next : v.next = w.next
  base : ∀ x, (v.obj x).base = (w.obj x).base
  unique : ∀ x, (v.obj x).numUnique = (w.obj x).numUnique

theorem Kept.refl (w : World R) : Kept w w := ⟨rfl, fun _ => rfl, fun _ => rfl⟩

theorem Kept.trans {w v u : World R} (h : Kept w v) (h' : Kept v u) : Kept w u :=
  ⟨h'.next.trans h.next, fun x => (h'.base x).trans (h.base x),
    fun x => (h'.unique x).trans (h.unique x)⟩

theorem Kept.of_shape {w v : World R} (hn : v.next = w.next)
    (h : ∀ x, (v.obj x).shape = (w.obj x).shape) : Kept w v :=
  ⟨hn, fun x => base_of_shape (h x), fun x => unique_of_shape (h x)⟩

theorem call_kept (str : Val → List Char) (fuel : Nat) (r : Ref) (arg : Option Val) (w : World R) :
    Kept w (call str fuel r arg w).2 := by
  have := call_frame str fuel r arg (fun _ => True) w (fun _ _ _ _ => trivial) trivial w
    (Frame.refl _ w)
  exact .of_shape this.next fun x => shape_of_config (this.config x)

theorem reset_kept (fuel : Nat) (r : Ref) (w : World R) : Kept w (reset fuel r w).2 := by
  have := reset_frame fuel r (fun _ => True) w (fun _ _ _ _ => trivial) trivial
  exact .of_shape this.next this.shape

theorem seed_kept (fuel : Nat) (r : Ref) (s : Option Int) (w : World R) :
    Kept w (seed fuel r s w).2 := by
  have := (shapeFrame_steps (fun _ => True) s w (fun _ _ _ _ => trivial)).seed fuel r trivial w w
    ⟨rfl, .refl _ w⟩
  exact .of_shape this.2.2.next this.2.2.shape

/-- The object `n` is new and given by `a`. -/
structure Grown (a : Attrs R) (w v : World R) : Prop where
  next : v.next = w.next + 1
  base : ∀ x, x ≠ w.next → (v.obj x).base = (w.obj x).base
  unique : ∀ x, x ≠ w.next → (v.obj x).numUnique = (w.obj x).numUnique
  new : (v.obj w.next).base = a.base

theorem Grown.alloc (a : Attrs R) (w : World R) : Grown a w (alloc a w).2 where
  next := rfl
  base x hx := by
    change ((if x = w.next then a else w.obj x) : Attrs R).base = _
    rw [if_neg hx]
  unique x hx := by
    change ((if x = w.next then a else w.obj x) : Attrs R).numUnique = _
    rw [if_neg hx]
  new := by
    change ((if w.next = w.next then a else w.obj w.next) : Attrs R).base = _
    rw [if_pos rfl]

theorem Grown.kept {a : Attrs R} {w v u : World R} (h : Grown a w v) (h' : Kept v u) :
    Grown a w u :=
  ⟨h'.next.trans h.next, fun x hx => (h'.base x).trans (h.base x hx),
    fun x hx => (h'.unique x).trans (h.unique x hx), (h'.base _).trans h.new⟩

theorem Grown.update {a : Attrs R} {w v : World R} (h : Grown a w v) (f : Attrs R → Attrs R)
    (hb : ∀ a, (f a).base = a.base) (e : Nat) : Grown a w { v.upd w.next f with entropy := e } where
  next := h.next
  base x hx := by
    rw [obj_entropy, upd_obj, if_neg hx]; exact h.base x hx
  unique x hx := by
    rw [obj_entropy, upd_obj, if_neg hx]; exact h.unique x hx
  new := by
    rw [obj_entropy, upd_obj, if_pos rfl, hb]; exact h.new

theorem keeps_grown {a : Attrs R} {w : World R} {β : Type} {m : PyM (World R) β}
    (h : ∀ v, Kept v (m v).2) : Keeps (Grown a w) m :=
  fun v hv => hv.kept (h v)

theorem call_grown {a : Attrs R} {w : World R} (fuel : Nat) (r : Ref) (arg : Option Val) :
    Keeps (Grown a w) (call str fuel r arg) := keeps_grown (call_kept str fuel r arg)

theorem reset_grown {a : Attrs R} {w : World R} (fuel : Nat) (r : Ref) :
    Keeps (Grown a w) (reset fuel r) := keeps_grown (reset_kept fuel r)

theorem unique_grown {a : Attrs R} {w : World R} (r : Ref) :
    Keeps (Grown a w) (numUniqueValues r) :=
  keeps_grown fun v => by rw [numUniqueValues_state]; exact .refl v

theorem setUnique_grown {a : Attrs R} {w : World R} (q : Option ℚ) :
    Keeps (Grown a w) (PyM.modify (upd w.next fun a => { a with numUnique := q })) :=
  fun v hv => hv.update (fun a => { a with numUnique := q }) (fun _ => rfl) v.entropy

theorem assign_grown {a : Attrs R} {w : World R} (fuel : Nat) (cb : Callback R.G) :
    Keeps (Grown a w) (assignAndReset fuel w.next cb) := by
  intro v hv
  unfold assignAndReset
  rw [run_modify_bind]
  exact reset_grown fuel w.next _
    (hv.update (fun a => { a with wrapper := some cb }) (fun _ => rfl) v.entropy)

theorem setWrapper_grown {a : Attrs R} {w : World R} (fuel : Nat) (cb : Callback R.G) :
    Keeps (Grown a w) (World.setWrapper str fuel w.next cb) := by
  intro v hv
  rcases hn : (v.obj w.next).node with _ | node
  · unfold World.setWrapper
    rw [run_get_bind, hn]; exact hv
  · cases node with
    | wrapOne s =>
      rw [setWrapper_one str fuel w.next s cb v hn, finally_state]
      exact assign_grown fuel cb _
        (((call_grown fuel s none).bind fun v => Keeps.lift _ _) v hv)
    | wrapMany ss =>
      rw [setWrapper_many str fuel w.next ss cb v hn, bind_apply]
      have hk : Grown a w (trialMany str fuel ss v).2 := by
        refine mapPyM_keeps ?_ v hv
        intro ke hke
        obtain ⟨ks, _, rfl⟩ := List.mem_map.1 hke
        exact (call_grown fuel ks.2 none).bind fun v => Keeps.pure _ _
      rcases hq : trialMany str fuel ss v with ⟨e | kw, w1⟩ <;> rw [hq] at hk
      · exact hk
      · dsimp only at hk ⊢
        rw [finally_state]
        exact assign_grown fuel cb _ hk
    | _ =>
      unfold World.setWrapper
      rw [run_get_bind, hn]; exact hv

theorem setAction_grown {a : Attrs R} {w : World R} (fuel : Nat) (cb : Callback R.G) :
    Keeps (Grown a w) (World.setAction str fuel w.next cb) := by
  intro w0 hw0
  unfold World.setAction
  rw [run_get_bind]
  rcases hn : (w0.obj w.next).node with _ | node
  · exact hw0
  · cases node with
    | basedOn src single =>
      have h1 : Grown a w (w0.upd w.next fun a => { a with wrapper := some cb }) :=
        hw0.update (fun a => { a with wrapper := some cb }) (fun _ => rfl) w0.entropy
      change Grown a w ((BasedOnFields.trial _ >>= fun args => PyM.finally_
        (PyM.lift (cb.tryMockCall args.1 args.2)) (reset fuel w.next)) _).2
      refine Keeps.bind (I := Grown a w) ?_ (fun args => ?_) _ h1
      · unfold BasedOnFields.trial sourceGroup
        dsimp only
        have hm : ∀ fs : List Ref, Keeps (Grown a w) (mapPyM
            (fun (f : SourceField (World R)) => do return (f.name, ← f.call)) (fs.map fun g =>
              { name := (w0.obj g).name
                previous := fun v => (v.obj g).cache
                multiValued := multiValued g
                call := call str fuel g none
                reset := reset fuel g
                seed := seed fuel g })) := by
          intro fs
          refine mapPyM_keeps fun f hf => ?_
          obtain ⟨g, _, rfl⟩ := List.mem_map.1 hf
          exact (call_grown fuel g none).bind fun v => Keeps.pure _ _
        rcases src with _ | ⟨x, _ | ⟨y, l⟩⟩
        · exact (hm []).bind fun _ => Keeps.pure _ _
        · exact (call_grown fuel x none).bind fun v => Keeps.pure _ _
        · exact (hm (x :: y :: l)).bind fun _ => Keeps.pure _ _
      · intro v hv'
        rw [finally_state]
        exact reset_grown fuel w.next _ hv'
    | _ => exact hw0

theorem newRng_grown {a : Attrs R} {w : World R} (s : Option Int) :
    Keeps (Grown a w) (newRng w.next s) := by
  intro v hv
  obtain ⟨g, e, h1, _⟩ := newRng_eq w.next s v
  rw [h1]
  exact hv.update (fun a => { a with rng := g }) (fun _ => rfl) e

/-! ### Constructors -/

theorem newWord_grown (fuel : Nat) (l c : Ref) (s : Option Int) (w : World R) :
    Grown { blank with node := some (.word l c), seed := s } w (World.newWord fuel l c s w).2 := by
  refine Keeps.bind (I := Grown _ w) (reset_grown fuel w.next) (fun _ => ?_) _ (Grown.alloc _ w)
  refine Keeps.bind ?_ fun _ => Keeps.pure _ _
  unfold updateWordNumUnique
  refine (unique_grown _).bind fun n => ?_
  exact Keeps.bind (fun _ h => h) fun v => (Keeps.lift _ _).bind fun m => setUnique_grown m

theorem newText_grown (fuel : Nat) (n wd sp : Ref) (s : Option Int) (w : World R) :
    Grown { blank with node := some (.text n wd sp), seed := s } w
      (World.newText fuel n wd (some sp) s w).2 := by
  refine Keeps.bind (I := Grown _ w) (reset_grown fuel w.next) (fun _ => ?_) _ (Grown.alloc _ w)
  refine Keeps.bind ?_ fun _ => Keeps.pure _ _
  unfold updateTextNumUnique
  refine (unique_grown _).bind fun n => (unique_grown _).bind fun n' => ?_
  exact Keeps.bind (fun _ h => h) fun v => (Keeps.lift _ _).bind fun m => setUnique_grown m

theorem newWrapOne_grown (fuel : Nat) (source : Ref) (cb : Callback R.G) (s : Option Int)
    (w : World R) : Grown { blank with node := some (.wrapOne source), seed := s } w
      (World.newWrapOne str fuel source cb s w).2 :=
  Keeps.bind (I := Grown _ w) (reset_grown fuel w.next)
    (fun _ => (setWrapper_grown fuel cb).bind fun _ => Keeps.pure _ _) _ (Grown.alloc _ w)

theorem newWrapMany_grown (fuel : Nat) (sources : Dict Ref) (cb : Callback R.G) (s : Option Int)
    (w : World R) : Grown { blank with node := some (.wrapMany sources), seed := s } w
      (World.newWrapMany str fuel sources cb s w).2 :=
  Keeps.bind (I := Grown _ w) (reset_grown fuel w.next)
    (fun _ => (setWrapper_grown fuel cb).bind fun _ => Keeps.pure _ _) _ (Grown.alloc _ w)

theorem newBasedOn_grown (fuel : Nat) (source : List Ref) (single : Bool) (cb : Callback R.G)
    (s : Option Int) (w : World R) :
    Grown { blank with node := some (.basedOn source single), seed := s } w
      (World.newBasedOnFields str fuel source single cb s w).2 :=
  Keeps.bind (I := Grown _ w) (newRng_grown s)
    (fun _ => (setAction_grown fuel cb).bind fun _ => Keeps.pure _ _) _ (Grown.alloc _ w)

theorem newField_grown (fuel : Nat) (name : String) (e rp g : Ref) (hide : Bool) (s : Option Int)
    (w : World R) : Grown { blank with node := some (.field name e rp g hide), seed := s } w
      (World.newField fuel name e (some rp) (some g) hide s w).2 :=
  Keeps.bind (I := Grown _ w) (reset_grown fuel w.next) (fun _ => Keeps.pure _ _) _
    (Grown.alloc _ w)

/-! ### Schemas -/

theorem document_kept (fuel : Nat) (fields : Dict Ref) (w : World R) :
    Kept w (World.document str fuel fields w).2 := by
  unfold World.document Schema.call
  rw [run_get_bind]
  have hl : ∀ (fs : Dict Ref) (doc : Dict Val), Keeps (Kept w)
      (Schema.loop (fun r => (w.obj r).hide) (fun r => World.call str fuel r none) doc fs) := by
    intro fs
    induction fs with
    | nil => exact fun doc => Keeps.pure _ _
    | cons kf fs ihf =>
      intro doc
      unfold Schema.loop
      refine Keeps.bind (fun v hv => hv.trans (call_kept str fuel kf.2 none v)) fun v => ?_
      split
      · exact ihf _
      · exact ihf _
  exact hl fields [] w (.refl w)

theorem resetFields_kept (fuel : Nat) (fields : Dict Ref) (w : World R) :
    Kept w (World.resetFields fuel fields w).2 := by
  rw [resetFields_eq]
  exact doMethod_keeps (I := Kept w) (fun c _ v hv => hv.trans (reset_kept fuel c v)) _ (.refl w)

theorem seedFields_kept (fuel : Nat) (s : Option Int) (fields : Dict Ref) (w : World R) :
    Kept w (World.seedFields fuel s fields w).2 := by
  rw [seedFields_eq]
  exact doMethod_keeps (I := Kept w) (fun c _ v hv => hv.trans (seed_kept fuel c s v)) _ (.refl w)

/-! ### Steps -/

/-- Child emitters are older than their parents, and there is nothing beyond the last object. -/
structure Grounded (w : World R) : Prop where
  beyond : ∀ x, w.next ≤ x → (w.obj x).node = none
  older : ∀ x, ∀ c ∈ (w.obj x).children, c < x

theorem Grounded.kept {w v : World R} (h : Grounded w) (hk : Kept w v) : Grounded v where
  beyond x hx := by rw [node_of_base (hk.base x)]; exact h.beyond x (hk.next ▸ hx)
  older x c hc := by
    unfold Attrs.children at hc
    rw [node_of_base (hk.base x)] at hc
    exact h.older x c hc

theorem Grounded.grown {a : Attrs R} {w v : World R} (h : Grounded w) (hg : Grown a w v)
    (ha : ∀ c ∈ a.children, c < w.next) : Grounded v where
  beyond x hx := by
    rw [hg.next] at hx
    rw [node_of_base (hg.base x (Nat.lt_of_succ_le hx).ne')]
    exact h.beyond x (Nat.le_of_succ_le hx)
  older x c hc := by
    unfold Attrs.children at hc
    by_cases hx : x = w.next
    · subst hx
      rw [node_of_base hg.new] at hc
      exact ha c hc
    · rw [node_of_base (hg.base x hx)] at hc
      exact h.older x c hc

theorem Src.some_of_next {α : Type} {s : Src α} {p : α × Src α} (h : s.next = some p) : s.Some := by
  rcases s with (_ | ⟨x, l⟩) | f
  · cases h
  · exact List.cons_ne_nil x l
  · trivial

/-- The outcome of a step: nothing new, or one new object whose child emitters exist
and which has something to iterate over. -/
theorem step_cases {w v : World R} (h : Step str w v) :
    Kept w v ∨ ∃ a, Grown a w v ∧ (∀ c ∈ a.children, c < w.next) ∧ a.numUnique = none ∧
      a.Fed := by
  cases h with
  | newStatic x => exact .inr ⟨_, .alloc _ w, by simp [Attrs.children, Node.childRefs], rfl, trivial⟩
  | newIterative f rac =>
    unfold World.newIterative
    rw [bind_apply, lift_apply]
    rcases hi : Iterative.init f rac with e | st
    · exact .inl (.refl w)
    · refine .inr ⟨_, .alloc _ w, by simp [Attrs.children, Node.childRefs], rfl, ?_⟩
      unfold Iterative.init Iterative.setFactory Iterative.checkIterFactory at hi
      rcases hs : f.src.next with _ | p <;> rw [hs] at hi <;> cases hi
      exact Src.some_of_next hs
  | newSequential kind items rac =>
    unfold World.newSequential
    rw [bind_apply, lift_apply]
    rcases hi : Sequential.init items rac with e | st
    · exact .inl (.refl w)
    · refine .inr ⟨_, .alloc _ w, by simp [Attrs.children, Node.childRefs], rfl, ?_⟩
      unfold Sequential.init at hi
      by_cases he : items.isEmpty = true
      · rw [if_pos he] at hi; cases hi
      · rw [if_neg he] at hi; cases hi
        exact fun h => he (by rw [h]; rfl)
  | newChoice kind items weights replace roac s cum =>
    unfold World.newChoice
    rcases (Choice.init items weights replace roac s cum : PyM Nat (ChoiceSt Val R)) w.entropy
      with ⟨x | st, e⟩
    · exact .inl ⟨rfl, fun _ => rfl, fun _ => rfl⟩
    · have := Grown.alloc ({ blank with node := some (.choice kind), choice := st } : Attrs R)
        { w with entropy := e }
      exact .inr ⟨_, ⟨this.next, this.base, this.unique, this.new⟩,
        by simp [Attrs.children, Node.childRefs], rfl, trivial⟩
  | newWord fuel s h1 h2 _ =>
    exact .inr ⟨_, newWord_grown fuel _ _ s w, by simp [Attrs.children, Node.childRefs, h1, h2], rfl, trivial⟩
  | newText fuel s h1 h2 h3 _ =>
    exact .inr ⟨_, newText_grown fuel _ _ _ s w,
      by simp [Attrs.children, Node.childRefs, h1, h2, h3], rfl, trivial⟩
  | newWrapOne fuel cb s h1 =>
    exact .inr ⟨_, newWrapOne_grown fuel _ cb s w, by simp [Attrs.children, Node.childRefs, h1], rfl, trivial⟩
  | newWrapMany fuel cb s h1 =>
    refine .inr ⟨_, newWrapMany_grown fuel _ cb s w, fun c hc => ?_, rfl, trivial⟩
    obtain ⟨ks, hks, rfl, trivial⟩ := List.mem_map.1 hc
    exact h1 ks hks
  | newCopyFields single sep _ =>
    exact .inr ⟨_, .alloc _ w, by simp [Attrs.children, Node.childRefs], rfl, trivial⟩
  | newBasedOnFields fuel single cb s _ =>
    exact .inr ⟨_, newBasedOn_grown fuel _ single cb s w,
      by simp [Attrs.children, Node.childRefs], rfl, trivial⟩
  | newField fuel name hide s h1 h2 h3 _ =>
    exact .inr ⟨_, newField_grown fuel name _ _ _ hide s w,
      by simp [Attrs.children, Node.childRefs, h1, h2, h3], rfl, trivial⟩
  | call fuel r arg _ => exact .inl (call_kept str fuel r arg w)
  | reset fuel r => exact .inl (reset_kept fuel r w)
  | seed fuel r s => exact .inl (seed_kept fuel r s w)
  | document fuel fields => exact .inl (document_kept fuel fields w)
  | resetFields fuel fields => exact .inl (resetFields_kept fuel fields w)
  | seedFields fuel s fields => exact .inl (seedFields_kept fuel s fields w)

theorem Step.grounded {w v : World R} (h : Step str w v) (hw : Grounded w) : Grounded v := by
  rcases step_cases h with hk | ⟨a, hg, ha, _, _⟩
  · exact hw.kept hk
  · exact hw.grown hg ha

theorem Steps.grounded {w v : World R} (h : Steps str w v) (hw : Grounded w) : Grounded v := by
  induction h with
  | start => exact hw
  | step _ h' ih => exact h'.grounded ih

theorem Grounded.blank {w : World R} (h : w.Blank) : Grounded w where
  beyond x _ := by rw [h x]; rfl
  older x c hc := by rw [h x] at hc; cases hc

/-! ### Possible values do not change -/

theorem Emits.mono {w v : World R} {n : Nat} (hb : ∀ x, x < n → (v.obj x).base = (w.obj x).base)
    (ho : ∀ x, ∀ c ∈ (w.obj x).children, c < x) {r : Ref} (hr : r < n) {x : Val}
    (h : Emits w r x) : Emits v r x := by
  have hch : ∀ {r c : Ref} {nd : Node}, (w.obj r).node = some nd → c ∈ Node.childRefs (some nd) →
      r < n → c < n := by
    intro r c nd h1 h2 h3
    have := ho r c (by unfold Attrs.children; rw [h1]; exact h2)
    exact lt_trans this h3
  induction h with
  | item hi hx => exact .item ((items_of_base (hb _ hr)).trans hi) hx
  | iter hn hx =>
    refine .iter ((node_of_base (hb _ hr)).trans hn) ?_
    rw [factory_of_base (hb _ hr)]; exact hx
  | word hn _ hl _ ih1 ih2 =>
    exact .word ((node_of_base (hb _ hr)).trans hn)
      (ih1 (hch hn (by simp [Node.childRefs]) hr)) hl
      fun x hx => ih2 x hx (hch hn (by simp [Node.childRefs]) hr)
  | wordNone hn _ _ he ih1 ih2 =>
    exact .wordNone ((node_of_base (hb _ hr)).trans hn)
      (ih1 (hch hn (by simp [Node.childRefs]) hr)) (ih2 (hch hn (by simp [Node.childRefs]) hr)) he
  | text hn _ hl _ _ ht ih1 ih2 ih3 =>
    exact .text ((node_of_base (hb _ hr)).trans hn)
      (ih1 (hch hn (by simp [Node.childRefs]) hr)) hl
      (fun x hx => ih2 x hx (hch hn (by simp [Node.childRefs]) hr))
      (fun x hx => ih3 x hx (hch hn (by simp [Node.childRefs]) hr)) ht
  | any ho x => exact .any ((isOpen_of_base (hb _ hr)).trans ho) x

theorem Emits.iff {w v : World R} {n : Nat} (hb : ∀ x, x < n → (v.obj x).base = (w.obj x).base)
    (hw : Grounded w) (hv : Grounded v) {r : Ref} (hr : r < n) {x : Val} :
    Emits v r x ↔ Emits w r x :=
  ⟨Emits.mono (fun x hx => (hb x hx).symm) hv.older hr, Emits.mono hb hw.older hr⟩

theorem Step.old {w v : World R} (h : Step str w v) :
    w.next ≤ v.next ∧ ∀ x, x < w.next →
      (v.obj x).base = (w.obj x).base ∧ (v.obj x).numUnique = (w.obj x).numUnique := by
  rcases step_cases h with hk | ⟨a, hg, _, _, _⟩
  · exact ⟨hk.next.ge, fun x _ => ⟨hk.base x, hk.unique x⟩⟩
  · exact ⟨by rw [hg.next]; exact Nat.le_succ _,
      fun x hx => ⟨hg.base x (Nat.ne_of_lt hx), hg.unique x (Nat.ne_of_lt hx)⟩⟩

theorem Steps.old {w v : World R} (h : Steps str w v) :
    w.next ≤ v.next ∧ ∀ x, x < w.next →
      (v.obj x).base = (w.obj x).base ∧ (v.obj x).numUnique = (w.obj x).numUnique := by
  induction h with
  | start => exact ⟨le_rfl, fun _ _ => ⟨rfl, rfl⟩⟩
  | step _ h' ih =>
    refine ⟨ih.1.trans h'.old.1, fun x hx => ?_⟩
    have h1 := h'.old.2 x (hx.trans_le ih.1)
    have h2 := ih.2 x hx
    exact ⟨h1.1.trans h2.1, h1.2.trans h2.2⟩

end Fauxdoc
