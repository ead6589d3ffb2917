import Verif.Proofs.Halt
import Verif.Proofs.Program
/-
Everything in the store comes to an end.
-/
set_option linter.unusedSectionVars false
namespace Fauxdoc
open PyM
variable {K : Type} [Field K] [LinearOrder K] [FloorRing K] [IsStrictOrderedRing K] {R : Rng K}

/-! ### Random numbers -/

theorem rands_halts {I : R.G → Prop} : ∀ n, Halts I (R.rands n)
  | 0 => Halts.pure _
  | n + 1 => fun g _ => by
    obtain ⟨us, g', h, _⟩ := rands_spec R (n + 1) g
    rw [h]; exact Ended.ok _

theorem choicesCum_halts (n : Nat) (cum : List K) (k : Int) (g : R.G) :
    Ended (R.choicesCum n cum k g).1 := by
  unfold Rng.choicesCum
  by_cases h : cum.length ≠ n
  · rw [if_pos h]; exact Ended.error ordinary_of
  · rw [if_neg h]
    rcases cum.getLast? with _ | t
    · exact Ended.error ordinary_of
    · change Ended ((if t ≤ 0 then _ else _ : PyM R.G (List Nat)) g).1
      by_cases ht : t ≤ 0
      · rw [if_pos ht]; exact Ended.error ordinary_of
      · rw [if_neg ht]
        obtain ⟨us, g', h, _⟩ := rands_spec R k.toNat g
        rw [bind_ok h]; exact Ended.ok _

theorem choicesUniform_halts (n : Nat) (k : Int) (g : R.G) :
    Ended (R.choicesUniform n k g).1 := by
  unfold Rng.choicesUniform
  obtain ⟨us, g', h, _⟩ := rands_spec R k.toNat g
  by_cases hn : n = 0 ∧ 0 < k
  · rw [if_pos hn]; exact Ended.error ordinary_of
  · rw [if_neg hn, bind_ok h]; exact Ended.ok _

theorem highKScores_halts : ∀ ws : List K, Halts (fun _ : R.G => True) (highKScores R ws)
  | [] => Halts.pure _
  | w :: ws => by
    refine Halts.bind' (fun g _ => Ended.ok _) (fun _ _ => trivial) fun u => ?_
    refine Halts.ite (fun _ => Halts.raise ordinary_of) fun _ => ?_
    refine Halts.ite (fun _ => Halts.raise ordinary_of) fun _ => ?_
    exact (highKScores_halts ws).bind' (fun _ _ => trivial) fun _ => Halts.pure _

theorem highK_halts (ws : List K) (k : Nat) (g : R.G) : Ended (highK R ws k g).1 :=
  (highKScores_halts ws).bind' (fun _ _ => trivial) (fun _ => Halts.pure _) g trivial

theorem weightedShuffle_none_halts (n : Nat) (ws : List K) (g : R.G) :
    Ended (weightedShuffle R n ws none g).1 := by
  unfold weightedShuffle
  dsimp only [Option.getD_none]
  by_cases h : n ≠ ws.length
  · rw [if_pos h]; exact Ended.error ordinary_of
  · rw [if_neg h]
    by_cases h1 : (n : Int) * 100 ≤ (n : Int) * 42
    · rw [if_pos h1]
      obtain rfl : n = 0 := by omega
      exact Ended.ok _
    · rw [if_neg h1]; exact highK_halts _ _ _

theorem weightedShuffle_halts (n : Nat) (ws : List K) (k : Int) (hk : 0 < k)
    (hnn : ∀ w ∈ ws, 0 ≤ w) (g : R.G) : Ended (weightedShuffle R n ws (some k) g).1 := by
  unfold weightedShuffle
  dsimp only [Option.getD_some]
  by_cases h : n ≠ ws.length
  · rw [if_pos h]; exact Ended.error ordinary_of
  · rw [if_neg h]
    push Not at h
    by_cases h1 : k * 100 ≤ (n : Int) * 42
    · rw [if_pos h1]
      have hne : ws ≠ [] := by
        rintro rfl
        simp at h
        omega
      rw [h]
      rcases lowK_total (R := R) (k := k) hne hnn (k.toNat + 1) g (LowInv.start ws) (by simpa using hk.le)
        (by simp) with ⟨_, ps, g', e⟩ | ⟨_, g', e⟩
      · rw [e]; exact Ended.ok _
      · rw [e]; exact Ended.error ordinary_of
    · rw [if_neg h1]; exact highK_halts _ _ _

/-! ### Choice -/

namespace Choice
section
variable {α : Type} [PyHash α]

/-- The weights are not negative. -/
def Mild (s : ChoiceSt α R × Nat) : Prop := ∀ ws, s.1.weights = some ws → ∀ x ∈ ws, 0 ≤ x

theorem onRng_bind_halts {β γ : Type} {m : PyM R.G β} {f : β → ChoiceM α R γ}
    (s : ChoiceSt α R × Nat) (h : Ended (m s.1.rng).1) (hf : ∀ b s, Ended (f b s).1) :
    Ended ((onRng m >>= f) s).1 := by
  rw [bind_apply]
  unfold onRng
  rcases hm : m s.1.rng with ⟨e | b, g⟩
  · rw [hm] at h; exact Ended.error (h e rfl)
  · exact hf _ _

theorem globalShuffle_halts (s : ChoiceSt α R × Nat) : Ended (globalShuffle s).1 := by
  unfold globalShuffle
  rw [self_bind]
  exact onRng_bind_halts s (weightedShuffle_none_halts _ _ _) fun b s => Ended.ok _

theorem newRng_halts (x : Option Int) (s : ChoiceSt α R × Nat) : Ended (newRng x s).1 := by
  unfold newRng
  cases x <;> exact Ended.ok _

theorem reset_halts (s : ChoiceSt α R × Nat) : Ended (reset s).1 := by
  unfold reset
  rw [self_bind]
  refine Halts.bind' (I := fun _ => True) (fun t _ => newRng_halts _ t) (fun _ _ => trivial)
    (fun _ => ?_) s trivial
  exact Halts.ite (fun _ t _ => globalShuffle_halts t) fun _ => Halts.pure _

theorem seed_halts (x : Option Int) (s : ChoiceSt α R × Nat) : Ended (seed x s).1 := by
  unfold seed
  refine Halts.bind' (I := fun _ => True) (fun t _ => Ended.ok _) (fun _ _ => trivial)
    (fun _ => ?_) s trivial
  refine Halts.bind' (fun t _ => newRng_halts _ t) (fun _ _ => trivial) fun _ => ?_
  refine Halts.bind' (fun t _ => Ended.ok _) (fun _ _ => trivial) fun c => ?_
  exact Halts.ite (fun _ t _ => globalShuffle_halts t) fun _ => Halts.pure _

theorem shuffledIndex_halts {I : ChoiceSt α R × Nat → Prop} :
    Halts I (shuffledIndex : ChoiceM α R Int) := by
  intro s hs
  unfold shuffledIndex
  rw [self_bind]
  rcases s.1.shuffledIndex with _ | i
  · exact Ended.error ordinary_of
  · exact Ended.ok _

theorem withReplacement_halts (n : Int) (s : ChoiceSt α R × Nat) :
    Ended (withReplacement n s).1 := by
  unfold withReplacement
  rw [self_bind]
  by_cases h1 : s.1.items.length = 1
  · rw [if_pos h1]; exact Ended.ok _
  · rw [if_neg h1]
    by_cases h2 : s.1.weights.isNone ∧ n = 1
    · rw [if_pos h2]
      refine onRng_bind_halts s ?_ fun b s => Ended.ok _
      unfold Rng.choice
      by_cases h : s.1.items.length = 0
      · rw [if_pos h]; exact Ended.error ordinary_of
      · rw [if_neg h]; exact Ended.ok _
    · rw [if_neg h2]
      rcases s.1.cumWeights with _ | cum
      · exact onRng_bind_halts s (choicesUniform_halts _ _ _) fun b s => Ended.ok _
      · exact onRng_bind_halts s (choicesCum_halts _ _ _ _) fun b s => Ended.ok _

theorem withoutReplacement_halts (n : Int) (s : ChoiceSt α R × Nat) (hs : Mild s)
    (hn : s.1.replace = true → 0 < n) : Ended (withoutReplacement n s).1 := by
  unfold withoutReplacement
  rw [self_bind]
  by_cases h1 : n > s.1.numUniqueItems
  · rw [if_pos h1]
    unfold raiseUniquenessViolation
    rw [self_bind]
    have ho : ∀ l : List α, (overAsked l).Ordinary := by
      intro l
      unfold overAsked
      split <;> exact ordinary_of
    refine Halts.ite (I := fun _ => True) (fun _ => ?_) (fun _ => Halts.raise (ho _)) s trivial
    exact shuffledIndex_halts.bind' (fun _ _ => trivial) fun _ => Halts.raise (ho _)
  · rw [if_neg h1]
    by_cases h2 : ¬ s.1.replace = true
    · rw [if_pos h2]
      refine Halts.bind' (I := fun _ => True) shuffledIndex_halts (fun _ _ => trivial)
        (fun i => ?_) s trivial
      refine Halts.ite (fun _ => ?_) fun _ t _ => Ended.ok _
      refine Halts.lift_bind (pyListGet_ended _ _) fun x _ => ?_
      exact fun t _ => Ended.ok _
    · rw [if_neg h2]
      push Not at h2
      rcases hw : s.1.weights with _ | ws
      · refine onRng_bind_halts s ?_ fun b s => Ended.ok _
        unfold Rng.samplePos
        by_cases h : 0 ≤ n ∧ n ≤ (s.1.items.length : Int)
        · rw [if_pos h]; exact Ended.ok _
        · rw [if_neg h]; exact Ended.error ordinary_of
      · exact onRng_bind_halts s (weightedShuffle_halts _ _ _ (hn h2) (hs ws hw) _)
          fun b s => Ended.ok _

theorem emit_halts : Halts (Mild (α := α) (R := R)) emit := by
  intro s hs
  unfold emit
  rw [self_bind]
  have hf : ∀ m : ChoiceM α R (List α), Ended (m s).1 → Ended ((m >>= first) s).1 := by
    intro m hm
    rcases h : m s with ⟨e | l, t⟩
    · rw [h] at hm; rw [bind_err h]; exact Ended.error (hm e rfl)
    · rw [bind_ok h]; exact pyListGet_ended l 0
  by_cases h : ¬ s.1.replace = true
  · rw [if_pos h]; exact hf _ (withoutReplacement_halts 1 s hs fun _ => by omega)
  · rw [if_neg h]; exact hf _ (withReplacement_halts 1 s)

theorem emitMany_halts (n : Int) : Halts (Mild (α := α) (R := R)) (emitMany n) := by
  intro s hs
  unfold emitMany
  rw [self_bind]
  by_cases h : ¬ s.1.replace = true ∨ (s.1.roac = true ∧ n > 1)
  · rw [if_pos h]
    refine withoutReplacement_halts n s hs fun hr => ?_
    rcases h with h | h
    · exact absurd hr h
    · omega
  · rw [if_neg h]; exact withReplacement_halts n s

end

theorem pyLenSet_halts {α : Type} [DecidableEq α] [PyHash α] (l : List α) : Ended (pyLenSet l) := by
  obtain ⟨n, h⟩ | h := pyLenSet_ended l <;> rw [h]
  · exact Ended.ok _
  · exact Ended.error ordinary_of

theorem roacInfo_halts (s : ChoiceSt Val R × Nat) : Ended (roacInfo s).1 := by
  unfold roacInfo
  rw [self_bind]
  refine Halts.ite (I := fun _ => True) (fun _ => ?_) (fun _ => Halts.pure _) s trivial
  refine Halts.bind' (fun t _ => ?_) (fun _ _ => trivial) fun _ => Halts.pure _
  unfold numUniqueValues
  rw [self_bind]
  refine Halts.ite (I := fun _ => True) (fun _ => ?_) (fun _ _ _ => pyLenSet_halts _) t trivial
  exact shuffledIndex_halts.bind' (fun _ _ => trivial) fun _ _ _ => pyLenSet_halts _

end Choice

/-! ### The store -/

namespace World
variable {V : Ref → Val → Prop} {P : Ref → Prop} {depth : Ref → Nat}

/-- Only seeds, generators, positions and last values may differ. -/
def Alike (w v : World R) : Prop := ∀ x, (v.obj x).shape = (w.obj x).shape

theorem call_alike (str : Val → List Char) (w : World R) (fuel : Nat) (r : Ref) (arg : Option Val) :
    Keeps (Alike w) (call str fuel r arg) := by
  intro v hv x
  have := call_frame str fuel r arg (fun _ => True) v (fun _ _ _ _ => trivial) trivial v
    (Frame.refl _ v)
  exact (shape_of_config (this.config x)).trans (hv x)

theorem reset_alike (w : World R) (fuel : Nat) (r : Ref) : Keeps (Alike w) (reset fuel r) := by
  intro v hv x
  have := reset_frame fuel r (fun _ => True) v (fun _ _ _ _ => trivial) trivial
  exact (this.shape x).trans (hv x)

theorem seed_alike (w : World R) (fuel : Nat) (r : Ref) (s : Option Int) :
    Keeps (Alike w) (seed fuel r s) := by
  intro v hv x
  have := (shapeFrame_steps (fun _ => True) s v (fun _ _ _ _ => trivial)).seed fuel r trivial v v
    ⟨rfl, .refl _ v⟩
  exact (this.2.2.shape x).trans (hv x)

theorem weights_of_shape {a b : Attrs R} (h : b.shape = a.shape) :
    b.choice.weights = a.choice.weights := by
  have h1 : ∀ a : Attrs R, a.shape.choice.weights = a.choice.weights := by
    intro a
    unfold Attrs.shape
    split <;> first | rfl | (unfold ChoiceSt.config; dsimp only; split <;> rfl)
  rw [← h1 b, h, h1]

theorem tame_of_shape {a b : Attrs R} (h : b.shape = a.shape) (ha : a.Tame) : b.Tame := by
  unfold Attrs.Tame at ha ⊢
  rw [node_of_shape h, weights_of_shape h, wrapper_of_shape h]
  exact ha

theorem fed_of_base {a b : Attrs R} (h : b.base = a.base) (ha : a.Fed) : b.Fed := by
  unfold Attrs.Fed at ha ⊢
  rw [node_of_base h, factory_of_base h, seqFactory_of_base h]
  exact ha

theorem EndsOn.alike {w v : World R} (h : EndsOn P depth w) (hv : Alike w v) : EndsOn P depth v := by
  intro r hr
  obtain ⟨h1, h2, h3⟩ := h r hr
  refine ⟨tame_of_shape (hv r) h1, fed_of_base (base_of_shape (hv r)) h2, ?_⟩
  unfold Attrs.children at h3 ⊢
  rw [node_of_shape (hv r)]
  exact h3

theorem onChoice_ended {β : Type} {r : Ref} {m : ChoiceM Val R β} {w : World R}
    (h : Ended (m ((w.obj r).choice, w.entropy)).1) : Ended (onChoice r m w).1 := h

theorem newRng_ended (r : Ref) (s : Option Int) (w : World R) : Ended (newRng r s w).1 := by
  unfold newRng
  cases s <;> exact Ended.ok _

theorem setChildSeeds_ended (cs : List Ref) (s : Option Int) (w : World R) :
    Ended (setChildSeeds cs s w).1 := by
  refine Halts.forEach (I := fun _ => True) (fun b _ => ?_) (fun _ _ _ _ => trivial) w trivial
  rcases b with _ | c
  · exact Halts.pure _
  · intro v _
    dsimp only
    rw [run_get_bind]
    exact Halts.ite (I := fun _ => True) (fun _ => Halts.modify _) (fun _ => Halts.pure _) v trivial

theorem doMethod_halts {I : World R → Prop} {cs : List Ref} {f : Ref → PyM (World R) Unit}
    (h : ∀ c ∈ cs, Halts I (f c)) (hk : ∀ c ∈ cs, Keeps I (f c)) :
    Halts I (Group.doMethod (cs.map some) f) := by
  refine Halts.forEach (fun b hb => ?_) fun b hb => ?_ <;>
    obtain ⟨c, hc, rfl⟩ := List.mem_map.1 hb
  · exact (h c hc).ignoring
  · exact Keeps.ignoring (hk c hc)

/-- The classes and references of the objects are as given. -/
def NodesAs (nodes : Ref → Option Node) (w : World R) : Prop := ∀ x, (w.obj x).node = nodes x

variable {nodes : Ref → Option Node}

theorem nodesAs_upd {w : World R} (h : NodesAs nodes w) (r : Ref) (f : Attrs R → Attrs R) (e : Nat)
    (hf : (f (w.obj r)).node = (w.obj r).node) : NodesAs nodes { w.upd r f with entropy := e } := by
  intro x
  rw [obj_entropy, upd_obj]
  by_cases hx : x = r
  · rw [if_pos hx, hf, hx]; exact h r
  · rw [if_neg hx]; exact h x

theorem reset_nodes (fuel : Nat) (r : Ref) : Keeps (NodesAs (R := R) nodes) (reset fuel r) :=
  fun w hw x => (node_of_shape (reset_alike w fuel r w (fun _ => rfl) x)).trans (hw x)

theorem seed_nodes (fuel : Nat) (r : Ref) (s : Option Int) :
    Keeps (NodesAs (R := R) nodes) (seed fuel r s) :=
  fun w hw x => (node_of_shape (seed_alike w fuel r s w (fun _ => rfl) x)).trans (hw x)

theorem newRng_nodes (r : Ref) (s : Option Int) : Keeps (NodesAs (R := R) nodes) (newRng r s) := by
  intro w hw
  obtain ⟨g, e, h, _⟩ := newRng_eq r s w
  rw [h]
  exact nodesAs_upd hw r _ e rfl

theorem setChildSeeds_nodes (cs : List Ref) (s : Option Int) :
    Keeps (NodesAs (R := R) nodes) (setChildSeeds cs s) := by
  unfold setChildSeeds Group.setattr
  refine Keeps.forEach fun b hb => ?_
  rcases b with _ | c
  · exact Keeps.pure _ _
  · refine fun w hw => ?_
    dsimp only
    rw [run_get_bind]
    by_cases h : (w.obj c).random = true
    · rw [if_pos h]
      exact nodesAs_upd hw c _ w.entropy (setSeed_node _ _)
    · rw [if_neg h]; exact hw

/-- No object of `P` is below itself. -/
def Ranked (P : Ref → Prop) (depth : Ref → Nat) (nodes : Ref → Option Node) : Prop :=
  ∀ r, P r → ∀ c ∈ Node.childRefs (nodes r), P c ∧ depth c < depth r

theorem mixinReset_halts {f : Ref → PyM (World R) Unit} {r : Ref}
    (hf : ∀ c ∈ Node.childRefs (nodes r), Halts (NodesAs nodes) (f c) ∧ Keeps (NodesAs nodes) (f c)) :
    Halts (NodesAs nodes) (mixinReset f r) ∧ Keeps (NodesAs nodes) (mixinReset f r) := by
  have hc : ∀ w : World R, NodesAs nodes w → (w.obj r).children = Node.childRefs (nodes r) :=
    fun w hw => by unfold Attrs.children; rw [hw r]
  constructor <;> intro w hw <;> unfold mixinReset <;> rw [run_get_bind, hc w hw]
  · refine Halts.bind' (I := NodesAs nodes) (fun v _ => setChildSeeds_ended _ _ v)
      (setChildSeeds_nodes _ _) (fun _ => ?_) w hw
    refine Halts.bind' (fun v _ => newRng_ended _ _ v) (newRng_nodes _ _) fun _ => ?_
    exact doMethod_halts (fun c hc => (hf c hc).1) fun c hc => (hf c hc).2
  · refine Keeps.bind (I := NodesAs nodes) (setChildSeeds_nodes _ _) (fun _ => ?_) w hw
    exact (newRng_nodes _ _).bind fun _ => doMethod_keeps fun c hc => (hf c hc).2

theorem reset_halts (hR : Ranked P depth nodes) : ∀ (fuel : Nat) (r : Ref), P r → depth r < fuel →
    Halts (NodesAs (R := R) nodes) (reset fuel r) := by
  intro fuel
  induction fuel with
  | zero => intro r _ h; exact absurd h (Nat.not_lt_zero _)
  | succ fuel ih =>
    intro r hr hd w hw
    have hkids : ∀ c ∈ Node.childRefs (nodes r), Halts (NodesAs (R := R) nodes) (reset fuel c) ∧
        Keeps (NodesAs (R := R) nodes) (reset fuel c) := fun c hc =>
      ⟨ih c (hR r hr c hc).1 ((hR r hr c hc).2.trans_le (Nat.le_of_lt_succ hd)), reset_nodes fuel c⟩
    have hmix := mixinReset_halts hkids
    have htwice : Halts (NodesAs nodes) (do
        mixinReset (reset fuel) r
        let a := (← PyM.get).obj r
        setChildSeeds a.children a.seed
        Group.doMethod (a.children.map some) (reset fuel) : PyM (World R) Unit) := by
      refine hmix.1.bind' hmix.2 fun _ v hv => ?_
      rw [run_get_bind]
      have hc : (v.obj r).children = Node.childRefs (nodes r) := by
        unfold Attrs.children; rw [hv r]
      rw [hc]
      refine Halts.bind' (I := NodesAs nodes) (fun v _ => setChildSeeds_ended _ _ v)
        (setChildSeeds_nodes _ _) (fun _ => ?_) v hv
      exact doMethod_halts (fun c hc => (hkids c hc).1) fun c hc => (hkids c hc).2
    unfold reset
    rw [run_get_bind]
    rcases hn : (w.obj r).node with _ | node
    · exact Ended.error ordinary_of
    · cases node with
      | choice k => exact onChoice_ended (Choice.reset_halts _)
      | static => exact Ended.ok _
      | iterative => exact Ended.ok _
      | sequential k => exact Ended.ok _
      | word l c => exact htwice w hw
      | text n wd s => exact htwice w hw
      | wrapOne s => exact hmix.1 w hw
      | wrapMany ss => exact hmix.1 w hw
      | copyFields a b c => exact Ended.ok _
      | basedOn a b => exact newRng_ended _ _ w
      | field n e rp g h =>
        exact hmix.1.bind' hmix.2 (fun _ v _ => Ended.ok _) w hw

theorem seed_halts (hR : Ranked P depth nodes) : ∀ (fuel : Nat) (r : Ref) (s : Option Int), P r →
    depth r < fuel → Halts (NodesAs (R := R) nodes) (seed fuel r s) := by
  intro fuel
  induction fuel with
  | zero => intro r s _ h; exact absurd h (Nat.not_lt_zero _)
  | succ fuel ih =>
    intro r s hr hd w hw
    have hkids : ∀ c ∈ Node.childRefs (nodes r), ∀ s, Halts (NodesAs (R := R) nodes) (seed fuel c s) :=
      fun c hc s => ih c s (hR r hr c hc).1 ((hR r hr c hc).2.trans_le (Nat.le_of_lt_succ hd))
    have hown : Halts (NodesAs (R := R) nodes) (mixinSeed r s) ∧
        Keeps (NodesAs (R := R) nodes) (mixinSeed r s) := by
      constructor <;> intro v hv <;> unfold mixinSeed <;> rw [run_modify_bind]
      · exact newRng_ended _ _ _
      · exact newRng_nodes r s _ (nodesAs_upd hv r (fun a => { a with seed := s }) v.entropy rfl)
    have hc : ∀ w : World R, NodesAs nodes w → (w.obj r).children = Node.childRefs (nodes r) :=
      fun w hw => by unfold Attrs.children; rw [hw r]
    have hmix : Halts (NodesAs (R := R) nodes) (mixinChildSeed (seed fuel) r s) ∧
        Keeps (NodesAs (R := R) nodes) (mixinChildSeed (seed fuel) r s) := by
      constructor <;> intro v hv <;> unfold mixinChildSeed <;> rw [run_get_bind, hc v hv]
      · refine Halts.bind' (I := NodesAs nodes) (doMethod_halts (fun c hc => hkids c hc s)
          fun c _ => seed_nodes fuel c s) (doMethod_keeps fun c _ => seed_nodes fuel c s)
          (fun _ => hown.1.ignoring) v hv
      · exact Keeps.bind (I := NodesAs nodes) (doMethod_keeps fun c _ => seed_nodes fuel c s)
          (fun _ => Keeps.ignoring hown.2) v hv
    have htwice : Halts (NodesAs nodes) (do
        mixinChildSeed (seed fuel) r s
        let a := (← PyM.get).obj r
        Group.doMethod (a.children.map some) (seed fuel · a.seed) : PyM (World R) Unit) := by
      refine hmix.1.bind' hmix.2 fun _ v hv => ?_
      rw [run_get_bind, hc v hv]
      exact doMethod_halts (fun c hc => hkids c hc _) (fun c _ => seed_nodes fuel c _) v hv
    unfold seed
    rw [run_get_bind]
    rcases hn : (w.obj r).node with _ | node
    · exact Ended.error ordinary_of
    · cases node with
      | choice k => exact onChoice_ended (Choice.seed_halts _ _)
      | static => exact Ended.error ordinary_of
      | iterative => exact Ended.error ordinary_of
      | sequential k => exact Ended.error ordinary_of
      | copyFields a b c => exact Ended.error ordinary_of
      | word l c => exact htwice w hw
      | text n wd s => exact htwice w hw
      | wrapOne s => exact hmix.1 w hw
      | wrapMany ss => exact hmix.1 w hw
      | basedOn a b => exact hown.1 w hw
      | field n e rp g h => exact hmix.1 w hw

/-- The objects keep their promises and are like those of `w0`. -/
def HaltInv (V : Ref → Val → Prop) (P : Ref → Prop) (w0 w : World R) : Prop :=
  TypedOn V P w ∧ Alike w0 w

theorem EndsOn.ranked {w : World R} (h : EndsOn P depth w) :
    Ranked P depth fun x => (w.obj x).node := fun r hr => (h r hr).2.2

theorem alike_upd {w0 v : World R} (h : Alike w0 v) (r : Ref) (f : Attrs R → Attrs R)
    (hf : (f (v.obj r)).shape = (v.obj r).shape) : Alike w0 (v.upd r f) := by
  intro x
  rw [upd_obj]
  by_cases hx : x = r
  · rw [if_pos hx, hf, hx]; exact h r
  · rw [if_neg hx]; exact h x

theorem HaltInv.and {w0 : World R} {β : Type} {m : PyM (World R) β} {Q : β → Prop}
    (h1 : Ensures (TypedOn V P) m Q) (h2 : Keeps (Alike w0) m) : Ensures (HaltInv V P w0) m Q :=
  fun w hw => ⟨⟨(h1 w hw.1).1, h2 w hw.2⟩, (h1 w hw.1).2⟩

theorem reset_haltInv {w0 : World R} (fuel : Nat) {r : Ref} (hr : P r) :
    Keeps (HaltInv V P w0) (reset fuel r) :=
  fun w hw => ⟨reset_typed fuel r hr w hw.1, reset_alike w0 fuel r w hw.2⟩

theorem Alike.nodesAs {w0 w : World R} (h : Alike w0 w) : NodesAs (fun x => (w0.obj x).node) w :=
  fun x => node_of_shape (h x)

theorem roacInfo_same (r : Ref) (w : World R) : (roacInfo r w).2 = w := by
  unfold roacInfo
  rw [run_get_bind]
  rcases hn : (w.obj r).node with _ | node
  · rfl
  · cases node with
    | choice k =>
      have h := Choice.roacInfo_state ((w.obj r).choice, w.entropy)
      change (onChoice r Choice.roacInfo w).2 = w
      unfold onChoice
      rcases hq : Choice.roacInfo ((w.obj r).choice, w.entropy) with ⟨x, c, e⟩
      rw [hq] at h
      cases h
      dsimp only
      have : w.upd r (fun a => { a with choice := (w.obj r).choice }) = w := by
        unfold upd
        have : (fun x => if x = r then ({ w.obj r with choice := (w.obj r).choice } : Attrs R)
            else w.obj x) = w.obj := by
          funext x
          by_cases hx : x = r
          · rw [if_pos hx, hx]
          · rw [if_neg hx]
        rw [this]
      rw [this]
    | _ => rfl

theorem call_halts (str : Val → List Char) {w0 : World R} (h0 : EndsOn P depth w0) :
    ∀ (fuel : Nat) (r : Ref), P r → depth r < fuel →
    HaltsAs (HaltInv V P w0) (call str fuel r) (V r) := by
  intro fuel
  induction fuel with
  | zero => intro r _ h; exact absurd h (Nat.not_lt_zero _)
  | succ fuel ih =>
    intro r hr hd
    refine ⟨fun arg ha => HaltInv.and (call_typed str _ r hr arg ha) (call_alike str w0 _ r arg), ?_⟩
    intro arg ha w hw
    unfold call
    rw [run_get_bind]
    obtain ⟨htame, hfed, hkids⟩ := EndsOn.alike h0 hw.2 r hr
    obtain ⟨ht, -⟩ := hw.1 r hr
    have hk : ∀ c ∈ (w.obj r).children, HaltsAs (HaltInv V P w0) (call str fuel c) (V c) :=
      fun c hc => ih c (hkids c hc).1 ((hkids c hc).2.trans_le (Nat.le_of_lt_succ hd))
    unfold Attrs.Typed at ht
    unfold Attrs.Tame at htame
    unfold Attrs.Fed at hfed
    unfold Attrs.children at hk hkids
    have hsh : ∀ v, HaltInv V P w0 v → (v.obj r).node = (w.obj r).node := fun v hv => by
      rw [node_of_shape (hv.2 r), node_of_shape (hw.2 r)]
    have hrng : (∀ (a : Attrs R) (g : R.G), a.node = (w.obj r).node →
          ({ a with rng := g } : Attrs R).shape = a.shape) →
        ∀ (v : World R) (g : R.G), HaltInv V P w0 v → HaltInv V P w0 ((rngAttr r).set g v) :=
      fun hs v g hv => ⟨typed_upd' hv.1 r (fun a => { a with rng := g }) rfl fun _ h => typed_rng g h,
        alike_upd hv.2 r (fun a => { a with rng := g }) (hs _ g (hsh v hv))⟩
    rcases hn : (w.obj r).node with _ | node
    · exact Ended.error ordinary_of
    · rw [hn] at ht htame hfed hk hkids hrng
      cases node with
      | choice k =>
        refine onChoice_ended (emitterCallOr_halts (I := Choice.Mild) (fun v _ _ s _ => by
          obtain ⟨e, he, h, _⟩ := Choice.emitBad_run v s.1
          rw [h s.2]
          exact Ended.error (by rcases he with rfl | rfl | rfl <;> exact ordinary_of)) Choice.emit_halts
          (fun n _ _ => Choice.emitMany_halts n) ha _ ?_)
        exact htame
      | static =>
        exact attr_halts (I := HaltInv V P w0) (J := fun _ => True) (fun _ _ => trivial)
          (fun _ => Halts.raise ordinary_of) (fun _ _ => Ended.ok _) (fun _ _ _ => Ended.ok _) ha w hw
      | iterative =>
        refine attr_halts (I := fun v => v = w) (J := Iterative.FedSt) ?_
          (fun _ => Halts.raise ordinary_of) Iterative.emit_halts Iterative.emitMany_halts ha w rfl
        rintro v rfl
        exact hfed
      | sequential k =>
        refine attr_halts (I := fun v => v = w) (J := fun s => Iterative.FedSt s.it) ?_
          (fun _ => Halts.raise ordinary_of) (fun s hs => Iterative.emit_halts s.it hs) (fun n s hs => Iterative.emitMany_halts n s.it hs)
          ha w rfl
        rintro v rfl
        exact hfed
      | word l c =>
        exact Word.halts (hk l (by simp [Node.childRefs])) (hk c (by simp [Node.childRefs])) ht.2 ha w hw
      | text n wd s =>
        have hwd := hk wd (by simp [Node.childRefs])
        have hp := hkids wd (by simp [Node.childRefs])
        refine Text.halts (P := V wd) (hk n (by simp [Node.childRefs])) ⟨⟨hwd.contract,
          reset_haltInv fuel hp.1, ?_⟩, hwd.halts, ?_, ?_⟩ (hk s (by simp [Node.childRefs])) ht.2 ha w hw
        · refine HaltInv.and ?_ ?_
          · refine Ensures.get_bind fun v hv => ?_
            rcases hnv : (v.obj wd).node with _ | node
            · exact ⟨hv, fun a ha => by cases ha; simp⟩
            · cases node with
              | choice k =>
                refine onChoice_ensures hv hnv hp.1 fun s hs => ?_
                refine ⟨?_, fun r h D hD => Choice.roacInfo_ensures s r h D hD⟩
                rw [Choice.roacInfo_state]; exact hs
              | _ => exact ⟨hv, fun a ha => by cases ha; simp⟩
          · intro v hv
            rw [roacInfo_same]; exact hv
        · exact fun v hv => reset_halts (EndsOn.ranked h0) fuel wd hp.1 (hp.2.trans_le (Nat.le_of_lt_succ hd)) v
            hv.2.nodesAs
        · intro v _
          change Ended (roacInfo wd v).1
          unfold roacInfo
          rw [run_get_bind]
          rcases (v.obj wd).node with _ | node
          · exact Ended.ok _
          · cases node with
            | choice k => exact onChoice_ended (Choice.roacInfo_halts _)
            | _ => exact Ended.ok _
      | wrapOne s =>
        rcases hwr : (w.obj r).wrapper with _ | cb
        · exact Ended.error ordinary_of
        · refine WrapOne.halts (hrng fun a g h => ?_) (hk s (by simp [Node.childRefs])) (htame cb hwr) ha
            w hw
          unfold Attrs.shape; dsimp only; rw [h]
      | wrapMany ss =>
        rcases hwr : (w.obj r).wrapper with _ | cb
        · exact Ended.error ordinary_of
        · refine WrapMany.halts (hrng fun a g h => ?_) (fun kc hkc => ?_) (htame cb hwr) ha w hw
          · unfold Attrs.shape; dsimp only; rw [h]
          · obtain ⟨ks, hks, rfl⟩ := List.mem_map.1 hkc
            exact ⟨_, hk ks.2 (by simp only [Node.childRefs]; exact List.mem_map_of_mem hks)⟩
      | copyFields src single sep => exact CopyFields.halts str _ sep ha w hw
      | basedOn src single =>
        rcases hwr : (w.obj r).wrapper with _ | cb
        · exact Ended.error ordinary_of
        · refine BasedOnFields.halts (hrng fun a g h => ?_) _ (htame cb hwr) ha w hw
          unfold Attrs.shape; dsimp only; rw [h]
      | field n e rp g h =>
        cases arg with
        | some v => exact Ended.error ordinary_of
        | none =>
          exact Field.halts (hk e (by simp [Node.childRefs])) (hk rp (by simp [Node.childRefs]))
            (hk g (by simp [Node.childRefs])) ht.2 w hw

end World
end Fauxdoc
