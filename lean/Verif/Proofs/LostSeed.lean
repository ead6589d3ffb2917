import Verif.Proofs.SeedLaws
/-
Two stores side by side that use the same random bits of the operating system: resetting an object
makes everything below it the same, with or without a seed.
-/
set_option linter.unusedSectionVars false
namespace Fauxdoc
open PyM
variable {K : Type} [Field K] [LinearOrder K] [FloorRing K] {R : Rng K}

/-! ### `Choice` -/

namespace Choice
variable {α : Type} [PyHash α]

theorem config_replace {c : ChoiceSt α R} (h : c.replace = true) :
    c.config = { c with rng := R.ofSeed 0 } := by unfold ChoiceSt.config; rw [if_pos h]

theorem config_norepl {c : ChoiceSt α R} (h : c.replace = false) : c.config =
    { c with shuffled := [], shuffledIndex := none, numUniqueItems := 0, rng := R.ofSeed 0 } := by
  unfold ChoiceSt.config; rw [if_neg (by simp [h])]

/-- Where the generator of a reset comes from. -/
theorem reset_new (c : ChoiceSt α R) (e : Nat) : ∃ g e', R.new c.rngSeed e = (.ok g, e') ∧
    reset (c, e) = if c.replace then (.ok ⟨⟩, ({ c with rng := g }, e'))
      else globalShuffle ({ c with rng := g }, e') := by
  have hn : ∃ g e', R.new c.rngSeed e = (.ok g, e') := by
    cases c.rngSeed with
    | none => exact ⟨_, _, rfl⟩
    | some y => exact ⟨_, _, rfl⟩
  obtain ⟨g, e', h⟩ := hn
  refine ⟨g, e', h, ?_⟩
  have h1 : newRng c.rngSeed (c, e) = (.ok ⟨⟩, ({ c with rng := g }, e')) := by
    unfold newRng; dsimp only; rw [h]
  unfold reset
  simp only [self_bind]
  rw [PyM.bind_ok h1]
  by_cases hb : c.replace = true
  · rw [if_pos hb, if_neg (by simp [hb])]; rfl
  · rw [if_neg hb, if_pos hb]

/-- Resetting two objects of the same configuration and seed with the same random bits. -/
theorem reset_pair {c d : ChoiceSt α R} (h : Alike c d) (hs : c.rngSeed = d.rngSeed) (e : Nat) :
    (reset (c, e)).1 = (reset (d, e)).1 ∧ (reset (c, e)).2.2 = (reset (d, e)).2.2 ∧
    ((reset (c, e)).1 = .ok () → (reset (c, e)).2.1 = (reset (d, e)).2.1) := by
  obtain ⟨g, e', h1, h2⟩ := reset_new c e
  obtain ⟨g2, e2, h3, h4⟩ := reset_new d e
  rw [← hs, h1] at h3
  cases h3
  have hre := h.replace
  have hi := h.items
  have hsw := h.shufWeights
  unfold Alike at h
  rw [h2, h4]
  by_cases hr : c.replace = true
  · have hr' := hre.symm.trans hr
    rw [if_pos hr, if_pos hr']
    rw [config_replace hr, config_replace hr'] at h
    refine ⟨rfl, rfl, fun _ => ?_⟩
    obtain ⟨c1, c2, c3, c4, c5, c6, c7, c8, c9, c10⟩ := c
    obtain ⟨d1, d2, d3, d4, d5, d6, d7, d8, d9, d10⟩ := d
    simp only [ChoiceSt.mk.injEq] at h ⊢
    simp only at hs
    simp_all
  · have hr0 : c.replace = false := by simpa using hr
    have hr' := hre.symm.trans hr0
    rw [if_neg hr, if_neg (by simp [hr']), globalShuffle_run, globalShuffle_run]
    rw [config_norepl hr0, config_norepl hr'] at h
    have e1 : shufWeights ({ c with rng := g } : ChoiceSt α R) = shufWeights c := rfl
    have e2 : shufWeights ({ d with rng := g } : ChoiceSt α R) = shufWeights d := rfl
    dsimp only
    rw [e1, e2, ← hsw, ← hi]
    rcases weightedShuffle R c.items.length (shufWeights c) none g with ⟨x | ps, g'⟩
    · exact ⟨rfl, rfl, fun h => by cases h⟩
    · refine ⟨rfl, rfl, fun _ => ?_⟩
      obtain ⟨c1, c2, c3, c4, c5, c6, c7, c8, c9, c10⟩ := c
      obtain ⟨d1, d2, d3, d4, d5, d6, d7, d8, d9, d10⟩ := d
      simp only [ChoiceSt.mk.injEq] at h ⊢
      simp only at hs
      simp_all

end Choice

namespace World
variable {nodes : Ref → Option Node} {P X G T : Ref → Prop} {s : Option Int}

/-- Two stores in which the objects in `P` have the same shapes (with classes `nodes`), those in `X`
are the same, those in `G` have the same generator, and the same random bits are left. -/
structure InStep (nodes : Ref → Option Node) (P X G : Ref → Prop) (w v : World R) : Prop where
  left : ∀ x, P x → (w.obj x).node = nodes x
  right : ∀ x, P x → (v.obj x).node = nodes x
  shape : ∀ x, P x → (w.obj x).shape = (v.obj x).shape
  same : ∀ x, X x → w.obj x = v.obj x
  gen : ∀ x, G x → (w.obj x).rng = (v.obj x).rng
  entropy : w.entropy = v.entropy

theorem InStep.upd {w v : World R} (h : InStep nodes P X G w v) (r : Ref) {f g : Attrs R → Attrs R}
    (hf : (f (w.obj r)).node = (w.obj r).node) (hg : (g (v.obj r)).node = (v.obj r).node)
    (hs : P r → (f (w.obj r)).shape = (g (v.obj r)).shape) (hX : X r → f (w.obj r) = g (v.obj r))
    (hG : G r → (f (w.obj r)).rng = (g (v.obj r)).rng) {e e' : Nat} (he : e = e') :
    InStep nodes P X G { w.upd r f with entropy := e } { v.upd r g with entropy := e' } where
  left x hx := by
    change ((w.upd r f).obj x).node = _
    rw [upd_obj]
    by_cases hxr : x = r
    · subst hxr; rw [if_pos rfl, hf]; exact h.left x hx
    · rw [if_neg hxr]; exact h.left x hx
  right x hx := by
    change ((v.upd r g).obj x).node = _
    rw [upd_obj]
    by_cases hxr : x = r
    · subst hxr; rw [if_pos rfl, hg]; exact h.right x hx
    · rw [if_neg hxr]; exact h.right x hx
  shape x hx := by
    change ((w.upd r f).obj x).shape = ((v.upd r g).obj x).shape
    rw [upd_obj, upd_obj]
    by_cases hxr : x = r
    · subst hxr; rw [if_pos rfl, if_pos rfl]; exact hs hx
    · rw [if_neg hxr, if_neg hxr]; exact h.shape x hx
  same x hxx := by
    change (w.upd r f).obj x = (v.upd r g).obj x
    rw [upd_obj, upd_obj]
    by_cases hxr : x = r
    · subst hxr; rw [if_pos rfl, if_pos rfl]; exact hX hxx
    · rw [if_neg hxr, if_neg hxr]; exact h.same x hxx
  gen x hx := by
    change ((w.upd r f).obj x).rng = ((v.upd r g).obj x).rng
    rw [upd_obj, upd_obj]
    by_cases hxr : x = r
    · subst hxr; rw [if_pos rfl, if_pos rfl]; exact hG hx
    · rw [if_neg hxr, if_neg hxr]; exact h.gen x hx
  entropy := he

/-- The same bits make the same generator. -/
theorem newRng_pair (r : Ref) (s : Option Int) (w v : World R) (h : w.entropy = v.entropy) :
    ∃ g e, newRng r s w = (.ok (), { w.upd r (fun a => { a with rng := g }) with entropy := e }) ∧
      newRng r s v = (.ok (), { v.upd r (fun a => { a with rng := g }) with entropy := e }) := by
  cases s with
  | none => exact ⟨R.ofEntropy w.entropy, w.entropy + 1, rfl, by rw [h]; rfl⟩
  | some y => exact ⟨R.ofSeed y, w.entropy, rfl, by rw [h]; rfl⟩

theorem setSeed_rng (s : Option Int) (a : Attrs R) : (a.setSeed s).rng = a.rng := by
  unfold Attrs.setSeed; split <;> rfl

theorem inStep_steps (nodes : Ref → Option Node) (P X G : Ref → Prop) (s : Option Int)
    (hP : ∀ r, P r → ∀ c ∈ Node.childRefs (nodes r), P c) :
    ResetSteps (R := R) nodes P s (InStep nodes P X G) where
  left w v r h hr := h.left r hr
  right w v r h hr := h.right r hr
  closed := hP
  setSeed := by
    intro r w v h hr hn
    refine h.upd r (Attrs.setSeed_node _ _) (Attrs.setSeed_node _ _) (fun _ => ?_) (fun hx => ?_)
      (fun hg => by rw [setSeed_rng, setSeed_rng]; exact h.gen r hg) h.entropy
    · rw [shape_setSeed _ (by rw [h.left r hr]; exact hn),
        shape_setSeed _ (by rw [h.right r hr]; exact hn)]
      exact h.shape r hr
    · rw [h.same r hx]
  newRng := by
    intro r w v h hr hn hc _ _
    obtain ⟨g, e, h1, h2⟩ := newRng_pair r s w v h.entropy
    rw [h1, h2]
    refine h.upd r (f := fun a => { a with rng := g })
      (g := fun a => { a with rng := g }) rfl rfl (fun _ => ?_) (fun hx => ?_)
      (fun _ => rfl) rfl
    · exact (shape_setRng _ (by rw [h.left r hr]; exact hn) (by rw [h.left r hr]; exact hc)).trans
        ((h.shape r hr).trans (shape_setRng _ (by rw [h.right r hr]; exact hn)
          (by rw [h.right r hr]; exact hc)).symm)
    · rw [h.same r hx]
  choice := by
    intro r k w v h hr hk hs hs'
    have hkw := (h.left r hr).trans hk
    have hkv := (h.right r hr).trans hk
    have ha := alike_of_shape (h.shape r hr) hkw
    obtain ⟨h1, h2, _⟩ := Choice.reset_pair ha (hs.trans hs'.symm) w.entropy
    rw [h.entropy] at h1 h2
    refine ⟨?_, ?_⟩
    · change (Choice.reset ((w.obj r).choice, w.entropy)).1 = _
      rw [h.entropy]; exact h1
    · refine h.upd r (f := fun a => { a with
          choice := (Choice.reset ((w.obj r).choice, w.entropy)).2.1 })
        (g := fun a => { a with choice := (Choice.reset ((v.obj r).choice, v.entropy)).2.1 })
        rfl rfl (fun _ => ?_) (fun hx => ?_) (fun hg => h.gen r hg) ?_
      · rw [shape_setChoice hkw (Choice.reset_keeps_alike _),
          shape_setChoice hkv (Choice.reset_keeps_alike _)]
        exact h.shape r hr
      · rw [h.same r hx, h.entropy]
      · change (Choice.reset ((w.obj r).choice, w.entropy)).2.2 = _
        rw [h.entropy]; exact h2
  iter := by
    intro r w v h hr hk
    rw [iter_run, iter_run]
    refine h.upd r (f := fun a => { a with iter := (Iterative.reset (w.obj r).iter).2 })
      (g := fun a => { a with iter := (Iterative.reset (v.obj r).iter).2 }) rfl rfl (fun _ => ?_)
      (fun hx => ?_) (fun hg => h.gen r hg) h.entropy
    · exact (shape_setIter _ ((h.left r hr).trans hk)).trans
        ((h.shape r hr).trans (shape_setIter _ ((h.right r hr).trans hk)).symm)
    · rw [h.same r hx]
  seq := by
    intro r k w v h hr hk
    rw [seq_run, seq_run]
    refine h.upd r (f := fun a => { a with
        seq := (Sequential.onIt Iterative.reset (w.obj r).seq).2 })
      (g := fun a => { a with seq := (Sequential.onIt Iterative.reset (v.obj r).seq).2 }) rfl rfl
      (fun _ => ?_) (fun hx => ?_) (fun hg => h.gen r hg) h.entropy
    · exact (shape_setSeq _ ((h.left r hr).trans hk)).trans
        ((h.shape r hr).trans (shape_setSeq _ ((h.right r hr).trans hk)).symm)
    · rw [h.same r hx]
  cache := by
    intro r n e rp g hd w v h hr hk
    rw [cache_set, cache_set]
    refine h.upd r (f := fun a => { a with cache := .none }) (g := fun a => { a with cache := .none })
      rfl rfl (fun _ => ?_) (fun hx => ?_) (fun hg => h.gen r hg) h.entropy
    · exact (shape_setCache _ ((h.left r hr).trans hk)).trans
        ((h.shape r hr).trans (shape_setCache _ ((h.right r hr).trans hk)).symm)
    · rw [h.same r hx]

/-- In step, with the seeds of `T`. -/
abbrev Pair (nodes : Ref → Option Node) (P : Ref → Prop) (s : Option Int) (X G T : Ref → Prop)
    (w v : World R) : Prop := InStep nodes P X G w v ∧ SeedsIn nodes s T w v

theorem reset_pair (hP : ∀ r, P r → ∀ c ∈ Node.childRefs (nodes r), P c) (fuel : Nat) {r : Ref}
    (hr : P r) (hT : T r) : Rel (Pair (R := R) nodes P s X G T) (reset fuel r) (reset fuel r) :=
  ((inStep_steps nodes P X G s hP).withSeeds T).reset fuel r hr fun _ _ h =>
    h.2.mono fun _ ht => ht ▸ hT

theorem doMethod_pair (hP : ∀ r, P r → ∀ c ∈ Node.childRefs (nodes r), P c) (fuel : Nat)
    {l : List Ref} (hl : ∀ c ∈ l, P c) (hT : ∀ c ∈ l, T c) :
    Rel (Pair (R := R) nodes P s X G T) (Group.doMethod (l.map some) (reset fuel))
      (Group.doMethod (l.map some) (reset fuel)) :=
  Group.doMethod_rel fun c hc => reset_pair hP fuel (hl c hc) (hT c hc)

theorem InStep.more {w v : World R} (h : InStep nodes P X G w v) {X' : Ref → Prop}
    (hX : ∀ x, X' x → w.obj x = v.obj x) : InStep nodes P X' G w v :=
  ⟨h.left, h.right, h.shape, hX, h.gen, h.entropy⟩

theorem InStep.noGen {w v : World R} (h : InStep nodes P X G w v) :
    InStep nodes P X (fun _ => False) w v :=
  ⟨h.left, h.right, h.shape, h.same, fun _ h => h.elim, h.entropy⟩

/-- What `reset` of `c` achieves for two stores. -/
def Unites (nodes : Ref → Option Node) (P : Ref → Prop) (s : Option Int) (R : Rng K) (fuel : Nat)
    (c : Ref) : Prop :=
  ∀ w v : World R, Pair nodes P s (fun _ => False) (fun _ => False) (· = c) w v →
    (reset fuel c w).1 = .ok () ∨ (reset fuel c w).1 = .error .attributeError →
    ∀ y, BelowN nodes c y → (reset fuel c w).2.obj y = (reset fuel c v).2.obj y

/-- Resetting several objects. -/
theorem doMethod_unites (hP : ∀ r, P r → ∀ c ∈ Node.childRefs (nodes r), P c) {fuel : Nat}
    (ih : ∀ c, P c → Unites nodes P s R fuel c) (l : List Ref) (hl : ∀ c ∈ l, P c)
    (w v : World R) (h : Pair nodes P s X G (· ∈ l) w v)
    (hok : (Group.doMethod (l.map some) (reset fuel) w).1 = .ok ()) :
    ∀ c ∈ l, ∀ y, BelowN nodes c y → (Group.doMethod (l.map some) (reset fuel) w).2.obj y =
      (Group.doMethod (l.map some) (reset fuel) v).2.obj y := by
  induction l generalizing w v with
  | nil => simp
  | cons c l ihl =>
    have hk := reset_pair (R := R) (s := s) (X := X) (G := G) hP (T := (· ∈ c :: l)) fuel (hl c (by simp))
      (by simp) w v h
    have key : (reset fuel c w).1 = .ok () ∨ (reset fuel c w).1 = .error .attributeError →
        (Group.doMethod (l.map some) (reset fuel) (reset fuel c w).2).1 = .ok () →
        ∀ c' ∈ c :: l, ∀ y, BelowN nodes c' y →
          (Group.doMethod (l.map some) (reset fuel) (reset fuel c w).2).2.obj y =
            (Group.doMethod (l.map some) (reset fuel) (reset fuel c v).2).2.obj y := by
      intro hx h2 c' hc' y hy
      have hf := ih c (hl c (by simp)) w v
        ⟨(h.1.more fun _ hx => hx.elim).noGen, h.2.mono fun t ht => by simp [ht]⟩ hx
      have hs2 := hk.2.2.mono (T' := (· ∈ l)) fun t ht => by simp [ht]
      rcases List.mem_cons.1 hc' with rfl | hc'
      · exact (doMethod_pair (R := R) (s := s) hP (X := BelowN nodes c') (G := G) (T := (· ∈ l)) fuel
          (fun c hc => hl c (by simp [hc])) (fun c hc => hc) _ _
          ⟨hk.2.1.more hf, hs2⟩).2.1.same y hy
      · exact ihl (fun c hc => hl c (by simp [hc])) _ _ ⟨hk.2.1, hs2⟩ h2 c' hc' y hy
    rw [doMethod_cons] at hok ⊢
    rw [doMethod_cons]
    have h1 := hk.1
    rcases e1 : reset fuel c w with ⟨e | u, w1⟩ <;> rcases e2 : reset fuel c v with ⟨e' | u', v1⟩ <;>
      rw [e1, e2] at h1 key <;> rw [e1] at hok
    · cases h1
      dsimp only at hok ⊢
      by_cases he : e = .attributeError
      · rw [if_pos he] at hok ⊢
        rw [if_pos he]
        exact key (by rw [he]; exact .inr rfl) hok
      · rw [if_neg he] at hok; cases hok
    · cases h1
    · cases h1
    · exact key (.inl rfl) hok

/-- A successful `mixinReset`: everything below the children, and the generator of the object. -/
theorem mixinReset_unites (hP : ∀ r, P r → ∀ c ∈ Node.childRefs (nodes r), P c) {fuel : Nat}
    (ih : ∀ c, P c → Unites nodes P s R fuel c) {r : Ref} (hr : P r)
    (hran : Node.isRandom (nodes r) = true) (hch : Node.isChoice (nodes r) = false) (w v : World R)
    (h : Pair nodes P s (fun _ => False) (fun _ => False) (· = r) w v)
    (hok : (mixinReset (reset fuel) r w).1 = .ok ()) :
    (mixinReset (reset fuel) r v).1 = .ok () ∧
    Pair nodes P s (fun y => ∃ c ∈ Node.childRefs (nodes r), BelowN nodes c y) (· = r) (· = r)
      (mixinReset (reset fuel) r w).2 (mixinReset (reset fuel) r v).2 := by
  have hsteps := inStep_steps (R := R) nodes P (fun _ => False) (fun _ => False) s hP
  obtain ⟨w1, v1, e1, e2, h1, h2⟩ := hsteps.setChildSeeds (Node.childRefs (nodes r)) (hP r hr)
    (· = r) w v h.1 h.2
  have hsd : ∀ u : World R, (u.obj r).node = nodes r → (u.obj r).rngSeed = s →
      (u.obj r).seed = s := by
    intro u hu1 hu2
    rwa [rngSeed_not_choice (by rw [hu1]; exact hch)] at hu2
  rw [mixinReset_run (hsd w (h.1.left r hr) (h.2 r rfl hran).1) (h.1.left r hr) e1] at hok ⊢
  rw [mixinReset_run (hsd v (h.1.right r hr) (h.2 r rfl hran).2) (h.1.right r hr) e2]
  have hk := (hsteps.withSeeds (fun t => t = r ∨ t ∈ Node.childRefs (nodes r))).newRng r w1 v1
    ⟨h1, h2⟩ hr hran hch (hsd w1 (h1.left r hr) (h2 r (.inl rfl) hran).1)
    (hsd v1 (h1.right r hr) (h2 r (.inl rfl) hran).2)
  have hg : ((newRng r s w1).2.obj r).rng = ((newRng r s v1).2.obj r).rng := by
    obtain ⟨g, e, g1, g2⟩ := newRng_pair r s w1 v1 h1.entropy
    rw [g1, g2]
    change ((w1.upd r fun a => { a with rng := g }).obj r).rng =
      ((v1.upd r fun a => { a with rng := g }).obj r).rng
    rw [upd_obj, upd_obj, if_pos rfl, if_pos rfl]
  have hI : InStep nodes P (fun _ => False) (· = r) (newRng r s w1).2 (newRng r s v1).2 :=
    ⟨hk.1.left, hk.1.right, hk.1.shape, hk.1.same, fun x hx => hx ▸ hg, hk.1.entropy⟩
  have hfin := doMethod_pair (R := R) (s := s) hP (X := fun _ => False) (G := (· = r))
    (T := fun t => t = r ∨ t ∈ Node.childRefs (nodes r)) fuel (hP r hr) (fun c hc => .inr hc) _ _
    ⟨hI, hk.2⟩
  have hall := doMethod_unites hP ih (Node.childRefs (nodes r)) (hP r hr) _ _
    ⟨hI, hk.2.mono fun t ht => .inr ht⟩ hok
  exact ⟨hfin.1 ▸ hok, hfin.2.1.more fun y ⟨c, hc, hy⟩ => hall c hc y hy,
    hfin.2.2.mono fun t ht => .inl ht⟩

/-- An object other than a `Choice` is made up of its shape, seed, generator and progress. -/
theorem shape_ext {a b : Attrs R} (h : a.shape = b.shape) (hch : Node.isChoice a.node = false)
    (hs : a.seed = b.seed) (hg : a.rng = b.rng) (hp : SameProgress a b) : a = b := by
  have hn := node_of_shape h
  obtain ⟨node, c, _, i, q, _, _, _, _, _⟩ := a
  obtain ⟨node', c', _, i', q', _, _, _, _, _⟩ := b
  dsimp only at hn
  subst hn
  rcases node with _ | (_ | _ | _ | _ | _ | _ | _ | _ | _ | _ | _)
  case some.choice k => cases hch
  case some.iterative =>
    obtain ⟨_, _, _⟩ := i
    obtain ⟨_, _, _⟩ := i'
    simp_all [Attrs.shape, SameProgress]
  case some.sequential =>
    obtain ⟨_, _, _, _⟩ := q
    obtain ⟨_, _, _, _⟩ := q'
    simp_all [Attrs.shape, SameProgress]
  all_goals simp_all [Attrs.shape, SameProgress]

/-- After a successful reset everything below is the same in both stores. -/
theorem reset_unites (hP : ∀ r, P r → ∀ c ∈ Node.childRefs (nodes r), P c) (fuel : Nat) :
    ∀ r, P r → Unites nodes P s R fuel r := by
  induction fuel with
  | zero =>
    intro r hr w v _ h
    unfold reset at h
    rcases h with h | h <;> cases h
  | succ fuel ih =>
    intro r hr w v h hx
    have hw := h.1.left r hr
    have hv := h.1.right r hr
    have hst := reset_pair (R := R) (s := s) (X := fun _ => False) (G := fun _ => False) (T := (· = r))
      hP (fuel + 1) hr rfl w v h
    have leaf : Node.childRefs (nodes r) = [] →
        (reset (fuel + 1) r w).2.obj r = (reset (fuel + 1) r v).2.obj r →
        ∀ y, BelowN nodes r y → (reset (fuel + 1) r w).2.obj y = (reset (fuel + 1) r v).2.obj y := by
      intro hc h1 y hy
      rcases hy.cases with rfl | ⟨c, hc', _⟩
      · exact h1
      · rw [hc] at hc'; cases hc'
    rcases hn : nodes r with _ | node
    · refine leaf (by rw [hn]; rfl) ?_
      have e : ∀ u : World R, (u.obj r).node = none → reset (fuel + 1) r u = (.error .attributeError, u) := by
        intro u hu
        unfold reset
        rw [PyM.run_get_bind]
        dsimp only
        rw [hu]; rfl
      rw [e w (hw.trans hn), e v (hv.trans hn)]
      have hs := h.1.shape r hr
      unfold Attrs.shape at hs
      rw [hw, hv, hn] at hs
      exact hs
    · have hok : (reset (fuel + 1) r w).1 = .ok () := by
        refine hx.resolve_right fun hx => ?_
        exact reset_attributeError (fuel + 1) r w (by rw [hw, hn]; simp) hx
      clear hx
      have mix := fun hran hch => mixinReset_unites hP ih hr hran hch w v h
      -- an object with children, once they are done
      have fin : Node.isRandom (nodes r) = true → Node.isChoice (nodes r) = false →
          ∀ w' v' : World R, Pair nodes P s
            (fun y => ∃ c ∈ Node.childRefs (nodes r), BelowN nodes c y) (· = r) (· = r) w' v' →
          SameProgress (w'.obj r) (v'.obj r) → ∀ y, BelowN nodes r y → w'.obj y = v'.obj y := by
        intro hran hch w' v' h' hp y hy
        rcases hy.cases with rfl | hy
        · have hq := h'.2 y rfl hran
          rw [rngSeed_not_choice (by rw [h'.1.left y hr]; exact hch),
            rngSeed_not_choice (by rw [h'.1.right y hr]; exact hch)] at hq
          exact shape_ext (h'.1.shape y hr) (by rw [h'.1.left y hr]; exact hch)
            (hq.1.trans hq.2.symm) (h'.1.gen y rfl) hp
        · exact h'.1.same y hy
      have idle : (∀ n e rp g hd, nodes r ≠ some (.field n e rp g hd)) →
          nodes r ≠ some .iterative → (∀ k, nodes r ≠ some (.sequential k)) →
          ∀ w' v' : World R, (w'.obj r).node = nodes r → SameProgress (w'.obj r) (v'.obj r) := by
        intro h1 h2 h3 w' v' hu
        unfold SameProgress
        rw [hu]
        split
        · next hk => exact absurd hk h2
        · next hk => exact absurd hk (h3 _)
        · next hk => exact absurd hk (h1 _ _ _ _ _)
        · trivial
      have twice : Node.isRandom (nodes r) = true → Node.isChoice (nodes r) = false →
          (∀ w' v' : World R, (w'.obj r).node = nodes r → SameProgress (w'.obj r) (v'.obj r)) →
          (∀ u : World R, (u.obj r).node = nodes r → reset (fuel + 1) r u = (do
            mixinReset (reset fuel) r
            let a := (← PyM.get).obj r
            setChildSeeds a.children a.seed
            Group.doMethod (a.children.map some) (reset fuel) : PyM (World R) Unit) u) →
          ∀ y, BelowN nodes r y →
            (reset (fuel + 1) r w).2.obj y = (reset (fuel + 1) r v).2.obj y := by
        intro hran hch hp hm
        rw [hm w hw, hm v hv]
        rw [hm w hw] at hok
        have hok1 : (mixinReset (reset fuel) r w).1 = .ok () := by
          rw [PyM.bind_apply] at hok
          rcases hq : mixinReset (reset fuel) r w with ⟨e | u, w1⟩
          · rw [hq] at hok; cases hok
          · rfl
        obtain ⟨hok2, h1, h2⟩ := mix hran hch hok1
        have ew : mixinReset (reset fuel) r w = (.ok (), (mixinReset (reset fuel) r w).2) :=
          Prod.ext hok1 rfl
        have ev : mixinReset (reset fuel) r v = (.ok (), (mixinReset (reset fuel) r v).2) :=
          Prod.ext hok2 rfl
        generalize (mixinReset (reset fuel) r w).2 = w1 at ew h1 h2
        generalize (mixinReset (reset fuel) r v).2 = v1 at ev h1 h2
        rw [PyM.bind_ok ew, PyM.bind_ok ev, PyM.run_get_bind, PyM.run_get_bind]
        have hq := h2 r rfl hran
        rw [rngSeed_not_choice (by rw [h1.left r hr]; exact hch),
          rngSeed_not_choice (by rw [h1.right r hr]; exact hch)] at hq
        unfold Attrs.children
        rw [hq.1, hq.2, h1.left r hr, h1.right r hr]
        obtain ⟨w2, v2, e1, e2, h3, h4⟩ := (inStep_steps (R := R) nodes P _ _ s hP).setChildSeeds
          (Node.childRefs (nodes r)) (hP r hr) (· = r) w1 v1 h1 h2
        rw [PyM.bind_ok e1, PyM.bind_ok e2]
        have h5 := doMethod_pair (R := R) (s := s) hP fuel (hP r hr) (fun c hc => Or.inr hc) w2 v2
          ⟨h3, h4⟩
        exact fin hran hch _ _ ⟨h5.2.1, h5.2.2.mono fun t ht => .inl ht⟩
          (hp _ _ (h5.2.1.left r hr))
      have once : Node.isRandom (nodes r) = true → Node.isChoice (nodes r) = false →
          (∀ w' v' : World R, (w'.obj r).node = nodes r → SameProgress (w'.obj r) (v'.obj r)) →
          (∀ u : World R, (u.obj r).node = nodes r →
            reset (fuel + 1) r u = mixinReset (reset fuel) r u) →
          ∀ y, BelowN nodes r y →
            (reset (fuel + 1) r w).2.obj y = (reset (fuel + 1) r v).2.obj y := by
        intro hran hch hp hm
        rw [hm w hw, hm v hv]
        rw [hm w hw] at hok
        obtain ⟨_, h1⟩ := mix hran hch hok
        exact fin hran hch _ _ h1 (hp _ _ (h1.1.left r hr))
      have open_ : ∀ u : World R, (u.obj r).node = nodes r → (do
          let a := (← PyM.get).obj r
          match a.node with
          | none => PyM.raise .attributeError
          | some (.choice _) => onChoice r Choice.reset
          | some .static => pure ()
          | some .iterative => (iterAttr r).run Iterative.reset
          | some (.sequential _) => (seqAttr r).run (Sequential.onIt Iterative.reset)
          | some (.word ..) | some (.text ..) => do
            mixinReset (reset fuel) r
            let a := (← PyM.get).obj r
            setChildSeeds a.children a.seed
            Group.doMethod (a.children.map some) (reset fuel)
          | some (.wrapOne _) | some (.wrapMany _) => mixinReset (reset fuel) r
          | some (.copyFields ..) => pure ()
          | some (.basedOn ..) => newRng r a.seed
          | some (.field ..) => Field.reset (cacheAttr r) (mixinReset (reset fuel) r) :
            PyM (World R) Unit) u = reset (fuel + 1) r u := fun u _ => rfl
      have hso := h.1.shape r hr
      have hsr := hst.2.1.shape r hr
      have hnr := hst.2.1.left r hr
      cases node with
      | choice k =>
        refine leaf (by rw [hn]; rfl) ?_
        have e : ∀ u : World R, (u.obj r).node = nodes r →
            reset (fuel + 1) r u = onChoice r Choice.reset u := by
          intro u hu
          rw [← open_ u hu, PyM.run_get_bind]; dsimp only; rw [hu, hn]
        rw [e w hw, e v hv]
        rw [e w hw] at hok
        have hsd := h.2 r rfl (by rw [hn]; rfl)
        unfold Attrs.rngSeed at hsd
        rw [hw, hv, hn] at hsd
        have h3 := (Choice.reset_pair (alike_of_shape hso (hw.trans hn)) (hsd.1.trans hsd.2.symm)
          w.entropy).2.2 ((onChoice_obj r r Choice.reset w).2.symm.trans hok)
        rw [(onChoice_obj r r Choice.reset w).1, (onChoice_obj r r Choice.reset v).1, if_pos rfl,
          if_pos rfl, h3, h.1.entropy]
        rw [shape_choice (hw.trans hn), shape_choice (hv.trans hn)] at hso
        have : ∀ (a b : Attrs R) (c d x : ChoiceSt Val R),
            ({ a with choice := c } : Attrs R) = { b with choice := d } →
            ({ a with choice := x } : Attrs R) = { b with choice := x } := by
          intro a b c d x h
          simp only [Attrs.mk.injEq] at h ⊢
          simp_all
        exact this _ _ _ _ _ hso
      | static =>
        refine leaf (by rw [hn]; rfl) ?_
        have e : ∀ u : World R, (u.obj r).node = nodes r → reset (fuel + 1) r u = (.ok (), u) := by
          intro u hu
          rw [← open_ u hu, PyM.run_get_bind]; dsimp only; rw [hu, hn]; rfl
        rw [e w hw, e v hv]
        unfold Attrs.shape at hso
        rw [hw, hv, hn] at hso
        exact hso
      | copyFields a b c =>
        refine leaf (by rw [hn]; rfl) ?_
        have e : ∀ u : World R, (u.obj r).node = nodes r → reset (fuel + 1) r u = (.ok (), u) := by
          intro u hu
          rw [← open_ u hu, PyM.run_get_bind]; dsimp only; rw [hu, hn]; rfl
        rw [e w hw, e v hv]
        unfold Attrs.shape at hso
        rw [hw, hv, hn] at hso
        exact hso
      | iterative =>
        refine leaf (by rw [hn]; rfl) ?_
        have e : ∀ u : World R, (u.obj r).node = nodes r →
            (reset (fuel + 1) r u).2 = u.upd r fun a => { a with iter := { a.iter with cur := .fin [] } } := by
          intro u hu
          rw [← open_ u hu, PyM.run_get_bind]; dsimp only; rw [hu, hn]; rfl
        rw [e w hw, e v hv, upd_obj, upd_obj, if_pos rfl, if_pos rfl]
        rw [shape_iter (hw.trans hn), shape_iter (hv.trans hn)] at hso
        exact hso
      | sequential k =>
        refine leaf (by rw [hn]; rfl) ?_
        have e : ∀ u : World R, (u.obj r).node = nodes r → (reset (fuel + 1) r u).2 =
            u.upd r fun a => { a with seq := { a.seq with it := { a.seq.it with cur := .fin [] } } } := by
          intro u hu
          rw [← open_ u hu, PyM.run_get_bind]; dsimp only; rw [hu, hn]; rfl
        rw [e w hw, e v hv, upd_obj, upd_obj, if_pos rfl, if_pos rfl]
        rw [shape_seq (hw.trans hn), shape_seq (hv.trans hn)] at hso
        exact hso
      | word l a =>
        refine twice (by rw [hn]; rfl) (by rw [hn]; rfl) (idle (by simp [hn]) (by simp [hn])
          (by simp [hn])) fun u hu => ?_
        rw [← open_ u hu, PyM.run_get_bind]; dsimp only; rw [hu, hn]
      | text n wd sp =>
        refine twice (by rw [hn]; rfl) (by rw [hn]; rfl) (idle (by simp [hn]) (by simp [hn])
          (by simp [hn])) fun u hu => ?_
        rw [← open_ u hu, PyM.run_get_bind]; dsimp only; rw [hu, hn]
      | wrapOne z =>
        refine once (by rw [hn]; rfl) (by rw [hn]; rfl) (idle (by simp [hn]) (by simp [hn])
          (by simp [hn])) fun u hu => ?_
        rw [← open_ u hu, PyM.run_get_bind]; dsimp only; rw [hu, hn]
      | wrapMany z =>
        refine once (by rw [hn]; rfl) (by rw [hn]; rfl) (idle (by simp [hn]) (by simp [hn])
          (by simp [hn])) fun u hu => ?_
        rw [← open_ u hu, PyM.run_get_bind]; dsimp only; rw [hu, hn]
      | basedOn a b =>
        refine leaf (by rw [hn]; rfl) ?_
        have hsd := h.2 r rfl (by rw [hn]; rfl)
        rw [rngSeed_not_choice (by rw [hw, hn]; rfl), rngSeed_not_choice (by rw [hv, hn]; rfl)] at hsd
        have e : ∀ u : World R, (u.obj r).node = nodes r → (u.obj r).seed = s →
            reset (fuel + 1) r u = newRng r s u := by
          intro u hu hu'
          rw [← open_ u hu, PyM.run_get_bind]; dsimp only; rw [hu, hn, hu']
        obtain ⟨g, e', g1, g2⟩ := newRng_pair r s w v h.1.entropy
        rw [e w hw hsd.1, g1] at hnr
        rw [e w hw hsd.1, e v hv hsd.2, g1, g2] at hsr ⊢
        have ob : ∀ u : World R, (({ u.upd r (fun a => { a with rng := g }) with entropy := e' } :
            World R).obj r) = { u.obj r with rng := g } := fun u => if_pos rfl
        dsimp only at hsr hnr ⊢
        rw [ob w] at hsr hnr ⊢
        rw [ob v] at hsr ⊢
        refine shape_ext hsr (by rw [hnr, hn]; rfl) (hsd.1.trans hsd.2.symm) rfl ?_
        unfold SameProgress
        rw [hnr, hn]; trivial
      | field n em rp g hd =>
        have e : ∀ u : World R, (u.obj r).node = nodes r →
            reset (fuel + 1) r u = Field.reset (cacheAttr r) (mixinReset (reset fuel) r) u := by
          intro u hu
          rw [← open_ u hu, PyM.run_get_bind]; dsimp only; rw [hu, hn]
        rw [e w hw, e v hv]
        rw [e w hw] at hok
        unfold Field.reset at hok ⊢
        have hok1 : (mixinReset (reset fuel) r w).1 = .ok () := by
          rw [PyM.bind_apply] at hok
          rcases hq : mixinReset (reset fuel) r w with ⟨e | u, w1⟩
          · rw [hq] at hok; cases hok
          · rfl
        obtain ⟨hok2, h1, h2⟩ := mix (by rw [hn]; rfl) (by rw [hn]; rfl) hok1
        have ew : mixinReset (reset fuel) r w = (.ok (), (mixinReset (reset fuel) r w).2) :=
          Prod.ext hok1 rfl
        have ev : mixinReset (reset fuel) r v = (.ok (), (mixinReset (reset fuel) r v).2) :=
          Prod.ext hok2 rfl
        generalize (mixinReset (reset fuel) r w).2 = w1 at ew h1 h2
        generalize (mixinReset (reset fuel) r v).2 = v1 at ev h1 h2
        rw [PyM.bind_ok ew, PyM.bind_ok ev]
        have h3 := ((inStep_steps (R := R) nodes P _ _ s hP).withSeeds (· = r)).cache r n em rp g hd w1
          v1 ⟨h1, h2⟩ hr hn
        refine fin (by rw [hn]; rfl) (by rw [hn]; rfl) _ _ h3 ?_
        change SameProgress (((cacheAttr r).set .none w1).obj r) (((cacheAttr r).set .none v1).obj r)
        unfold SameProgress
        rw [h3.1.left r hr, hn]
        dsimp only
        rw [cache_set, cache_set, upd_obj, upd_obj, if_pos rfl, if_pos rfl]

/-- Resetting an object that has the same seed, or none, in stores that differ below it in the state
of the emitters only and use the same random bits. -/
theorem reset_sync (fuel : Nat) (r : Ref) (w v : World R)
    (hs : ∀ x, (w.obj x).shape = (v.obj x).shape) (hr : (w.obj r).random = true)
    (hz : (w.obj r).rngSeed = (v.obj r).rngSeed) (hf : ∀ x, ¬ Below w r x → w.obj x = v.obj x)
    (hn : w.next = v.next) (he : w.entropy = v.entropy) :
    (reset fuel r w).1 = (reset fuel r v).1 ∧
    (reset fuel r w).2.entropy = (reset fuel r v).2.entropy ∧
    ((reset fuel r w).1 = .ok () → reset fuel r w = reset fuel r v) := by
  have hp : Pair (fun x => (w.obj x).node) (fun _ => True) (w.obj r).rngSeed (fun _ => False)
      (fun _ => False) (· = r) w v :=
    ⟨⟨fun _ _ => rfl, fun x _ => (node_of_shape (hs x)).symm, fun x _ => hs x, fun _ h => h.elim,
      fun _ h => h.elim, he⟩, fun t ht _ => by subst ht; exact ⟨rfl, hz.symm⟩⟩
  have h1 := reset_pair (R := R) (T := (· = r)) (fun _ _ _ _ => trivial) fuel (r := r) trivial rfl w v hp
  refine ⟨h1.1, h1.2.1.entropy, fun hok => Prod.ext h1.1 ?_⟩
  have h2 := reset_unites (R := R) (fun _ _ _ _ => trivial) fuel r trivial w v hp (.inl hok)
  have fw := reset_shapeFrame fuel r w
  have fv := reset_shapeFrame fuel r v
  have hb : ∀ x, Below v r x ↔ Below w r x := fun x =>
    Below.congr fun y => (node_of_shape (hs y)).symm
  have ho : (reset fuel r w).2.obj = (reset fuel r v).2.obj := by
    funext x
    by_cases hx : Below w r x
    · exact h2 x ((BelowN.iff w r x).2 hx)
    · rw [fw.frame x hx, fv.frame x (fun h => hx ((hb x).1 h)), hf x hx]
  have hn' : (reset fuel r w).2.next = (reset fuel r v).2.next := by rw [fw.next, fv.next, hn]
  have he' := h1.2.1.entropy
  generalize (reset fuel r w).2 = a at ho hn' he' ⊢
  generalize (reset fuel r v).2 = b at ho hn' he' ⊢
  obtain ⟨_, _, _⟩ := a
  obtain ⟨_, _, _⟩ := b
  cases ho; cases hn'; cases he'
  rfl

end World
end Fauxdoc
