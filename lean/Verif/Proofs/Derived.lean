import Verif.Spec.Derived
import Verif.Props.DocSet
import Verif.Proofs.Program
/-
Objects of a schema with derived fields.
-/
set_option linter.unusedSectionVars false
namespace Fauxdoc
open PyM World
variable {K : Type} [Field K] [LinearOrder K] [FloorRing K] [IsStrictOrderedRing K] {R : Rng K}
variable {str : Val → List Char}

/-- The hidden field `al` with its emitters; the next item is the one at position `k`. -/
structure Maker (name : String) (kind : ItemsKind) (src : Src Val) (counts : List Nat) (it rp gt al : Nat) (k : Nat)
    (w : World R) : Prop where
  lt : it < rp ∧ rp < gt ∧ gt < al
  all : (w.obj al).node = some (.field name it rp gt true)
  items : (w.obj it).node = some .iterative
  going : GoingOn src k (w.obj it).iter []
  rep : (w.obj rp).node = some (.choice kind)
  intact : (w.obj rp).choice.Intact
  counts : (w.obj rp).choice.items = counts.map fun n : Nat => .int (n : Int)
  gate : (w.obj gt).node = some .static
  open_ : (w.obj gt).static.value = .bool true

section
variable {name : String} {kind : ItemsKind} {src : Src Val} {counts : List Nat} {it rp gt al : Nat} {k : Nat}
  {w w' : World R}

/-- What the emitters of the hidden field emit. -/
def MakerV (counts : List Nat) (rp : Nat) (x : Nat) (v : Val) : Prop :=
  x = rp → ∃ n ∈ counts, v = .int (n : Int)

theorem Maker.children (h : Maker name kind src counts it rp gt al k w) {x : Nat}
    (hx : x ∈ [it, rp, gt, al]) : ∀ c ∈ (w.obj x).children, c ∈ [it, rp, gt, al] := by
  intro c hc
  unfold Attrs.children at hc
  simp only [List.mem_cons, List.not_mem_nil, or_false] at hx
  rcases hx with rfl | rfl | rfl | rfl
  · rw [h.items] at hc; cases hc
  · rw [h.rep] at hc; cases hc
  · rw [h.gate] at hc; cases hc
  · rw [h.all] at hc
    simp only [Node.childRefs, List.mem_cons, List.not_mem_nil, or_false] at hc
    rcases hc with rfl | rfl | rfl <;> simp

theorem Maker.below (h : Maker name kind src counts it rp gt al k w) {x : Nat} (hx : Below w al x) :
    x ≤ al := by
  have := hx.mem [it, rp, gt, al] (fun y hy => h.children hy) (by simp)
  have hl := h.lt
  simp only [List.mem_cons, List.not_mem_nil, or_false] at this
  rcases this with rfl | rfl | rfl | rfl <;> omega

theorem Maker.typed (h : Maker name kind src counts it rp gt al k w) :
    TypedOn (MakerV counts rp) (· ∈ [it, rp, gt, al]) w := by
  intro x hx
  refine ⟨?_, fun c hc => h.children hx c hc⟩
  have hl := h.lt
  simp only [List.mem_cons, List.not_mem_nil, or_false] at hx
  unfold Attrs.Typed
  rcases hx with rfl | rfl | rfl | rfl
  · rw [h.items]
    have hv : ∀ v, MakerV counts rp x v := fun v e => by omega
    have ha : ∀ s : Src Val, s.All (MakerV counts rp x) := by
      intro s; cases s
      · exact fun x _ => hv x
      · exact fun k => hv _
    exact ⟨ha _, ha _⟩
  · rw [h.rep]
    refine ⟨h.intact, fun y hy _ => ?_⟩
    rw [h.counts] at hy
    obtain ⟨n, hn, rfl⟩ := List.mem_map.1 hy
    exact ⟨n, hn, rfl⟩
  · rw [h.gate]; exact fun e => by omega
  · rw [h.all]
    refine ⟨fun v e => by omega, fun v hv i hi => ?_⟩
    obtain ⟨n, _, rfl⟩ := hv rfl
    cases hi
    omega

/-- Objects beyond the hidden field do not matter. -/
theorem Maker.congr (h : Maker name kind src counts it rp gt al k w)
    (he : ∀ x : Nat, x ≤ al → w'.obj x = w.obj x) : Maker name kind src counts it rp gt al k w' := by
  have hl := h.lt
  have h1 := he it (by omega)
  have h2 := he rp (by omega)
  have h3 := he gt (by omega)
  have h4 := he al (by omega)
  constructor
  · exact hl
  · rw [h4]; exact h.all
  · rw [h1]; exact h.items
  · rw [h1]; exact h.going
  · rw [h2]; exact h.rep
  · rw [h2]; exact h.intact
  · rw [h2]; exact h.counts
  · rw [h3]; exact h.gate
  · rw [h3]; exact h.open_

/-- `iterative(n)` gives the next `n` values. -/
theorem call_items (fuel : Nat) {n : Nat} {v : Val} (hk : (w.obj it).node = some .iterative)
    (hg : GoingOn src k (w.obj it).iter [])
    (h : World.call str fuel it (some (.int n)) w = (.ok v, w')) :
    ∃ l, v = .list l ∧ l.length = n ∧ IsCyclicFrom src k l ∧
      GoingOn src (k + n) (w'.obj it).iter [] := by
  cases fuel with
  | zero => cases h
  | succ fuel =>
    have hcall : World.call str (fuel + 1) it (some (.int n)) w = World.iterChild it (some (.int n)) w := by
      conv_lhs => unfold World.call
      rw [PyM.run_get_bind, hk]
    rw [hcall] at h
    obtain ⟨vs, r, g1, g2, g3⟩ := goingOn_call hg (some n)
    have hrun : (iterAttr (R := R) it).run (Iterative.call (some (n : Int))) w =
        (.ok vs, w.upd it fun a => { a with iter := { a.iter with cur := r } }) := by
      unfold Attr.run
      rw [show (iterAttr (R := R) it).get w = (w.obj it).iter from rfl,
        show (some (n : Int)) = (some n).map Int.ofNat from rfl, g1]
      simp only [iterAttr, World.attr, World.upd]
    have hch : World.iterChild (R := R) it (some (.int n)) w =
        (.ok (.list vs), w.upd it fun a => { a with iter := { a.iter with cur := r } }) := by
      have e : World.iterChild (R := R) it (some (.int n)) = (iterAttr (R := R) it).run
          (Iterative.call (some (n : Int))) >>= fun l => pure (.list l) := by
        rw [show World.iterChild (R := R) it (some (.int n)) =
          (if (n : Int) = 1 then do return .list [← (iterAttr (R := R) it).run Iterative.emit]
            else do return .list (← (iterAttr (R := R) it).run (Iterative.emitMany n))) from rfl]
        by_cases h1 : (n : Int) = 1
        · rw [if_pos h1, show Iterative.call (α := Val) (some (n : Int)) =
            Iterative.emit >>= fun a => pure [a] from if_pos h1, Attr.run_map]
          funext s
          rw [PyM.bind_apply, PyM.bind_apply, PyM.bind_apply]
          rcases (iterAttr (R := R) it).run Iterative.emit s with ⟨e | a, s1⟩ <;> rfl
        · rw [if_neg h1, show Iterative.call (α := Val) (some (n : Int)) = Iterative.emitMany n from
            if_neg h1]
      rw [e, PyM.bind_ok hrun]
      rfl
    rw [hch] at h
    cases h
    refine ⟨vs, rfl, g2, g3.2.2, ?_⟩
    rw [upd_obj, if_pos rfl]
    refine ⟨g3.1, ?_, fun i hi => by cases hi⟩
    have := g3.2.1
    rw [List.nil_append, g2] at this
    exact this

/-- What a call of the hidden field gives. -/
theorem Maker.call (h : Maker name kind src counts it rp gt al k w) (fuel : Nat) {v : Val}
    (hc : World.call str fuel al none w = (.ok v, w')) :
    ∃ l, v = .list l ∧ l.length ∈ counts ∧ IsCyclicFrom src k l ∧
      Maker name kind src counts it rp gt al (k + l.length) w' ∧ (w'.obj al).cache = v := by
  have hl := h.lt
  have hcache := call_field_cache str fuel al w w' v h.all hc
  have hty := (call_typed str fuel al (P := (· ∈ [it, rp, gt, al])) (by simp) none trivial w h.typed).1
  have hatt := fun x => C56_attributes str fuel al x none w
  rw [hc] at hty hatt
  cases fuel with
  | zero => cases hc
  | succ fuel =>
    obtain ⟨gv, w1, h1, h2⟩ := (C46_store str fuel h.all v w').1 hc
    cases fuel with
    | zero => cases h1
    | succ fuel =>
      rw [call_static str fuel h.gate, h.open_] at h1
      cases h1
      rcases h2 with ⟨hf, _⟩ | ⟨_, c, w2, w3, h2, h3, rfl⟩
      · cases hf
      · have c2 := call_typed str (fuel + 1) rp (P := (· ∈ [it, rp, gt, al])) (by simp) none trivial w
          h.typed
        have f2 := C57_only_below str (fuel + 1) rp it none w (fun hb => by
          have := hb.mem [rp] (by
            intro y hy
            rw [List.mem_singleton] at hy
            subst hy
            unfold Attrs.children
            rw [h.rep]
            simp [Node.childRefs]) (by simp)
          simp only [List.mem_singleton] at this
          exact absurd this (Nat.ne_of_lt hl.1))
        rw [EnsuresAt, h2] at c2
        rw [h2] at f2
        obtain ⟨n, hn, rfl⟩ := c2.2 c rfl rfl
        obtain ⟨l, rfl, g1, g2, g3⟩ := call_items (fuel + 1) (by rw [f2]; exact h.items)
          (by rw [f2]; exact h.going) h3
        subst g1
        refine ⟨l, rfl, hn, g2, ?_, hcache⟩
        refine ⟨hl, (hatt al).1.trans h.all,
          (hatt it).1.trans h.items, ?_, (hatt rp).1.trans h.rep, ?_, ?_, (hatt gt).1.trans h.gate, ?_⟩
        · rw [upd_obj, if_neg (Nat.ne_of_lt (by omega : it < al))]; exact g3
        · have := (hty rp (by simp)).1
          unfold Attrs.Typed at this
          rw [(hatt rp).1.trans h.rep] at this
          exact this.1
        · rw [(hatt rp).2.2.2.2.2.2.1]; exact h.counts
        · rw [(hatt gt).2.2.2.2.2.1]; exact h.open_

/-- The hidden field after a reset. -/
theorem Maker.reset (h : Maker name kind src counts it rp gt al k w) (fuel : Nat)
    (hc : World.reset fuel al w = (.ok (), w')) : Maker name kind src counts it rp gt al 0 w' := by
  have hl := h.lt
  have hfr := World.reset_frame fuel al (fun _ => True) w (fun _ _ _ _ => trivial) trivial
  have hty := reset_typed fuel al (P := (· ∈ [it, rp, gt, al])) (by simp) w h.typed
  have hrw := C53_reset fuel al w (by unfold Attrs.random; rw [h.all]) (by rw [hc]) it
    (.step (by unfold Attrs.children; rw [h.all]; simp [Node.childRefs]) (.self it))
  have hn := fun x => hfr.node x
  have hsh := hfr.shape
  rw [hc] at hty hrw hn hsh
  dsimp only at hty hrw hn hsh
  have hiter : (w'.obj it).iter.factory = (w.obj it).iter.factory ∧
      (w'.obj it).iter.resetAfterCall = (w.obj it).iter.resetAfterCall := by
    have h2 : ∀ a : Attrs R, a.shape.iter.factory = a.iter.factory ∧
        a.shape.iter.resetAfterCall = a.iter.resetAfterCall := by
      intro a; unfold Attrs.shape; split <;> exact ⟨rfl, rfl⟩
    rw [← (h2 (w'.obj it)).1, ← (h2 (w'.obj it)).2, hsh it]
    exact h2 _
  have hst : (w'.obj gt).static = (w.obj gt).static := by
    have h2 : ∀ a : Attrs R, a.shape.static = a.static := by
      intro a; unfold Attrs.shape; split <;> rfl
    rw [← h2 (w'.obj gt), hsh gt, h2]
  have hci : (w'.obj rp).choice.items = (w.obj rp).choice.items := by
    have h1 : ∀ a : Attrs R, a.shape.choice.items = a.choice.items := by
      intro a
      unfold Attrs.shape
      split <;> first | rfl | (unfold ChoiceSt.config; dsimp only; split <;> rfl)
    rw [← h1 (w'.obj rp), hsh rp, h1]
  refine ⟨hl, (hn al).trans h.all,
    (hn it).trans h.items, ?_, (hn rp).trans h.rep, ?_, hci.trans h.counts, (hn gt).trans h.gate,
    by rw [hst]; exact h.open_⟩
  · have hr := hrw.2
    unfold Attrs.Rewound at hr
    rw [(hn it).trans h.items] at hr
    refine ⟨by rw [hiter.2]; exact h.going.1, ?_, fun i hi => by cases hi⟩
    have hp := h.going.2.1
    exact atPos_start hp.1 (by rw [hiter.1]; exact hp.2.1) hr
  · have := (hty rp (by simp)).1
    unfold Attrs.Typed at this
    rw [(hn rp).trans h.rep] at this
    exact this.1

/-! ### Derived fields -/

/-- The field `d` shows what `act` makes of the last value of `al`. -/
structure Derives (al : Nat) (act : Callback R.G) (d : Nat) (w : World R) : Prop where
  ex : ∃ n b rp gt, al < b ∧ b < rp ∧ rp < gt ∧ gt < d ∧ d < w.next ∧
    (w.obj d).node = some (.field n b rp gt false) ∧
    (w.obj b).node = some (.basedOn [al] true) ∧ (w.obj b).wrapper = some act ∧
    (w.obj rp).node = some .static ∧ (w.obj rp).static.value = .none ∧
    (w.obj gt).node = some .static ∧ (w.obj gt).static.value = .bool true

/-- What stays as it is, for objects that exist. -/
structure Stays (w w' : World R) : Prop where
  next : w.next ≤ w'.next
  obj : ∀ x : Nat, x < w.next → (w'.obj x).node = (w.obj x).node ∧ (w'.obj x).wrapper = (w.obj x).wrapper ∧
    (w'.obj x).static = (w.obj x).static

theorem Stays.trans {w1 w2 w3 : World R} (h : Stays w1 w2) (h' : Stays w2 w3) : Stays w1 w3 :=
  ⟨h.next.trans h'.next, fun x hx => by
    have h1 := h.obj x hx
    have h2 := h'.obj x (lt_of_lt_of_le hx h.next)
    exact ⟨h2.1.trans h1.1, h2.2.1.trans h1.2.1, h2.2.2.trans h1.2.2⟩⟩

theorem Stays.of_shape (hn : w.next ≤ w'.next) (h : ∀ x : Nat, x < w.next → (w'.obj x).shape = (w.obj x).shape) :
    Stays w w' := by
  refine ⟨hn, fun x hx => ⟨node_of_shape (h x hx), wrapper_of_shape (h x hx), ?_⟩⟩
  have h2 : ∀ a : Attrs R, a.shape.static = a.static := by
    intro a; unfold Attrs.shape; split <;> rfl
  rw [← h2 (w'.obj x), h x hx, h2]

theorem Derives.stays {act : Callback R.G} {d : Nat} (h : Derives al act d w) (hs : Stays w w') :
    Derives al act d w' := by
  obtain ⟨n, b, rp, gt, l1, l2, l3, l4, l5, h1, h2, h3, h4, h5, h6, h7⟩ := h.ex
  have sd := hs.obj d l5
  have sb := hs.obj b (by omega)
  have sr := hs.obj rp (by omega)
  have sg := hs.obj gt (by omega)
  exact ⟨n, b, rp, gt, l1, l2, l3, l4, lt_of_lt_of_le l5 hs.next, sd.1.trans h1, sb.1.trans h2,
    sb.2.1.trans h3, sr.1.trans h4, by rw [sr.2.2]; exact h5, sg.1.trans h6, by rw [sg.2.2]; exact h7⟩

theorem Derives.below {act : Callback R.G} {d x : Nat} (h : Derives al act d w) (hx : Below w d x) :
    al < x := by
  obtain ⟨n, b, rp, gt, l1, l2, l3, l4, l5, h1, h2, h3, h4, h5, h6, h7⟩ := h.ex
  have := hx.mem [d, b, rp, gt] (fun y hy c hc => by
    unfold Attrs.children at hc
    simp only [List.mem_cons, List.not_mem_nil, or_false] at hy
    rcases hy with rfl | rfl | rfl | rfl
    · rw [h1] at hc
      simp only [Node.childRefs, List.mem_cons, List.not_mem_nil, or_false] at hc
      rcases hc with rfl | rfl | rfl <;> simp
    · rw [h2] at hc; cases hc
    · rw [h4] at hc; cases hc
    · rw [h6] at hc; cases hc) (by simp)
  simp only [List.mem_cons, List.not_mem_nil, or_false] at this
  rcases this with rfl | rfl | rfl | rfl <;> omega

theorem call_stays (fuel : Nat) (r : Nat) (arg : Option Val) (w : World R) :
    Stays w (World.call str fuel r arg w).2 := by
  have := call_frame str fuel r arg (fun _ => True) w (fun _ _ _ _ => trivial) trivial w
    (Frame.refl _ w)
  exact .of_shape this.next.ge fun x _ => shape_of_config (this.config x)

theorem applies_gives {L : Attr (World R) R.G} {cb : Callback R.G} {a v : Val} {s t : World R}
    (h : Applies L cb [([a], [])] s [v] t) : cb.Gives [a] v := by
  constructor
  · intro hr
    have := (h.2 hr).1
    cases this with
    | cons h1 _ => exact h1
  · intro hr
    obtain ⟨g, h1, _⟩ := h.1 hr
    cases h1 with
    | cons h1 _ => exact ⟨_, _, h1⟩

/-- What a call of a derived field gives. -/
theorem Derives.call {act : Callback R.G} {d : Nat} (h : Derives al act d w) (fuel : Nat) {v : Val}
    (hc : World.call str fuel d none w = (.ok v, w')) :
    act.Gives [(w.obj al).cache] v ∧ ∀ x : Nat, x ≤ al → w'.obj x = w.obj x := by
  have hfr : ∀ x : Nat, x ≤ al → w'.obj x = w.obj x := by
    intro x hx
    have := C57_only_below str fuel d x none w (fun hb => by
      have := h.below hb
      omega)
    rw [hc] at this
    exact this
  obtain ⟨n, b, rp, gt, l1, l2, l3, l4, l5, h1, h2, h3, h4, h5, h6, h7⟩ := h.ex
  refine ⟨?_, hfr⟩
  cases fuel with
  | zero => cases hc
  | succ fuel =>
    obtain ⟨gv, w1, g1, g2⟩ := (C46_store str fuel h1 v w').1 hc
    cases fuel with
    | zero => cases g1
    | succ fuel =>
      rw [call_static str fuel h6, h7] at g1
      cases g1
      rcases g2 with ⟨hf, _⟩ | ⟨_, c, w2, w3, g2, g3, _⟩
      · cases hf
      · rw [call_static str fuel h4, h5] at g2
        cases g2
        have e : World.call str (fuel + 1) b (some .none) w = World.call str (fuel + 1) b none w := by
          rw [call_basedOn str fuel _ h2 h3, call_basedOn str fuel _ h2 h3]
          rfl
        rw [e] at g3
        exact applies_gives ((C44_store_one str fuel h2 h3 v w3).1 g3)

theorem reset_stays (fuel : Nat) (r : Nat) (w : World R) : Stays w (World.reset fuel r w).2 := by
  have := World.reset_frame fuel r (fun _ => True) w (fun _ _ _ _ => trivial) trivial
  exact .of_shape this.next.ge fun x _ => this.shape x

/-- Resetting a derived field leaves the hidden field alone. -/
theorem Derives.reset {act : Callback R.G} {d : Nat} (h : Derives al act d w) (fuel : Nat) (x : Nat)
    (hx : x ≤ al) : (World.reset fuel d w).2.obj x = w.obj x :=
  (World.reset_frame fuel d (Below w d) w (fun _ hr _ hc => hr.trans (.step hc (.self _)))
    (.self d)).frame x fun hb => by
      have := h.below hb
      omega

/-- Constructing `BasedOnFields(al, act)` calls the hidden field once. -/
theorem newBasedOn_one {fuel : Nat} {act : Callback R.G} {b : Nat}
    (h : World.newBasedOnFields str fuel [al] true act none w = (.ok b, w')) :
    b = w.next ∧ w'.next = w.next + 1 ∧ (w'.obj b).node = some (.basedOn [al] true) ∧
      (w'.obj b).wrapper = some act ∧
      ∃ u1 u2 v, (∀ x, x ≠ b → u1.obj x = w.obj x) ∧
        World.call str fuel al none u1 = (.ok v, u2) ∧ ∀ x, x ≠ b → w'.obj x = u2.obj x := by
  have hg := newBasedOn_grown (str := str) fuel [al] true act none w
  rw [h] at hg
  have hb : b = w.next := by
    unfold World.newBasedOnFields at h
    obtain ⟨r', v1, h1, h⟩ := bind_eq_ok h
    obtain ⟨_, v2, h2, h⟩ := bind_eq_ok h
    obtain ⟨_, v3, h3, h⟩ := bind_eq_ok h
    cases h
    cases h1
    rfl
  subst hb
  refine ⟨rfl, hg.next, node_of_base hg.new, ?_⟩
  unfold World.newBasedOnFields at h
  obtain ⟨r', v1, h1, h⟩ := bind_eq_ok h
  obtain ⟨_, v2, h2, h⟩ := bind_eq_ok h
  obtain ⟨_, v3, h3, h⟩ := bind_eq_ok h
  cases h
  have hv1 : (v1.obj w.next).node = some (.basedOn [al] true) ∧
      ∀ x, x ≠ w.next → v1.obj x = w.obj x := by
    cases h1
    exact ⟨by simp [blank], fun x hx => if_neg hx⟩
  have hv2 : (v2.obj w.next).node = some (.basedOn [al] true) ∧
      ∀ x, x ≠ w.next → v2.obj x = w.obj x := by
    obtain ⟨g, e, h4, -⟩ := newRng_eq w.next none v1
    rw [h4] at h2
    cases h2
    refine ⟨?_, fun x hx => ?_⟩
    · rw [obj_entropy, upd_obj, if_pos rfl]; exact hv1.1
    · rw [obj_entropy, upd_obj, if_neg hx]; exact hv1.2 x hx
  unfold World.setAction at h3
  rw [run_get_bind, hv2.1] at h3
  dsimp only at h3
  obtain ⟨w1, w2, vs, e1, e2, e3⟩ := C45_consumes_one_call_partial _ _ _ _ _ _ h3
  rw [modify_apply, Prod.mk.injEq] at e1
  obtain ⟨-, rfl⟩ := e1
  cases e2 with
  | cons c1 c2 =>
    cases c2
    have hfr := World.reset_frame fuel w.next (· = w.next) w2 (fun x hx c hc => by
      subst hx
      unfold Attrs.children at hc
      have := call_node str (r := al) none fuel w.next
        (v2.upd w.next fun a => { a with wrapper := some act })
      rw [show World.call str fuel al none _ = _ from c1, upd_obj, if_pos rfl] at this
      rw [show (w2.obj w.next).node = _ from this, hv2.1] at hc
      cases hc) rfl
    rw [e3] at hfr
    have hcf := call_frame str fuel al none (fun _ => True)
      (v2.upd w.next fun a => { a with wrapper := some act }) (fun _ _ _ _ => trivial) trivial _
      (Frame.refl _ _)
    rw [show World.call str fuel al none _ = _ from c1] at hcf
    refine ⟨?_, _, _, _, ?_, c1, hfr.frame⟩
    · have h1 := wrapper_of_shape (hfr.shape w.next)
      have h2 := wrapper_of_shape (shape_of_config (hcf.config w.next))
      rw [upd_obj, if_pos rfl] at h2
      exact h1.trans h2
    · intro x hx
      rw [upd_obj, if_neg hx]; exact hv2.2 x hx

theorem alloc_spec {a : Attrs R} {r : Nat} (h : alloc a w = (.ok r, w')) :
    r = w.next ∧ w'.next = w.next + 1 ∧ w'.obj w.next = a ∧ ∀ x : Nat, x ≠ w.next → w'.obj x = w.obj x := by
  cases h
  exact ⟨rfl, rfl, if_pos rfl, fun x hx => if_neg hx⟩

theorem alloc_stays {a : Attrs R} {r : Nat} (h : alloc a w = (.ok r, w')) : Stays w w' := by
  obtain ⟨-, h1, -, h2⟩ := alloc_spec h
  refine ⟨by rw [h1]; exact Nat.le_succ _, fun x hx => ?_⟩
  rw [h2 x (Nat.ne_of_lt hx)]
  exact ⟨rfl, rfl, rfl⟩

/-- One derived field. -/
theorem deriveOne {fuel : Nat} {act : Callback R.G} {nm : String} {b d : Nat} {w1 w2 : World R}
    (h : Maker name kind src counts it rp gt al k w) (hal : al < w.next)
    (h1 : World.newBasedOnFields str fuel [al] true act none w = (.ok b, w1))
    (h2 : World.newField fuel nm b none none false none w1 = (.ok d, w2)) :
    ∃ n ∈ counts, Maker name kind src counts it rp gt al (k + n) w2 ∧ Stays w w2 ∧ Derives al act d w2 := by
  obtain ⟨rfl, hnext, hb, hw, u1, u2, v, e1, e2, e3⟩ := newBasedOn_one h1
  have hm1 : Maker name kind src counts it rp gt al k u1 := h.congr fun x hx => e1 x (by
    intro e; rw [e] at hx; omega)
  obtain ⟨l, -, hl, -, hm2, -⟩ := hm1.call fuel e2
  have hm3 : Maker name kind src counts it rp gt al (k + l.length) w1 := hm2.congr fun x hx => e3 x (by
    intro e; rw [e] at hx; omega)
  have hst : Stays w w1 := by
    refine ⟨by rw [hnext]; exact Nat.le_succ _, fun x hx => ?_⟩
    have hx' : x ≠ w.next := Nat.ne_of_lt hx
    have hcf := call_frame str fuel al none (fun _ => True) u1 (fun _ _ _ _ => trivial) trivial _
      (Frame.refl _ _)
    rw [e2] at hcf
    have hs := shape_of_config (hcf.config x)
    have h2 : ∀ a : Attrs R, a.shape.static = a.static := by
      intro a; unfold Attrs.shape; split <;> rfl
    rw [e3 x hx', ← e1 x hx']
    exact ⟨node_of_shape hs, wrapper_of_shape hs, by rw [← h2 (u2.obj x), hs, h2]⟩
  -- the field
  unfold World.newField at h2
  obtain ⟨rp', v1, f1, h2⟩ := PyM.bind_eq_ok h2
  obtain ⟨g', v2, f2, h2⟩ := PyM.bind_eq_ok h2
  obtain ⟨d', v3, f3, h2⟩ := PyM.bind_eq_ok h2
  obtain ⟨u, v4, f4, h2⟩ := PyM.bind_eq_ok h2
  rw [PyM.pure_apply, Prod.mk.injEq, Except.ok.injEq] at h2
  obtain ⟨rfl, rfl⟩ := h2
  have s1 := alloc_stays f1
  have s2 := alloc_stays f2
  have s3 := alloc_stays f3
  obtain ⟨rfl, n1, o1, i1⟩ := alloc_spec f1
  obtain ⟨rfl, n2, o2, i2⟩ := alloc_spec f2
  obtain ⟨rfl, n3, o3, i3⟩ := alloc_spec f3
  have m1 : v1.next = w.next + 2 := by rw [n1, hnext]
  have m2 : v2.next = w.next + 3 := by rw [n2, m1]
  have m3 : v3.next = w.next + 4 := by rw [n3, m2]
  have hd3 : Derives al act v2.next v3 := by
    have t1 := (s1.trans (s2.trans s3)).obj w.next (by rw [hnext]; exact Nat.lt_succ_self _)
    have t2 := (s2.trans s3).obj w1.next (by rw [n1]; exact Nat.lt_succ_self _)
    have t3 := s3.obj v1.next (by rw [n2]; exact Nat.lt_succ_self _)
    refine ⟨nm, w.next, w1.next, v1.next, hal, by rw [hnext]; exact Nat.lt_succ_self _,
      by rw [n1]; exact Nat.lt_succ_self _, by rw [n2]; exact Nat.lt_succ_self _,
      by rw [n3]; exact Nat.lt_succ_self _, by rw [o3], t1.1.trans hb, t1.2.1.trans hw, ?_, ?_, ?_, ?_⟩
    · rw [t2.1, o1]
    · rw [t2.2.2, o1]; rfl
    · rw [t3.1, o2]
    · rw [t3.2.2, o2]; rfl
  have hs := reset_stays fuel v2.next v3
  have hr := hd3.reset fuel
  rw [f4] at hs hr
  refine ⟨l.length, hl, hm3.congr fun x hx => ?_, hst.trans (s1.trans (s2.trans (s3.trans hs))),
    hd3.stays hs⟩
  have hxw : x < w.next := lt_of_le_of_lt hx hal
  rw [hr x hx, i3 x (Nat.ne_of_lt (by rw [m2]; omega)), i2 x (Nat.ne_of_lt (by rw [m1]; omega)),
    i1 x (Nat.ne_of_lt (by rw [hnext]; omega))]

/-- All derived fields. -/
theorem deriveFields_ok {fuel : Nat} {acts : List (String × Callback R.G)} {ds : Dict Ref}
    (h : Maker name kind src counts it rp gt al k w) (hal : al < w.next)
    (hd : deriveFields str fuel al acts w = (.ok ds, w')) :
    ∃ ns : List Nat, ns.length = acts.length ∧ (∀ n ∈ ns, n ∈ counts) ∧
      Maker name kind src counts it rp gt al (k + ns.sum) w' ∧ Stays w w' ∧
      List.Forall₂ (fun a kd => kd.1 = a.1 ∧ Derives al a.2 kd.2 w') acts ds := by
  induction acts generalizing w k ds with
  | nil =>
    cases hd
    exact ⟨[], rfl, by simp, h, ⟨le_rfl, fun _ _ => ⟨rfl, rfl, rfl⟩⟩, .nil⟩
  | cons a acts ih =>
    obtain ⟨nm, act⟩ := a
    change (newBasedOnFields str fuel [al] true act none >>= fun b =>
      newField fuel nm b none none false none >>= fun d =>
      deriveFields str fuel al acts >>= fun ds => pure ((nm, d) :: ds)) w = _ at hd
    obtain ⟨b, w1, h1, hd⟩ := PyM.bind_eq_ok hd
    obtain ⟨d, w2, h2, hd⟩ := PyM.bind_eq_ok hd
    obtain ⟨ds', w3, h3, hd⟩ := PyM.bind_eq_ok hd
    cases hd
    obtain ⟨n, hn, g1, g2, g3⟩ := deriveOne h hal h1 h2
    obtain ⟨ns, e1, e2, e3, e4, e5⟩ := ih g1 (lt_of_lt_of_le hal g2.next) h3
    refine ⟨n :: ns, by simp [e1], ?_, ?_, g2.trans e4, .cons ⟨rfl, g3.stays e4⟩ e5⟩
    · intro m hm
      rcases List.mem_cons.1 hm with rfl | hm
      · exact hn
      · exact e2 m hm
    · rw [List.sum_cons, ← Nat.add_assoc]; exact e3

/-! ### The schema -/

/-- The schema, before it takes item number `k`. -/
def Ready (name : String) (kind : ItemsKind) (src : Src Val) (counts : List Nat) (acts : List (String × Callback R.G))
    (fields : Dict Ref) (k : Nat) (w : World R) : Prop :=
  ∃ (it rp gt al : Nat) (ds : Dict Ref), fields = (name, al) :: ds ∧ al < w.next ∧
    Maker name kind src counts it rp gt al k w ∧
    List.Forall₂ (fun a kd => kd.1 = a.1 ∧ Derives al a.2 kd.2 w) acts ds

theorem itemSchema_ready {fuel : Nat} {f : Factory Val} {weights : Option (List K)}
    {acts : List (String × Callback R.G)} {fields : Dict Ref}
    (h : itemSchema str fuel name f kind counts weights acts w = (.ok fields, w')) :
    ∃ ns : List Nat, ns.length = acts.length ∧ (∀ n ∈ ns, n ∈ counts) ∧
      Ready name kind f.src counts acts fields ns.sum w' := by
  unfold itemSchema at h
  obtain ⟨it, w1, h1, h⟩ := PyM.bind_eq_ok h
  obtain ⟨rp, w2, h2, h⟩ := PyM.bind_eq_ok h
  obtain ⟨al, w3, h3, h⟩ := PyM.bind_eq_ok h
  obtain ⟨ds, w4, h4, h⟩ := PyM.bind_eq_ok h
  cases h
  -- the items
  unfold newIterative at h1
  obtain ⟨st, w0, h1, h0⟩ := PyM.bind_eq_ok h1
  rw [PyM.lift_apply, Prod.mk.injEq] at h1
  obtain ⟨hst, rfl⟩ := h1
  obtain ⟨rfl, n1, o1, i1⟩ := alloc_spec h0
  have hrac : st.resetAfterCall = false := by
    unfold Iterative.init at hst
    rw [setFactory_run] at hst
    by_cases hc : Iterative.checkIterFactory f = .ok ()
    · rw [if_pos hc] at hst; cases hst; rfl
    · rw [if_neg hc] at hst; cases hst
  have hpos := iterRun_atPos (IterRun.init f false st hst)
  -- the counts
  unfold newChoice at h2
  rcases hi : (Choice.init (counts.map fun n : Nat => Val.int (n : Int)) weights true false none none :
    PyM Nat (ChoiceSt Val R)) w1.entropy with ⟨x | ct, e⟩
  · rw [hi] at h2
    cases h2
  · rw [hi] at h2
    obtain ⟨rfl, n2, o2, i2⟩ := alloc_spec h2
    obtain ⟨c1, c2, -⟩ := Choice.init_ok hi
    have hit : ct.items = counts.map fun n : Nat => Val.int (n : Int) := c1.1
    have hint : ct.Intact := (Choice.intact_iff ct).2 ⟨by rw [hit]; exact c1, [], by rw [hit]; exact c2⟩
    -- the field
    unfold World.newField at h3
    obtain ⟨rp', v1, f1, h3⟩ := PyM.bind_eq_ok h3
    obtain ⟨g', v2, f2, h3⟩ := PyM.bind_eq_ok h3
    obtain ⟨d', v3, f3, h3⟩ := PyM.bind_eq_ok h3
    obtain ⟨u, v4, f4, h3⟩ := PyM.bind_eq_ok h3
    rw [PyM.pure_apply, Prod.mk.injEq, Except.ok.injEq] at h3
    obtain ⟨rfl, rfl⟩ := h3
    cases f1
    obtain ⟨rfl, n3, o3, i3⟩ := alloc_spec f2
    obtain ⟨rfl, n4, o4, i4⟩ := alloc_spec f3
    change w2.next = w1.next + 1 at n2
    change w2.obj w1.next = _ at o2
    change ∀ x : Nat, x ≠ w1.next → w2.obj x = w1.obj x at i2
    have m2 : w2.next = w.next + 2 := by rw [n2, n1]
    have m3 : v2.next = w.next + 3 := by rw [n3, m2]
    have e1 : v3.obj w.next = w1.obj w.next := by
      rw [i4 _ (Nat.ne_of_lt (by rw [m3]; omega)), i3 _ (Nat.ne_of_lt (by rw [m2]; omega)),
        i2 _ (Nat.ne_of_lt (by rw [n1]; omega))]
    have e2 : v3.obj w1.next = w2.obj w1.next := by
      rw [i4 _ (Nat.ne_of_lt (by rw [n1, m3]; omega)), i3 _ (Nat.ne_of_lt (by rw [n1, m2]; omega))]
    have e3 : v3.obj w2.next = v2.obj w2.next := i4 _ (Nat.ne_of_lt (by rw [m2, m3]; omega))
    have hm : Maker name kind f.src counts w.next w1.next w2.next v2.next 0 v3 := by
      refine ⟨⟨by rw [n1]; exact Nat.lt_succ_self _, by rw [n2]; exact Nat.lt_succ_self _,
        by rw [n3]; exact Nat.lt_succ_self _⟩, by rw [o4], ?_, ?_, ?_, ?_, ?_, ?_, ?_⟩
      · rw [e1, o1]
      · rw [e1, o1]; exact ⟨hrac, hpos, fun i hi => by cases hi⟩
      · rw [e2, o2]
      · rw [e2, o2]; exact hint
      · rw [e2, o2]; exact hit
      · rw [e3, o3]
      · rw [e3, o3]; rfl
    have hm' := hm.reset fuel f4
    have hs := (reset_stays fuel v2.next v3).next
    rw [f4] at hs
    have hal : v2.next < v4.next := lt_of_lt_of_le (by rw [n4]; exact Nat.lt_succ_self _) hs
    obtain ⟨ns, g1, g2, g3, g4, g5⟩ := deriveFields_ok hm' hal h4
    rw [Nat.zero_add] at g3
    exact ⟨ns, g1, g2, _, _, _, _, _, rfl, lt_of_lt_of_le hal g4.next, g3, g5⟩

theorem Derives.shown {act : Callback R.G} {d : Nat} (h : Derives al act d w) : (w.obj d).hide = false := by
  obtain ⟨n, b, rp, gt, -, -, -, -, -, h1, -⟩ := h.ex
  unfold Attrs.hide
  rw [h1]

/-- Calling the derived fields. -/
theorem derived_run {fuel : Nat} {ds : Dict Ref} {vals : List Val} {items : Val}
    {acts : List (String × Callback R.G)} (hide : Ref → Bool)
    (h : FieldsRun (fun r => World.call str fuel r none) ds w vals w')
    (hi : (w.obj al).cache = items) (hh : ∀ kd ∈ ds, hide kd.2 = false)
    (hd : List.Forall₂ (fun a kd => kd.1 = a.1 ∧ Derives al a.2 kd.2 w) acts ds) :
    List.Forall₂ (fun a kv => kv.1 = a.1 ∧ a.2.Gives [items] kv.2) acts (visible hide ds vals) ∧
      (∀ x : Nat, x ≤ al → w'.obj x = w.obj x) ∧ Stays w w' := by
  induction h generalizing acts with
  | nil =>
    cases hd
    exact ⟨.nil, fun _ _ => rfl, ⟨le_rfl, fun _ _ => ⟨rfl, rfl, rfl⟩⟩⟩
  | @cons k d ds s s1 s2 v vs h1 h2 ih =>
    cases hd with
    | @cons a _ acts _ ha hs =>
      obtain ⟨g1, g2⟩ := ha.2.call fuel h1
      have hst := call_stays (str := str) fuel d none s
      rw [show World.call str fuel d none s = _ from h1] at hst
      obtain ⟨i1, i2, i3⟩ := ih (by rw [g2 _ le_rfl]; exact hi)
        (fun kd hkd => hh kd (List.mem_cons_of_mem _ hkd))
        (hs.imp fun a kd h => ⟨h.1, h.2.stays hst⟩)
      refine ⟨?_, fun x hx => (i2 x hx).trans (g2 x hx), hst.trans i3⟩
      have hv : visible hide ((k, d) :: ds) (v :: vs) = (k, v) :: visible hide ds vs := by
        have := hh (k, d) (by simp)
        unfold visible
        rw [List.zip_cons_cons, List.filter_cons_of_pos (by simpa using this)]
        rfl
      rw [hv]
      exact .cons ⟨ha.1, by rw [← hi]; exact g1⟩ i1

/-- A document. -/
theorem Ready.document {fuel : Nat} {acts : List (String × Callback R.G)} {fields : Dict Ref}
    {doc : Dict Val} (h : Ready name kind src counts acts fields k w) (hn : fields.keys.Nodup)
    (hd : World.document str fuel fields w = (.ok doc, w')) :
    ∃ items : List Val, items.length ∈ counts ∧ IsCyclicFrom src k items ∧
      ShowsItems acts items doc ∧ Ready name kind src counts acts fields (k + items.length) w' := by
  obtain ⟨it, rp, gt, al, ds, rfl, hal, hm, hds⟩ := h
  obtain ⟨vals, hr, rfl⟩ := (C49_store str fuel hn w w' doc).1 hd
  cases hr with
  | @cons _ _ _ _ s1 _ v vs h1 h2 =>
    obtain ⟨l, rfl, g1, g2, g3, g4⟩ := hm.call fuel h1
    have hst := call_stays (str := str) fuel al none w
    rw [show World.call str fuel al none w = _ from h1] at hst
    have hh : ∀ kd ∈ ds, (w.obj kd.2).hide = false := by
      intro kd hkd
      obtain ⟨a, -, -, ha⟩ : ∃ a, a ∈ acts ∧ kd.1 = a.1 ∧ Derives al a.2 kd.2 w := by
        clear h2 hd hn
        induction hds with
        | nil => cases hkd
        | @cons a kd' acts ds h _ ih =>
          rcases List.mem_cons.1 hkd with rfl | hkd
          · exact ⟨a, by simp, h⟩
          · obtain ⟨a, h1, h2⟩ := ih hkd
            exact ⟨a, List.mem_cons_of_mem _ h1, h2⟩
      exact ha.shown
    obtain ⟨i1, i2, i3⟩ := derived_run (fun r => (w.obj r).hide) h2 g4 hh
      (hds.imp fun a kd h => ⟨h.1, h.2.stays hst⟩)
    refine ⟨l, g1, g2, ?_, it, rp, gt, al, ds, rfl, lt_of_lt_of_le hal (hst.next.trans i3.next),
      g3.congr i2, hds.imp fun a kd h => ⟨h.1, h.2.stays (hst.trans i3)⟩⟩
    have hv : visible (fun r => (w.obj r).hide) ((name, al) :: ds) (.list l :: vs) =
        visible (fun r => (w.obj r).hide) ds vs := by
      unfold visible
      have : (w.obj al).hide = true := by unfold Attrs.hide; rw [hm.all]
      rw [List.zip_cons_cons, List.filter_cons_of_neg (by simpa using this)]
    rw [hv]
    exact i1

/-- `schema.reset_fields()`. -/
theorem Ready.reset {fuel : Nat} {acts : List (String × Callback R.G)} {fields : Dict Ref}
    (h : Ready name kind src counts acts fields k w)
    (hr : World.resetFields fuel fields w = (.ok (), w')) :
    Ready name kind src counts acts fields 0 w' := by
  obtain ⟨it, rp, gt, al, ds, rfl, hal, hm, hds⟩ := h
  rw [resetFields_eq, List.map_cons, doMethod_cons] at hr
  have hst := reset_stays fuel al w
  have hne := reset_attributeError fuel al w (by rw [hm.all]; simp)
  rcases hw : World.reset fuel al w with ⟨e | u, w1⟩
  · rw [hw] at hr hne
    dsimp only at hr hne
    rw [if_neg (fun he => hne (by rw [he]))] at hr
    cases hr
  · rw [hw] at hr hst
    dsimp only at hr hst
    have hm1 := hm.reset fuel hw
    have hds1 : List.Forall₂ (fun a kd => kd.1 = a.1 ∧ Derives al a.2 kd.2 w1) acts ds :=
      hds.imp fun a kd h => ⟨h.1, h.2.stays hst⟩
    have key : ∀ (acts : List (String × Callback R.G)) (ds : Dict Ref) (w1 : World R),
        List.Forall₂ (fun a kd => kd.1 = a.1 ∧ Derives al a.2 kd.2 w1) acts ds →
        Group.doMethod ((ds.map (·.2)).map some) (World.reset fuel) w1 = (.ok (), w') →
        (∀ x : Nat, x ≤ al → w'.obj x = w1.obj x) ∧ Stays w1 w' := by
      intro acts ds
      induction ds generalizing acts with
      | nil =>
        intro w1 _ h
        cases h
        exact ⟨fun _ _ => rfl, ⟨le_rfl, fun _ _ => ⟨rfl, rfl, rfl⟩⟩⟩
      | cons kd ds ih =>
        intro w1 hd h
        cases hd with
        | @cons a _ acts _ ha hs =>
          rw [List.map_cons, doMethod_cons] at h
          have s1 := reset_stays fuel kd.2 w1
          have s2 := ha.2.reset fuel
          have s3 := reset_attributeError fuel kd.2 w1 (by
            obtain ⟨n, b, rp, gt, -, -, -, -, -, h1, -⟩ := ha.2.ex
            rw [h1]; simp)
          rcases hw : World.reset fuel kd.2 w1 with ⟨e | u, w2⟩
          · rw [hw] at h s3
            dsimp only at h s3
            rw [if_neg (fun he => s3 (by rw [he]))] at h
            cases h
          · rw [hw] at h s1 s2
            obtain ⟨j1, j2⟩ := ih acts w2 (hs.imp fun a kd h => ⟨h.1, h.2.stays s1⟩) h
            exact ⟨fun x hx => (j1 x hx).trans (s2 x hx), s1.trans j2⟩
    obtain ⟨j1, j2⟩ := key acts ds w1 hds1 hr
    exact ⟨it, rp, gt, al, ds, rfl, lt_of_lt_of_le hal (hst.next.trans j2.next), hm1.congr j1,
      hds1.imp fun a kd h => ⟨h.1, h.2.stays j2⟩⟩

end

end Fauxdoc
