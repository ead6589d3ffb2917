import Verif.Props.PairRun
/-
C130: how often two fields are filled together in the long run, and how often a field is filled beside a
value of another field.
-/
set_option linter.unusedSectionVars false
namespace Fauxdoc
open MeasureTheory Filter World
open scoped Topology
variable {R : Rng ℝ}

/-- The draws for which the gate `chance(p)` is open (`A = true`) or closed. -/
def gateDraws (p : ℝ) (A : Bool) : Set ℝ := if A then Set.Iio p else Set.Ici p

theorem gateDraws_measurable (p : ℝ) (A : Bool) : MeasurableSet (gateDraws p A) := by
  cases A
  · exact measurableSet_Ici
  · exact measurableSet_Iio

theorem gateDraws_volume {p : ℝ} (h0 : 0 ≤ p) (h1 : p ≤ 1) (A : Bool) :
    (volume.restrict (Set.Ico (0 : ℝ) 1)).real (gateDraws p A) = if A then p else 1 - p := by
  rw [measureReal_restrict_apply (gateDraws_measurable p A)]
  cases A
  · rw [show gateDraws p false ∩ Set.Ico 0 1 = Set.Ico p 1 by
      ext x
      simp only [gateDraws, Bool.false_eq_true, if_false, Set.mem_inter_iff, Set.mem_Ici, Set.mem_Ico]
      exact ⟨fun h => ⟨h.1, h.2.2⟩, fun h => ⟨h.1, h0.trans h.1, h.2⟩⟩, Real.volume_real_Ico_of_le h1]
    rfl
  · rw [show gateDraws p true ∩ Set.Ico 0 1 = Set.Ico 0 p by
      ext x
      simp only [gateDraws, if_true, Set.mem_inter_iff, Set.mem_Iio, Set.mem_Ico]
      exact ⟨fun h => ⟨h.2.1, h.1⟩, fun h => ⟨h.2, h.1, h.2.trans_le h1⟩⟩, Real.volume_real_Ico_of_le h0,
      sub_zero]
    rfl

theorem mem_gateDraws {p u : ℝ} {A : Bool} {P : Prop} (h : P ↔ u < p) : (P ↔ A = true) ↔ u ∈ gateDraws p A := by
  rw [h]
  cases A <;> simp [gateDraws]

/-- **C130 (gates), violated.** After `seed_fields(s)`, whatever the seed and however many documents are
made: if `p ≤ q`, no document has the field with the gate `chance(p)` and lacks the one with
`chance(q)`, instead of the share `p * (1 - q)`. -/
theorem C130_gates_violated (str : Val → List Char) {w : World R} {fields : Dict Ref}
    {a b : String} {f e rp g f' e' rp' g' : Ref} {p q : ℝ} (ha : GateOf w fields a f e rp g p)
    (hb : GateOf w fields b f' e' rp' g' q) (hpq : p ≤ q) (hne : NeverNone str w e)
    (hne' : NeverNone str w e') (s : Int) (fuel : Nat)
    (hok : (World.seedFields fuel (some s) fields w).1 = .ok ()) (fuel' n : Nat) (docs : List (Dict Val))
    (hdocs : World.documents str fuel' fields n (World.seedFields fuel (some s) fields w).2 =
      docs.map .ok) :
    shareWhere (fun d => Filled d a ∧ ¬ Filled d b) docs = 0 := by
  rw [shareWhere_iff _ (fun _ => False) docs]
  · simp
  · intro m d hm
    simp only [iff_false]
    rintro ⟨h1, h2⟩
    exact h2 ((C88_gates_violated str ha hb hpq hne hne' s fuel hok fuel' n docs hdocs d
      (List.mem_of_getElem? hm)).1 h1)

/-- **C130 (gates, partial).** If the generators of the two gates have nothing to do with each other, then,
with probability 1, the share of the documents in which both fields are filled, one of them, or neither,
tends to the product of the shares of the two. -/
theorem C130_gates_partial [MeasurableSpace R.G] (μ ν : Measure R.G) (hU : FairDraws R μ)
    (hV : FairDraws R ν) (str : Val → List Char) {w : World R} {fields : Dict Ref} {a b : String}
    {f e rp g f' e' rp' g' : Ref} {p q : ℝ} (ha : GateOf w fields a f e rp g p)
    (hb : GateOf w fields b f' e' rp' g' q) (hg : g ≠ g') (hp0 : 0 ≤ p) (hp1 : p ≤ 1) (hq0 : 0 ≤ q)
    (hq1 : q ≤ 1) (hne : NeverNone str w e) (hne' : NeverNone str w e') (fuel : Nat)
    (docs : R.G × R.G → ℕ → List (Dict Val))
    (hd : ∀ x k, World.documents str fuel fields k ((w.withGen g x.1).withGen g' x.2) = (docs x k).map .ok)
    (A B : Bool) :
    ∀ᵐ x ∂(μ.prod ν), Tendsto
      (fun k => shareWhere (fun d => (Filled d a ↔ A = true) ∧ (Filled d b ↔ B = true)) (docs x k)) atTop
      (𝓝 ((if A then p else 1 - p) * if B then q else 1 - q)) := by
  classical
  obtain ⟨k1, hk1⟩ := ha.chance.node
  obtain ⟨k2, hk2⟩ := hb.chance.node
  rw [← gateDraws_volume hp0 hp1 A, ← gateDraws_volume hq0 hq1 B]
  filter_upwards [pairs_frequency hU hV (gateDraws_measurable p A) (gateDraws_measurable q B)] with x hx
  refine hx.congr fun k => ?_
  have hlen : (docs x k).length = k := by
    have := World.documents_length str fuel fields k ((w.withGen g x.1).withGen g' x.2)
    rwa [hd, List.length_map] at this
  have al : World.Alike w ((w.withGen g x.1).withGen g' x.2) :=
    World.withGen_alike (World.withGen_alike (fun _ => rfl) hk1 x.1)
      (by rw [World.withGen_obj, if_neg (Ne.symm hg)]; exact hk2) x.2
  rw [shareWhere_iff _ (fun i => R.nthDraw i x.1 ∈ gateDraws p A ∧ R.nthDraw i x.2 ∈ gateDraws q B), hlen]
  · congr 1
    refine Finset.sum_congr rfl fun i _ => ?_
    rw [Set.indicator_apply]
    rfl
  · intro i d hi
    have h1 := filled_iff (ha.congr al) (hne.congr al) (hd x k) hi
    have h2 := filled_iff (hb.congr al) (hne'.congr al) (hd x k) hi
    rw [World.withGen_obj, if_neg hg, World.withGen_obj, if_pos rfl] at h1
    rw [World.withGen_obj, if_pos rfl] at h2
    rw [mem_gateDraws h1, mem_gateDraws h2]

/-- **C130 (gates, same state).** If the generators of the two gates are always in the same state, as after
seeding, the share of the documents with both fields tends to the smaller of `p` and `q`. -/
theorem C130_same_state [MeasurableSpace R.G] (μ : Measure R.G) (hU : FairDraws R μ)
    (str : Val → List Char) {w : World R} {fields : Dict Ref} {a b : String}
    {f e rp g f' e' rp' g' : Ref} {p q : ℝ} (ha : GateOf w fields a f e rp g p)
    (hb : GateOf w fields b f' e' rp' g' q) (hg : g ≠ g') (hp0 : 0 ≤ p) (hp1 : p ≤ 1) (hq0 : 0 ≤ q)
    (hne : NeverNone str w e) (hne' : NeverNone str w e') (fuel : Nat)
    (docs : R.G → ℕ → List (Dict Val))
    (hd : ∀ x k, World.documents str fuel fields k ((w.withGen g x).withGen g' x) = (docs x k).map .ok) :
    ∀ᵐ x ∂μ, Tendsto (fun k => shareWhere (fun d => Filled d a ∧ Filled d b) (docs x k)) atTop
      (𝓝 (min p q)) := by
  obtain ⟨k1, hk1⟩ := ha.chance.node
  obtain ⟨k2, hk2⟩ := hb.chance.node
  have hvol := gateDraws_volume (le_min hp0 hq0) ((min_le_left p q).trans hp1) true
  rw [if_pos rfl] at hvol
  have key := draws_frequency hU (gateDraws_measurable (min p q) true)
  rw [hvol] at key
  filter_upwards [key] with x hx
  refine hx.congr fun k => ?_
  have hlen : (docs x k).length = k := by
    have := World.documents_length str fuel fields k ((w.withGen g x).withGen g' x)
    rwa [hd, List.length_map] at this
  have al : World.Alike w ((w.withGen g x).withGen g' x) :=
    World.withGen_alike (World.withGen_alike (fun _ => rfl) hk1 x)
      (by rw [World.withGen_obj, if_neg (Ne.symm hg)]; exact hk2) x
  rw [shareWhere_eq _ (gateDraws (min p q) true) (fun i => R.nthDraw i x), hlen]
  intro i d hi
  have h1 := filled_iff (ha.congr al) (hne.congr al) (hd x k) hi
  have h2 := filled_iff (hb.congr al) (hne'.congr al) (hd x k) hi
  rw [World.withGen_obj, if_neg hg, World.withGen_obj, if_pos rfl] at h1
  rw [World.withGen_obj, if_pos rfl] at h2
  rw [h1, h2]
  exact lt_min_iff.symm

/-- **C130 (gate and value), violated.** After `seed_fields(s)`, whatever the seed and however many documents
are made: the field with the gate `chance(p)` is never filled beside the `j`-th item of the other field, if
the items before it have at least the share `p` of the weights. -/
theorem C130_value_violated {V : Ref → Val → Prop} (str : Val → List Char) {w : World R} {fields : Dict Ref}
    {a b : String} {f e rp g f' e' : Ref} {p : ℝ} {items : List Val} {ws : List ℝ}
    (ha : GateOf w fields a f e rp g p) (hb : DrawnField w fields b f' e' items ws) (hnd : items.Nodup)
    (hne : NeverNone str w e) (ht : TypedOn V (fun _ => True) w) (s : Int) (fuel : Nat)
    (hok : (World.seedFields fuel (some s) fields w).1 = .ok ()) (fuel' n : Nat) (docs : List (Dict Val))
    (hd : World.documents str fuel' fields n (World.seedFields fuel (some s) fields w).2 = docs.map .ok)
    (hob : OneEach b docs) {j : Nat} {y : Val} (hj : items[j]? = some y)
    (hp : p ≤ (ws.take j).sum / ws.sum) :
    shareWhere (fun d => Filled d a ∧ d.get? b = some y) docs = 0 := by
  rw [shareWhere_iff _ (fun _ => False) docs]
  · simp
  · intro m d hm
    simp only [iff_false]
    rintro ⟨h1, h2⟩
    have hs := World.seedFields_shape fuel (some s) fields w
    obtain ⟨ga, ra⟩ := seeded_gate ha hok
    have hu := (filled_iff ga (hne.congr hs) hd hm).1 h1
    rw [ra] at hu
    have hm' : (valuesOf b docs)[m]? = some y := by rw [hob.getElem, hm]; exact h2
    have hpick := seeded_pair str hb hnd ht s fuel hok fuel' n docs hd hm' hj
    have hws : ws ≠ [] := by
      rintro rfl
      exact absurd hb.picks.total (by simp)
    obtain ⟨_, b1, _⟩ := choicesPick_spec ws hws hb.picks.total (R.nthDraw m (R.ofSeed s))
      (nthDraw_mem R m _).1 (nthDraw_mem R m _).2
    rw [← hpick, ← div_le_iff₀ hb.picks.total] at b1
    exact absurd (hu.trans_le (hp.trans b1)) (lt_irrefl _)

/-- **C130 (gate and value, partial).** The same for a field with a gate and a field, in every document, with
values drawn from a choice: if their generators have nothing to do with each other, then, with probability
1, the share of the documents in which the first is filled (or is not) and the second is `y` tends to the
product of the shares. -/
theorem C130_value_partial [MeasurableSpace R.G] (μ ν : Measure R.G) (hU : FairDraws R μ)
    (hV : FairDraws R ν) {V : Ref → Val → Prop} (str : Val → List Char) {w : World R} {fields : Dict Ref}
    {a b : String} {f e rp g f' e' : Ref} {p : ℝ} {items : List Val} {ws : List ℝ}
    (ha : GateOf w fields a f e rp g p) (hb : DrawnField w fields b f' e' items ws) (hg : g ≠ e')
    (hp0 : 0 ≤ p) (hp1 : p ≤ 1) (hws : ∀ x ∈ ws, 0 ≤ x) (hne : NeverNone str w e)
    (ht : TypedOn V (fun _ => True) w) (fuel : Nat) (docs : R.G × R.G → ℕ → List (Dict Val))
    (hd : ∀ x k, World.documents str fuel fields k ((w.withGen g x.1).withGen e' x.2) = (docs x k).map .ok)
    (hob : ∀ x k, OneEach b (docs x k)) (A : Bool) (y : Val) :
    ∀ᵐ x ∂(μ.prod ν), Tendsto
      (fun k => shareWhere (fun d => (Filled d a ↔ A = true) ∧ d.get? b = some y) (docs x k)) atTop
      (𝓝 ((if A then p else 1 - p) * shareOf items ws y)) := by
  classical
  obtain ⟨k1, hk1⟩ := ha.chance.node
  obtain ⟨k2, hk2⟩ := hb.picks.node
  rw [← gateDraws_volume hp0 hp1 A, ← hits_volume hb.picks.same.symm hws hb.picks.total y]
  filter_upwards [pairs_frequency hU hV (gateDraws_measurable p A)
    (hits_measurable (items := items) (ws := ws) y)] with x hx
  refine hx.congr fun k => ?_
  have hlen : (docs x k).length = k := by
    have := World.documents_length str fuel fields k ((w.withGen g x.1).withGen e' x.2)
    rwa [hd, List.length_map] at this
  have al : World.Alike w ((w.withGen g x.1).withGen e' x.2) :=
    World.withGen_alike (World.withGen_alike (fun _ => rfl) hk1 x.1)
      (by rw [World.withGen_obj, if_neg (Ne.symm hg)]; exact hk2) x.2
  have ht' := withGen_typed (r := e') x.2 (withGen_typed (r := g) x.1 ht)
  rw [shareWhere_iff _ (fun i => R.nthDraw i x.1 ∈ gateDraws p A ∧ R.nthDraw i x.2 ∈ hits items ws y), hlen]
  · congr 1
    refine Finset.sum_congr rfl fun i _ => ?_
    rw [Set.indicator_apply]
    rfl
  · intro i d hi
    have h1 := filled_iff (ha.congr al) (hne.congr al) (hd x k) hi
    have h2 := drawn_iff str (hb.congr al) hws ht' (hd x k) (hob x k) y hi
    rw [World.withGen_obj, if_neg hg, World.withGen_obj, if_pos rfl] at h1
    rw [World.withGen_obj, if_pos rfl] at h2
    rw [mem_gateDraws h1, h2]

/-! ### Examples -/

/-- Gates `chance(1/3)` and `chance(1/2)` with generators of their own: a sixth of the documents has the
first field and not the second. -/
example : ∃ docs : replayRng.G × replayRng.G → ℕ → List (Dict Val),
    (∀ x k, World.documents demoStr 5 coinFields k
      (((coinWorld replayRng (1 / 3) (1 / 2)).withGen 2 x.1).withGen 6 x.2) = (docs x k).map .ok) ∧
    ∀ᵐ x ∂(replayMeasure.prod replayMeasure), Tendsto (fun k => shareWhere (fun d =>
      (Filled d "a" ↔ true = true) ∧ (Filled d "b" ↔ false = true)) (docs x k)) atTop (𝓝 (1 / 6)) := by
  have hex := fun (x : replayRng.G × replayRng.G) (k : ℕ) => coin_documents demoStr 3 k
    (World.withGen_alike (World.withGen_alike (w := coinWorld replayRng (1 / 3) (1 / 2)) (fun _ => rfl)
      (k := .list) (r := 2) rfl x.1) (k := .list) (r := 6) rfl x.2)
  choose docs hd using hex
  refine ⟨docs, hd, ?_⟩
  have := C130_gates_partial replayMeasure replayMeasure replayRng_fair replayRng_fair demoStr coin_a coin_b
    (by decide) (by norm_num) (by norm_num) (by norm_num) (by norm_num) (coin_never_a demoStr)
    (coin_never_b demoStr) 5 docs hd true false
  rwa [show ((if true = true then (1 / 3 : ℝ) else 1 - 1 / 3) * if false = true then (1 / 2 : ℝ) else 1 - 1 / 2) =
    1 / 6 by norm_num] at this

/-- After seeding none has. -/
example (s : Int) (n : Nat) : ∃ docs : List (Dict Val), World.documents demoStr 5 coinFields n
      (World.seedFields 5 (some s) coinFields (coinWorld replayRng (1 / 3) (1 / 2))).2 = docs.map .ok ∧
    shareWhere (fun d => Filled d "a" ∧ ¬ Filled d "b") docs = 0 := by
  obtain ⟨docs, h⟩ := coin_documents demoStr 3 n
    (World.seedFields_shape 5 (some s) coinFields (coinWorld replayRng (1 / 3) (1 / 2)))
  exact ⟨docs, h, C130_gates_violated demoStr coin_a coin_b (by norm_num) (coin_never_a demoStr)
    (coin_never_b demoStr) s 5 rfl 5 n docs h⟩

/-- In the same state a third has both. -/
example : ∃ docs : replayRng.G → ℕ → List (Dict Val),
    (∀ x k, World.documents demoStr 5 coinFields k
      (((coinWorld replayRng (1 / 3) (1 / 2)).withGen 2 x).withGen 6 x) = (docs x k).map .ok) ∧
    ∀ᵐ x ∂replayMeasure, Tendsto (fun k => shareWhere (fun d => Filled d "a" ∧ Filled d "b") (docs x k)) atTop
      (𝓝 (1 / 3)) := by
  have hex := fun (x : replayRng.G) (k : ℕ) => coin_documents demoStr 3 k
    (World.withGen_alike (World.withGen_alike (w := coinWorld replayRng (1 / 3) (1 / 2)) (fun _ => rfl)
      (k := .list) (r := 2) rfl x) (k := .list) (r := 6) rfl x)
  choose docs hd using hex
  refine ⟨docs, hd, ?_⟩
  have := C130_same_state replayMeasure replayRng_fair demoStr coin_a coin_b
    (by decide) (by norm_num) (by norm_num) (by norm_num) (coin_never_a demoStr)
    (coin_never_b demoStr) 5 docs hd
  rwa [show min (1 / 3 : ℝ) (1 / 2) = 1 / 3 by norm_num] at this

/-! Field `a` of `coinWorld R 1 q`, whose gate is always open, has one value in each document. -/

theorem coin_drawn {q : ℝ} : DrawnField (coinWorld R 1 q) coinFields "a" 3 0 [.str ['x'], .str ['y']] [1, 1] where
  keys := by decide
  user := ⟨by decide, ⟨_, 1, 2, false, rfl, fun h => absurd (coin_below 1 rfl h) (by decide),
    fun h => absurd (coin_below 2 rfl h) (by decide)⟩, fun kf hk hne h => by
      simp only [coinFields, List.mem_cons, List.not_mem_nil, or_false] at hk
      rcases hk with rfl | rfl
      · exact hne rfl
      · exact absurd (coin_below7 h) (by decide)⟩
  visible := rfl
  picks := ⟨⟨_, rfl⟩, rfl, rfl, rfl, rfl, rfl, by decide, by norm_num⟩
  roac := rfl
  plain x hx := by
    simp only [List.mem_cons, List.not_mem_nil, or_false] at hx
    rcases hx with rfl | rfl <;> trivial

theorem coin_typed {q : ℝ} : TypedOn shirtV (fun _ => True) (coinWorld R 1 q) := by
  have hc : ∀ {r : Ref} {items : List Val} {ws : List ℝ}, r ≠ 1 → r ≠ 5 → items ≠ [] →
      ws.length = items.length → (coin R items ws).Typed shirtV r := by
    intro r items ws h1 h5 hne hl
    have hi : (coin R items ws).choice.Intact := by
      refine ⟨hne, .inr ⟨ws, rfl, rfl, hl⟩, ?_, ?_, ?_⟩
      · intro h; cases h
      · intro _; rfl
      · intro h; cases h
    refine ⟨hi, ?_⟩
    rintro x - (h | h)
    · exact absurd h h1
    · exact absurd h h5
  have hf : ∀ {r rp : Ref} {n : String} {e g : Ref}, r ≠ 1 → r ≠ 5 → (rp = 1 ∨ rp = 5) →
      (gated R n e rp g).Typed shirtV r := by
    intro r rp n e g h1 h5 hrp
    refine ⟨?_, fun v hv i hi => ?_⟩
    · rintro x (h | h)
      · exact absurd h h1
      · exact absurd h h5
    · rw [hv hrp] at hi
      cases hi
  refine allTyped_iff.2 fun r => ?_
  match r with
  | 0 => exact hc (by decide) (by decide) (by simp) rfl
  | 1 => exact fun _ => rfl
  | 2 => exact hc (by decide) (by decide) (by simp) rfl
  | 3 => exact hf (by decide) (by decide) (.inl rfl)
  | 4 => exact fun h => absurd h (by decide)
  | 5 => exact fun _ => rfl
  | 6 => exact hc (by decide) (by decide) (by simp) rfl
  | 7 => exact hf (by decide) (by decide) (.inr rfl)
  | _ + 8 => exact trivial

theorem coin_plain {q : ℝ} (str : Val → List Char) {w : World R} (ha : World.Alike (coinWorld R 1 q) w)
    (fuel : Nat) : ∃ v w', World.call str (fuel + 2) 3 none w = (.ok v, w') ∧ v.Plain := by
  have h := coin_a (R := R) (p := 1) (q := q)
  have hc := World.chance_call (h.chance.congr (ha 2)) str fuel
  have a1 := World.withGen_alike (k := .list) ha ((World.node_of_shape (ha 2)).trans rfl)
    (R.random (w.obj 2).choice.rng).2
  obtain ⟨v1, w1, h1, hv1⟩ := coin_leaf str a1 (r := 1) (by decide) none (.inl rfl) fuel
  have hv := hv1 (by decide)
  subst hv
  obtain ⟨v2, hm, h2⟩ := World.picks_call (coin_picks.congr (World.alike_after a1 h1 0)) str fuel (some .none)
    (.inr rfl)
  refine ⟨v2, _, (C46_store str (fuel + 1) (World.node_of_shape (ha 3)) v2 _).2
    ⟨_, _, hc, .inr ⟨?_, _, _, _, h1, h2, rfl⟩⟩, coin_drawn (R := R) (q := q) |>.plain _ (List.mem_of_getElem? hm)⟩
  simp [Val.truthy, R.random_lt_one]

theorem coin_document_plain {q : ℝ} (str : Val → List Char) {w : World R}
    (ha : World.Alike (coinWorld R 1 q) w) (fuel : Nat) :
    ∃ v1 v2 w', World.document str (fuel + 2) coinFields w = (.ok [("a", v1), ("b", v2)], w') ∧ v1.Plain := by
  obtain ⟨v1, w1, h1, hp⟩ := coin_plain str ha fuel
  obtain ⟨v2, w2, h2⟩ := coin_field str (World.alike_after ha h1) coin_b (by decide) (by decide) fuel
  have hh : ∀ f ∈ ([3, 7] : List Ref), (w.obj f).hide = false := by
    intro f hf
    unfold Attrs.hide
    rw [World.node_of_shape (ha f)]
    simp only [List.mem_cons, List.not_mem_nil, or_false] at hf
    rcases hf with rfl | rfl <;> rfl
  refine ⟨v1, v2, w2, ?_, hp⟩
  unfold World.document Schema.call
  rw [PyM.run_get_bind]
  unfold coinFields
  have l2 : ∀ doc, Schema.loop (fun r => (w.obj r).hide) (fun r => World.call str (fuel + 2) r none) doc
      [("b", 7)] w1 = (.ok (doc.set "b" v2), w2) := by
    intro doc
    unfold Schema.loop
    rw [PyM.bind_ok h2, if_neg (by rw [hh 7 (by decide)]; decide)]
    rfl
  unfold Schema.loop
  rw [PyM.bind_ok h1, if_neg (by rw [hh 3 (by decide)]; decide), l2]
  rfl

theorem coin_documents_plain {q : ℝ} (str : Val → List Char) (fuel n : Nat) : ∀ {w : World R}
    (_ : World.Alike (coinWorld R 1 q) w), ∃ docs : List (Dict Val),
      World.documents str (fuel + 2) coinFields n w = docs.map .ok ∧ OneEach "a" docs := by
  induction n with
  | zero => exact fun _ => ⟨[], rfl, fun d hd => by cases hd⟩
  | succ n ih =>
    intro w ha
    obtain ⟨v1, v2, w', h, hp⟩ := coin_document_plain str ha fuel
    have ha' : World.Alike (coinWorld R 1 q) w' := by
      have := World.loop_alike str (coinWorld R 1 q) (fuel + 2) (fun r => (w.obj r).hide) coinFields [] w ha
      unfold World.document Schema.call at h
      rw [PyM.run_get_bind] at h
      rw [h] at this
      exact this
    obtain ⟨docs, hd, ho⟩ := ih ha'
    refine ⟨[("a", v1), ("b", v2)] :: docs, ?_, fun d hm => ?_⟩
    · unfold World.documents
      rw [h, List.map_cons, hd]
    · rcases List.mem_cons.1 hm with rfl | hm
      · exact ⟨v1, rfl, hp⟩
      · exact ho d hm

/-- With generators of their own an eighth of the documents has `z` beside `y`, if the gate of `z` is
`chance(1/4)`. -/
example : ∃ docs : replayRng.G × replayRng.G → ℕ → List (Dict Val),
    (∀ x k, World.documents demoStr 5 coinFields k
      (((coinWorld replayRng 1 (1 / 4)).withGen 6 x.1).withGen 0 x.2) = (docs x k).map .ok) ∧
    ∀ᵐ x ∂(replayMeasure.prod replayMeasure), Tendsto (fun k => shareWhere (fun d =>
      (Filled d "b" ↔ true = true) ∧ d.get? "a" = some (.str ['y'])) (docs x k)) atTop (𝓝 (1 / 8)) := by
  have hex := fun (x : replayRng.G × replayRng.G) (k : ℕ) => coin_documents_plain demoStr 3 k
    (World.withGen_alike (World.withGen_alike (w := coinWorld replayRng 1 (1 / 4)) (fun _ => rfl)
      (k := .list) (r := 6) rfl x.1) (k := .list) (r := 0) rfl x.2)
  choose docs hd ho using hex
  refine ⟨docs, hd, ?_⟩
  have := C130_value_partial replayMeasure replayMeasure replayRng_fair replayRng_fair demoStr coin_b coin_drawn
    (by decide) (by norm_num) (by norm_num) (by norm_num) (coin_never_b demoStr) coin_typed 5 docs hd ho true
    (.str ['y'])
  rwa [show shareOf [Val.str ['x'], .str ['y']] [1, 1] (.str ['y']) = 1 / 2 by
      have hM : ¬ ('x' : Char) = 'y' := by decide
      norm_num [shareOf, List.filter_cons, hM],
    show ((if true = true then (1 / 4 : ℝ) else 1 - 1 / 4) * (1 / 2)) = 1 / 8 by norm_num] at this

/-- After seeding none has. -/
example (s : Int) (n : Nat) : ∃ docs : List (Dict Val), World.documents demoStr 5 coinFields n
      (World.seedFields 5 (some s) coinFields (coinWorld replayRng 1 (1 / 4))).2 = docs.map .ok ∧
    shareWhere (fun d => Filled d "b" ∧ d.get? "a" = some (.str ['y'])) docs = 0 := by
  obtain ⟨docs, h, ho⟩ := coin_documents_plain demoStr 3 n
    (World.seedFields_shape 5 (some s) coinFields (coinWorld replayRng 1 (1 / 4)))
  exact ⟨docs, h, C130_value_violated demoStr coin_b coin_drawn (by decide) (coin_never_b demoStr) coin_typed s 5
    rfl 5 n docs h ho (j := 1) rfl (by norm_num)⟩

end Fauxdoc
