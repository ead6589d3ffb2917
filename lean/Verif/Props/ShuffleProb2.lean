import Verif.Props.ShuffleProb
import Verif.Proofs.DrawTree
/-
C70 for small samples (`_faster_for_low_k`), and both algorithms together.
-/
set_option linter.unusedSectionVars false
namespace Fauxdoc
open MeasureTheory
variable {R : Rng ℝ}

/-! ### The loop as single picks -/

abbrev LTree := DTree (Except Err (List Nat))

/-- One round: `m` more picks with the weights `W`; `ws` are the weights of what is left. -/
noncomputable def roundTree (W : List ℝ) (c : List ℝ → List Nat → LTree) :
    Nat → List ℝ → List Nat → LTree
  | 0, ws, s => c ws s
  | m + 1, ws, s => .draw W fun i =>
      if ws.getD i 0 ≠ 0 then roundTree W c m (ws.set i 0) (s ++ [i]) else roundTree W c m ws s

noncomputable def lowTree (k : Nat) : Nat → List ℝ → List Nat → LTree
  | 0, _, _ => .leaf (.error .diverges)
  | fuel + 1, ws, s =>
    if s.length = k then .leaf (.ok s) else roundTree ws (lowTree k fuel) (k - s.length) ws s

/-- `m` draws further. -/
def Rng.after (R : Rng ℝ) : Nat → R.G → R.G
  | 0, g => g
  | m + 1, g => R.after m (R.random g).2

theorem nthDraw_after (R : Rng ℝ) (m i : Nat) : ∀ g, R.nthDraw i (R.after m g) = R.nthDraw (i + m) g := by
  induction m with
  | zero => intro g; rfl
  | succ m ih => intro g; exact ih _

theorem rands_after (R : Rng ℝ) (m : Nat) : ∀ g : R.G, R.rands m g =
    (.ok ((List.range m).map fun j => R.nthDraw j g), R.after m g) := by
  induction m with
  | zero => exact fun g => rfl
  | succ m ih =>
    intro g
    change (R.rand >>= fun u => R.rands m >>= fun us => pure (u :: us)) g = _
    rw [PyM.bind_ok (m := R.rand) (a := (R.random g).1) (s' := (R.random g).2) rfl,
      PyM.bind_ok (ih _), List.range_succ_eq_map, List.map_cons, List.map_map]
    rfl

theorem roundTree_eval (W : List ℝ) (c : List ℝ → List Nat → LTree) (m : Nat) :
    ∀ (ws : List ℝ) (s : List Nat) (u : Nat → ℝ),
    (roundTree W c m ws s).eval u =
      (c (lowKScan ((List.range m).map fun j => choicesPick (accumulate W) W.sum (u j)) ws s).1
        (lowKScan ((List.range m).map fun j => choicesPick (accumulate W) W.sum (u j)) ws s).2).eval
          fun i => u (i + m) := by
  induction m with
  | zero => intro ws s u; rfl
  | succ m ih =>
    intro ws s u
    rw [roundTree, DTree.eval, List.range_succ_eq_map, List.map_cons, List.map_map, lowKScan]
    have hs : ∀ ws s, (roundTree W c m ws s).eval (fun i => u (i + 1)) = _ := fun ws s =>
      ih ws s fun i => u (i + 1)
    by_cases h : ws.getD (choicesPick (accumulate W) W.sum (u 0)) 0 ≠ 0
    · rw [if_pos h, if_pos h, hs]
      simp only [Function.comp_def, Nat.succ_eq_add_one, Nat.add_assoc]
    · rw [if_neg h, if_neg h, hs]
      simp only [Function.comp_def, Nat.succ_eq_add_one, Nat.add_assoc]

/-- Something is left as long as not all positive weights are taken. -/
theorem LowInv.sum_pos {ws0 ws : List ℝ} {s : List Nat} (h : LowInv ws0 ws s)
    (hnn : ∀ w ∈ ws0, 0 ≤ w) (hlt : s.length < (ws0.filter (0 < ·)).length) : 0 < ws.sum := by
  obtain ⟨i, hi⟩ := h.exists_left hlt
  exact list_sum_pos_of_getD (h.nonneg hnn) hi

theorem lowTree_eval {k : Nat} {ws0 : List ℝ} (hnn : ∀ w ∈ ws0, 0 ≤ w)
    (hk : k ≤ (ws0.filter (0 < ·)).length) :
    ∀ (fuel : Nat) (ws : List ℝ) (s : List Nat) (g : R.G), LowInv ws0 ws s → s.length ≤ k →
    (lowK R ws0.length k fuel ws s g).1 = (lowTree k fuel ws s).eval fun i => R.nthDraw i g := by
  intro fuel
  induction fuel with
  | zero => intros; rfl
  | succ fuel ih =>
    intro ws s g hinv hs
    rw [lowK, lowTree]
    by_cases h0 : s.length = k
    · rw [if_pos (by omega), if_pos h0]; rfl
    · rw [if_neg (by omega), if_neg h0]
      have hsum := hinv.sum_pos hnn (by omega)
      have hne : ws ≠ [] := by rintro rfl; simp at hsum
      obtain ⟨us, g1, hr, hl, hu, hc⟩ := choicesCum_ok R ws hne hsum ((k : Int) - (s.length : Int)) g
      rw [hinv.len] at hc
      rw [PyM.bind_ok hc]
      rw [rands_after] at hr
      have e : ((k : Int) - (s.length : Int)).toNat = k - s.length := by omega
      rw [e] at hr hl
      cases hr
      rw [roundTree_eval]
      simp only [List.map_map, Function.comp_def]
      obtain ⟨a, b, c⟩ := lowKScan_inv ((List.range (k - s.length)).map fun j =>
        choicesPick (accumulate ws) ws.sum (R.nthDraw j g)) hinv
      simp only [List.length_map, List.length_range] at b
      rw [ih _ _ _ a (by omega)]
      simp only [nthDraw_after]

/-! ### The probability of its results -/

theorem roundTree_good {ws0 W : List ℝ} {c : List ℝ → List Nat → LTree} {N : Nat}
    (hnn : ∀ w ∈ W, 0 ≤ w) (hpos : 0 < W.sum) (m : Nat) : ∀ (ws : List ℝ) (s : List Nat),
    LowInv ws0 ws s →
    (∀ ws' s', LowInv ws0 ws' s' → s'.length ≤ s.length + m → (c ws' s').Good N) →
    (roundTree W c m ws s).Good (N + m) := by
  induction m with
  | zero => intro ws s h hc; exact hc ws s h (by omega)
  | succ m ih =>
    intro ws s h hc
    rw [roundTree]
    refine ⟨hnn, hpos, fun i => ?_⟩
    beta_reduce
    by_cases hi : ws.getD i 0 ≠ 0
    · rw [if_pos hi]
      exact ih _ _ (h.step hi) fun ws' s' h' hl => hc ws' s' h' (by simp at hl; omega)
    · rw [if_neg hi]
      exact ih _ _ h fun ws' s' h' hl => hc ws' s' h' (by omega)

theorem lowTree_good {k : Nat} {ws0 : List ℝ} (hnn : ∀ w ∈ ws0, 0 ≤ w)
    (hk : k ≤ (ws0.filter (0 < ·)).length) : ∀ (fuel : Nat) (ws : List ℝ) (s : List Nat),
    LowInv ws0 ws s → s.length ≤ k → (lowTree k fuel ws s).Good (fuel * k) := by
  intro fuel
  induction fuel with
  | zero => intros; simp [lowTree, DTree.Good]
  | succ fuel ih =>
    intro ws s h hs
    rw [lowTree]
    by_cases h0 : s.length = k
    · rw [if_pos h0]
      cases (fuel + 1) * k <;> trivial
    · rw [if_neg h0]
      have := roundTree_good (ws0 := ws0) (c := lowTree k fuel) (N := fuel * k) (h.nonneg hnn)
        (h.sum_pos hnn (by omega)) (k - s.length) ws s h fun ws' s' h' hl => ih ws' s' h' (by omega)
      exact this.mono (by rw [Nat.add_mul, one_mul]; omega)

theorem roundTree_zero {W : List ℝ} {c : List ℝ → List Nat → LTree} {ps : List Nat}
    (hc : ∀ ws s, ¬ s <+: ps → (c ws s).prob (.ok ps) = 0) (m : Nat) :
    ∀ (ws : List ℝ) (s : List Nat), ¬ s <+: ps → (roundTree W c m ws s).prob (.ok ps) = 0 := by
  induction m with
  | zero => exact hc
  | succ m ih =>
    intro ws s h
    rw [roundTree, DTree.prob]
    refine Finset.sum_eq_zero fun i _ => ?_
    by_cases hi : ws.getD i 0 ≠ 0
    · rw [if_pos hi, ih _ _ fun h' => h ((List.prefix_append s [i]).trans h'), mul_zero]
    · rw [if_neg hi, ih _ _ h, mul_zero]

theorem lowTree_zero {k : Nat} {ps : List Nat} : ∀ (fuel : Nat) (ws : List ℝ) (s : List Nat),
    ¬ s <+: ps → (lowTree k fuel ws s).prob (.ok ps) = 0 := by
  intro fuel
  induction fuel with
  | zero => intro ws s _; simp [lowTree, DTree.prob]
  | succ fuel ih =>
    intro ws s h
    rw [lowTree]
    by_cases h0 : s.length = k
    · rw [if_pos h0, DTree.prob, if_neg]
      intro h1
      cases h1
      exact h (List.prefix_refl _)
    · rw [if_neg h0]
      exact roundTree_zero ih _ _ _ h

theorem sum_getD (ws : List ℝ) : ws.sum = ∑ i ∈ Finset.range ws.length, ws.getD i 0 := by
  rw [Finset.sum_range, ← Fin.sum_univ_getElem]
  exact Finset.sum_congr rfl fun i _ => (List.getD_eq_getElem _ _ i.2).symm

theorem sum_set_zero (ws : List ℝ) {p : Nat} (hp : p < ws.length) :
    (ws.set p 0).sum = ws.sum - ws.getD p 0 := by
  have h1 : ws.getD p 0 = ∑ i ∈ Finset.range ws.length, if i = p then ws.getD p 0 else 0 := by
    rw [Finset.sum_ite_eq', if_pos (Finset.mem_range.2 hp)]
  rw [h1, sum_getD, sum_getD ws, List.length_set, ← Finset.sum_sub_distrib]
  refine Finset.sum_congr rfl fun i hi => ?_
  by_cases h : i = p
  · subst h; simp [hp]
  · simp [List.getElem?_set_ne (Ne.symm h), h]

/-- One pick, in a round that began with the weights `W` and where `ws` is left: with `F i` the
probability of the wanted rest after pick `i`. -/
theorem pick_step {W ws : List ℝ} (hlen : W.length = ws.length)
    (hW : ∀ i, ws.getD i 0 ≠ 0 → W.getD i 0 = ws.getD i 0) (hW0 : W.sum ≠ 0) (hws0 : ws.sum ≠ 0)
    {p : Nat} (hp : p < ws.length) {S S' : ℝ} (hS : S = ws.getD p 0 / ws.sum * S') (F : Nat → ℝ)
    (hF : ∀ i, W.getD i 0 ≠ 0 → F i = if ws.getD i 0 = 0 then S else if i = p then S' else 0) :
    ∑ i ∈ Finset.range W.length, W.getD i 0 / W.sum * F i = S := by
  have hterm : ∀ i ∈ Finset.range W.length, W.getD i 0 / W.sum * F i =
      (W.getD i 0 - ws.getD i 0) / W.sum * S +
        (if i = p then ws.getD p 0 / W.sum * S' else 0) := by
    intro i _
    by_cases h0 : ws.getD i 0 = 0
    · have e : (if i = p then ws.getD p 0 / W.sum * S' else 0) = 0 := by
        by_cases hip : i = p
        · subst hip; rw [if_pos rfl, h0]; ring
        · rw [if_neg hip]
      rw [e]
      by_cases hw : W.getD i 0 = 0
      · rw [hw, h0]; ring
      · rw [hF i hw, if_pos h0, h0]; ring
    · rw [hF i (by rw [hW i h0]; exact h0), if_neg h0, hW i h0]
      by_cases hip : i = p
      · subst hip; rw [if_pos rfl, if_pos rfl]; ring
      · rw [if_neg hip, if_neg hip]; ring
  rw [Finset.sum_congr rfl hterm, Finset.sum_add_distrib, Finset.sum_ite_eq', ← Finset.sum_mul,
    ← Finset.sum_div, Finset.sum_sub_distrib, if_pos (Finset.mem_range.2 (by omega)), ← sum_getD,
    hlen, ← sum_getD, hS]
  field_simp
  ring

theorem roundTree_prob {ws0 W : List ℝ} {c : List ℝ → List Nat → LTree} {ps : List Nat} {b : Nat}
    (hnn : ∀ w ∈ ws0, 0 ≤ w) (hnd : ps.Nodup) (hlt : ∀ p ∈ ps, p < ws0.length)
    (hk : ps.length ≤ (ws0.filter (0 < ·)).length) (hWlen : W.length = ws0.length) (hW0 : 0 < W.sum)
    (hc0 : ∀ ws s, ¬ s <+: ps → (c ws s).prob (.ok ps) = 0)
    (hc : ∀ ws s r, LowInv ws0 ws s → b < s.length → ps = s ++ r →
      (c ws s).prob (.ok ps) = succProb ws.sum (r.map (ws0.getD · 0))) (m : Nat) :
    ∀ (ws : List ℝ) (s r : List Nat), LowInv ws0 ws s →
      (∀ i, ws.getD i 0 ≠ 0 → W.getD i 0 = ws.getD i 0) → ps = s ++ r → m ≤ r.length →
      (b < s.length ∨ b = s.length ∧ W = ws ∧ 0 < m) →
      (roundTree W c m ws s).prob (.ok ps) = succProb ws.sum (r.map (ws0.getD · 0)) := by
  induction m with
  | zero =>
    intro ws s r h _ hps _ hb
    exact hc ws s r h (by omega) hps
  | succ m ih =>
    intro ws s r h hW hps hm hb
    cases r with
    | nil => simp at hm
    | cons p r =>
      have hlen : s.length + (r.length + 1) = ps.length := by rw [hps]; simp
      have hws := h.sum_pos hnn (by omega)
      have hp : p < ws.length := by rw [h.len]; exact hlt p (by rw [hps]; simp)
      have hps' : p ∉ s := by
        rw [hps, List.nodup_append] at hnd
        exact fun hs => hnd.2.2 p hs p (by simp) rfl
      have hval : ws.getD p 0 = ws0.getD p 0 := by rw [h.val p, if_neg hps']
      rw [roundTree, DTree.prob]
      refine pick_step (by rw [hWlen, h.len]) hW hW0.ne' hws.ne' hp
        (S' := succProb (ws.sum - ws.getD p 0) (r.map (ws0.getD · 0)))
        (by rw [List.map_cons, succProb, hval]) _ fun i hi => ?_
      by_cases h0 : ws.getD i 0 = 0
      · rw [if_neg (not_not.2 h0), if_pos h0]
        refine ih ws s (p :: r) h hW hps (by simp at hm ⊢; omega) ?_
        rcases hb with hb | ⟨_, rfl, _⟩
        · exact .inl hb
        · exact absurd h0 hi
      · rw [if_pos h0, if_neg h0]
        by_cases hip : i = p
        · subst hip
          rw [if_pos rfl, ← sum_set_zero ws hp]
          refine ih _ _ r (h.step h0) (fun j hj => ?_) (by rw [hps]; simp) (by simp at hm; omega)
            (.inl (by simp; omega))
          by_cases hji : j = i
          · subst hji
            rw [List.getD_eq_getElem _ _ (by simpa using hp)] at hj
            simp at hj
          · have e : (ws.set i 0).getD j 0 = ws.getD j 0 := by
              simp [List.getElem?_set_ne (Ne.symm hji)]
            rw [e] at hj ⊢
            exact hW j hj
        · rw [if_neg hip]
          refine roundTree_zero hc0 m _ _ fun hpre => hip ?_
          rw [hps, List.prefix_append_right_inj] at hpre
          simpa using hpre

theorem lowTree_prob {ws0 : List ℝ} {ps : List Nat} (hnn : ∀ w ∈ ws0, 0 ≤ w) (hnd : ps.Nodup)
    (hlt : ∀ p ∈ ps, p < ws0.length) (hk : ps.length ≤ (ws0.filter (0 < ·)).length) :
    ∀ (fuel : Nat) (ws : List ℝ) (s r : List Nat), LowInv ws0 ws s → ps = s ++ r →
      r.length < fuel →
      (lowTree ps.length fuel ws s).prob (.ok ps) = succProb ws.sum (r.map (ws0.getD · 0)) := by
  intro fuel
  induction fuel with
  | zero => intro ws s r _ _ h; omega
  | succ fuel ih =>
    intro ws s r h hps hr
    have hlen : s.length + r.length = ps.length := by rw [hps]; simp
    rw [lowTree]
    by_cases h0 : s.length = ps.length
    · have : r = [] := List.length_eq_zero_iff.1 (by omega)
      subst this
      rw [if_pos h0, DTree.prob, if_pos (by rw [hps]; simp)]
      rfl
    · rw [if_neg h0]
      exact roundTree_prob hnn hnd hlt hk h.len (h.sum_pos hnn (by omega)) (lowTree_zero fuel)
        (fun ws' s' r' h' hb hps' => ih ws' s' r' h' hps' (by
          have : s'.length + r'.length = ps.length := by rw [hps']; simp
          omega)) _ ws s r h (fun _ _ => rfl) hps (by omega) (.inr ⟨rfl, rfl, by omega⟩)

theorem lowK_prob [MeasurableSpace R.G] (μ : Measure R.G) (ws : List ℝ) (hnn : ∀ w ∈ ws, 0 ≤ w)
    {ps : List Nat} (hU : UniformDraws R μ ((ps.length + 1) * ps.length)) (hnd : ps.Nodup)
    (hlt : ∀ p ∈ ps, p < ws.length) (hk : ps.length ≤ (ws.filter (0 < ·)).length) :
    μ {g | (lowK R ws.length ps.length (ps.length + 1) ws [] g).1 = .ok ps} =
      ENNReal.ofReal (succProb ws.sum (ps.map (ws.getD · 0))) := by
  simp only [lowTree_eval hnn hk (ps.length + 1) ws [] _ (LowInv.start ws) (Nat.zero_le _)]
  rw [DTree.measure_eval μ (lowTree_good hnn hk (ps.length + 1) ws [] (LowInv.start ws)
    (Nat.zero_le _)) hU, lowTree_prob hnn hnd hlt hk (ps.length + 1) ws [] ps (LowInv.start ws) rfl
    (by omega)]

end Fauxdoc
