import Verif.Spec.MeanRun
import Verif.Props.LongRun
import Verif.Props.RepeatDraw
/-
C126: in the long run a field has as many values as the weights of its repeat say.
-/
set_option linter.unusedSectionVars false
namespace Fauxdoc
open MeasureTheory Filter World
open scoped Topology
variable {R : Rng ℝ}

/-- How often something is picked in the long run. -/
theorem picked_frequency {α : Type} [PyHash α] [DecidableEq α] [MeasurableSpace R.G] {μ : Measure R.G}
    (hU : FairDraws R μ) {items : List α} {ws : List ℝ} (hl : ws.length = items.length)
    (hnn : ∀ x ∈ ws, 0 ≤ x) (hsum : 0 < ws.sum) (x : α) :
    ∀ᵐ g ∂μ, Tendsto (fun n => freq x (pickedBy (R := R) items ws n g)) atTop (𝓝 (shareOf items ws x)) := by
  have hne : ws ≠ [] := by
    rintro rfl
    simp at hsum
  rw [← hits_volume hl.symm hnn hsum x]
  refine freq_of_run hU (hits_measurable x) x (fun u => items[choicesPick (accumulate ws) ws.sum u]?)
    (fun u h0 h1 => mem_hits hne hl.symm hnn hsum x h0 h1) (T := fun _ n => n) (fun _ => tendsto_id) _
    fun g k => ?_
  obtain ⟨h1, h2⟩ := pickedBy_getElem (R := R) hl hsum k g
  refine List.ext_getElem? fun m => ?_
  rw [List.getElem?_map, List.getElem?_map]
  by_cases hm : m < k
  · obtain ⟨h3, h4⟩ := h2 m hm
    rw [h4, List.getElem?_range hm, List.getElem?_eq_getElem h3]
    simp [List.getElem?_eq_getElem h3]
  · rw [List.getElem?_eq_none (by omega), List.getElem?_eq_none (by simpa using hm)]
    rfl

theorem sum_of_counts (F : Finset Nat) (l : List Nat) (h : ∀ c ∈ l, c ∈ F) :
    (l.sum : ℝ) = ∑ c ∈ F, (c : ℝ) * l.count c := by
  induction l with
  | nil => simp
  | cons a l ih =>
    have ha := h a (by simp)
    rw [List.sum_cons, Nat.cast_add, ih fun c hc => h c (by simp [hc])]
    simp only [List.count_cons, Nat.cast_add, mul_add, Finset.sum_add_distrib]
    rw [add_comm]
    congr 1
    rw [Finset.sum_eq_single a]
    · simp
    · intro b _ hb
      simp [Ne.symm hb]
    · exact fun hn => absurd ha hn

theorem mean_of_shares (F : Finset Nat) (counts : List Nat) (ws : List ℝ) (h : ∀ c ∈ counts, c ∈ F) :
    ∑ c ∈ F, (c : ℝ) * shareOf counts ws c = meanOf counts ws := by
  unfold shareOf meanOf
  simp only [mul_div_assoc']
  rw [← Finset.sum_div]
  congr 1
  have hz : ∀ q ∈ counts.zip ws, q.1 ∈ F := fun q hq => h _ (List.of_mem_zip hq).1
  generalize counts.zip ws = l at hz
  induction l with
  | nil => simp
  | cons q l ih =>
    rw [List.map_cons, List.sum_cons, ← ih fun x hx => hz x (by simp [hx])]
    have : ∀ c ∈ F, (c : ℝ) * (((q :: l).filter fun q => q.1 = c).map Prod.snd).sum =
        (if c = q.1 then (q.1 : ℝ) * q.2 else 0) + (c : ℝ) * ((l.filter fun q => q.1 = c).map Prod.snd).sum := by
      intro c _
      by_cases hc : q.1 = c
      · simp [hc, mul_add]
      · simp [hc, Ne.symm hc]
    rw [Finset.sum_congr rfl this, Finset.sum_add_distrib, Finset.sum_ite_eq' F q.1, if_pos (hz q (by simp))]

/-- The average of the numbers picked in the long run. -/
theorem picked_mean [MeasurableSpace R.G] {μ : Measure R.G} (hU : FairDraws R μ) {counts : List Nat}
    {ws : List ℝ} (hl : ws.length = counts.length) (hnn : ∀ x ∈ ws, 0 ≤ x) (hsum : 0 < ws.sum) :
    ∀ᵐ g ∂μ, Tendsto (fun n : ℕ => ((pickedBy (R := R) counts ws n g).sum : ℝ) / n) atTop
      (𝓝 (meanOf counts ws)) := by
  have hall : ∀ᵐ g ∂μ, ∀ c ∈ counts.toFinset,
      Tendsto (fun n => freq c (pickedBy (R := R) counts ws n g)) atTop (𝓝 (shareOf counts ws c)) :=
    (eventually_all_finset _).2 fun c _ => picked_frequency hU hl hnn hsum c
  filter_upwards [hall] with g hg
  rw [← mean_of_shares counts.toFinset counts ws fun c hc => List.mem_toFinset.2 hc]
  refine (tendsto_finsetSum _ fun c hc => (hg c hc).const_mul (c : ℝ)).congr fun n => ?_
  rw [sum_of_counts counts.toFinset _ fun c hc => List.mem_toFinset.2 (pickedBy_mem hc), Finset.sum_div]
  refine Finset.sum_congr rfl fun c _ => ?_
  unfold freq
  rw [(pickedBy_getElem (R := R) hl hsum n g).1, mul_div_assoc]

/-- Lists whose lengths are picked by the one generator and whose members by the other. -/
theorem averages_of_runs {α : Type} [DecidableEq α] {Ω : Type} [MeasurableSpace Ω] [MeasurableSpace R.G]
    (P : Measure Ω) {X Y : Ω → R.G} (hX : AEMeasurable X P) (hY : AEMeasurable Y P)
    (hU : FairDraws R (P.map X)) (hV : FairDraws R (P.map Y)) {counts : List Nat} {wc : List ℝ}
    {items : List α} {ws : List ℝ} (hlc : wc.length = counts.length) (hsc : 0 < wc.sum)
    (hli : ws.length = items.length) (hsi : 0 < ws.sum)
    (hwc : ∀ x ∈ wc, 0 ≤ x) (hws : ∀ x ∈ ws, 0 ≤ x) {ls : Ω → ℕ → List (List α)}
    (h2 : ∀ o n, (ls o n).map List.length = pickedBy (R := R) counts wc n (X o))
    (h3 : ∀ o n, (ls o n).flatten = pickedBy (R := R) items ws (ls o n).flatten.length (Y o)) :
    (∀ᵐ o ∂P, Tendsto (fun n : ℕ => ((ls o n).flatten.length : ℝ) / n) atTop (𝓝 (meanOf counts wc))) ∧
      ∀ x, (0 < meanOf counts wc →
          ∀ᵐ o ∂P, Tendsto (fun n => freq x (ls o n).flatten) atTop (𝓝 (shareOf items ws x))) ∧
        ∀ᵐ o ∂P, Tendsto (fun n : ℕ => ((ls o n).flatten.count x : ℝ) / n) atTop
          (𝓝 (meanOf counts wc * shareOf items ws x)) := by
  let _ : PyHash α := ⟨fun _ => true⟩
  have hlen : ∀ o n, (ls o n).flatten.length = (pickedBy (R := R) counts wc n (X o)).sum := fun o n => by
    rw [List.length_flatten, h2]
  have hmean : ∀ᵐ o ∂P, Tendsto (fun n : ℕ => ((ls o n).flatten.length : ℝ) / n) atTop
      (𝓝 (meanOf counts wc)) := by
    simp only [hlen]
    exact ae_of_ae_map hX (picked_mean hU hlc hwc hsc)
  have hfreq : ∀ x, 0 < meanOf counts wc →
      ∀ᵐ o ∂P, Tendsto (fun n => freq x (ls o n).flatten) atTop (𝓝 (shareOf items ws x)) := by
    intro x hpos
    filter_upwards [hmean, ae_of_ae_map hY (picked_frequency hV hli hws hsi x)] with o ho hx
    have hT : Tendsto (fun n => (ls o n).flatten.length) atTop atTop := by
      have h4 : Tendsto (fun n : ℕ => ((ls o n).flatten.length : ℝ) / n * n) atTop atTop :=
        ho.pos_mul_atTop hpos tendsto_natCast_atTop_atTop
      rw [← tendsto_natCast_atTop_iff (R := ℝ)]
      refine h4.congr' ?_
      filter_upwards [eventually_gt_atTop 0] with n hn
      rw [div_mul_cancel₀]
      exact_mod_cast hn.ne'
    refine (hx.comp hT).congr fun n => ?_
    rw [Function.comp, ← h3]
  refine ⟨hmean, fun x => ⟨hfreq x, ?_⟩⟩
  have hle : ∀ c ∈ (counts.zip wc).map fun q => (q.1 : ℝ) * q.2, 0 ≤ c := by
    intro c hc
    obtain ⟨q, hq, rfl⟩ := List.mem_map.1 hc
    exact mul_nonneg (Nat.cast_nonneg _) (hwc _ (List.of_mem_zip hq).2)
  have h0 : 0 ≤ meanOf counts wc := div_nonneg (List.sum_nonneg hle) hsc.le
  rcases h0.eq_or_lt with hz | hpos
  · filter_upwards [hmean] with o ho
    rw [← hz, zero_mul]
    rw [← hz] at ho
    refine squeeze_zero (fun n => by positivity) (fun n => ?_) ho
    exact div_le_div_of_nonneg_right (by exact_mod_cast List.count_le_length) (Nat.cast_nonneg n)
  · filter_upwards [hmean, hfreq x hpos] with o ho hx
    refine (ho.mul hx).congr fun n => ?_
    unfold freq
    by_cases hq : (ls o n).flatten.length = 0
    · rw [List.length_eq_zero_iff.1 hq]
      simp
    · have : ((ls o n).flatten.length : ℝ) ≠ 0 := by exact_mod_cast hq
      field_simp

/-- **C126.** Take a field with a random number of random values, and let the states of the generators of
the two choices be random, each with independent uniform draws.  The two may have to do with each other in
any way; they may even be the same.  Then with probability 1, as the field is called again and again, the
average number of its values tends to the weighted average of the numbers; if that is not zero, the share
of `x` among the values tends to the share of its weight; and the average number of times that `x` is among
the values of a call tends to the product of the two. -/
theorem C126_average {Ω : Type} [MeasurableSpace Ω] [MeasurableSpace R.G] (P : Measure Ω) {X Y : Ω → R.G}
    (hX : AEMeasurable X P) (hY : AEMeasurable Y P) (hU : FairDraws R (P.map X)) (hV : FairDraws R (P.map Y))
    (str : Val → List Char) {w : World R} {f e rp g : Ref} {counts : List Nat} {wc : List ℝ}
    {items : List Val} {ws : List ℝ} (h : MultiField w f e rp g counts wc items ws)
    (hwc : ∀ x ∈ wc, 0 ≤ x) (hws : ∀ x ∈ ws, 0 ≤ x) (fuel : Nat) :
    ∃ ls : Ω → ℕ → List (List Val),
      (∀ o n, GaveLists (World.fieldCalls str (fuel + 2) f n ((w.withGen rp (X o)).withGen e (Y o))) (ls o n)) ∧
      (∀ᵐ o ∂P, Tendsto (fun n : ℕ => ((ls o n).flatten.length : ℝ) / n) atTop (𝓝 (meanOf counts wc))) ∧
      ∀ x, (0 < meanOf counts wc →
          ∀ᵐ o ∂P, Tendsto (fun n => freq x (ls o n).flatten) atTop (𝓝 (shareOf items ws x))) ∧
        ∀ᵐ o ∂P, Tendsto (fun n : ℕ => ((ls o n).flatten.count x : ℝ) / n) atTop
          (𝓝 (meanOf counts wc * shareOf items ws x)) := by
  obtain ⟨k, hk⟩ := h.number.node
  obtain ⟨k', hk'⟩ := h.values.node
  have hrun : ∀ (o : Ω) (n : ℕ), ∃ ls,
      GaveLists (World.fieldCalls str (fuel + 2) f n ((w.withGen rp (X o)).withGen e (Y o))) ls ∧
      ls.map List.length = pickedBy (R := R) counts wc n (X o) ∧
      ls.flatten = pickedBy (R := R) items ws ls.flatten.length (Y o) := by
    intro o n
    have al : World.Alike w ((w.withGen rp (X o)).withGen e (Y o)) :=
      World.withGen_alike (World.withGen_alike (fun _ => rfl) hk (X o))
        (by rw [World.withGen_obj, if_neg h.apart]; exact hk') (Y o)
    obtain ⟨ls, h1, h2, h3⟩ := C118_values str fuel n (h.congr al)
    rw [World.withGen_obj, if_neg (Ne.symm h.apart), World.withGen_obj, if_pos rfl] at h2
    rw [World.withGen_obj, if_pos rfl] at h3
    exact ⟨ls, h1, h2, h3⟩
  choose ls h1 h2 h3 using hrun
  exact ⟨ls, h1, averages_of_runs P hX hY hU hV h.lengths h.number.total h.values.same h.values.total hwc hws h2 h3⟩

/-! ### Examples -/

/-- One or two values, each `a` or `b`, from two independent generators: three values in two calls, and one
and a half times an `a`. -/
example : ∃ ls : replayRng.G × replayRng.G → ℕ → List (List Val),
    (∀ o n, GaveLists (World.fieldCalls demoStr 2 3 n (((tagWorld replayRng).withGen 1 o.1).withGen 0 o.2))
      (ls o n)) ∧
    (∀ᵐ o ∂(replayMeasure.prod replayMeasure),
      Tendsto (fun n : ℕ => ((ls o n).flatten.length : ℝ) / n) atTop (𝓝 (3 / 2))) ∧
    ∀ᵐ o ∂(replayMeasure.prod replayMeasure),
      Tendsto (fun n : ℕ => ((ls o n).flatten.count (.str ['a']) : ℝ) / n) atTop (𝓝 (3 / 4)) := by
  obtain ⟨ls, h1, h2, h3⟩ := C126_average (replayMeasure.prod replayMeasure) (X := Prod.fst) (Y := Prod.snd)
    measurable_fst.aemeasurable measurable_snd.aemeasurable
    (by rw [Measure.map_fst_prod, measure_univ, one_smul]; exact replayRng_fair)
    (by rw [Measure.map_snd_prod, measure_univ, one_smul]; exact replayRng_fair) demoStr
    (tag_multi (R := replayRng)) (by norm_num) (by norm_num) 0
  have e1 : meanOf [1, 2] [1, 1] = 3 / 2 := by norm_num [meanOf]
  have e2 : shareOf [Val.str ['a'], .str ['b']] [1, 1] (.str ['a']) = 1 / 2 := by
    have hb : ¬ ('b' : Char) = 'a' := by decide
    norm_num [shareOf, List.filter_cons, hb]
  refine ⟨ls, h1, e1 ▸ h2, ?_⟩
  have := (h3 (.str ['a'])).2
  rwa [e1, e2, show (3 : ℝ) / 2 * (1 / 2) = 3 / 4 by norm_num] at this

/-- Just so if the two generators are in the same state. -/
example : ∃ ls : replayRng.G → ℕ → List (List Val),
    (∀ o n, GaveLists (World.fieldCalls demoStr 2 3 n (((tagWorld replayRng).withGen 1 o).withGen 0 o)) (ls o n)) ∧
    ∀ᵐ o ∂replayMeasure, Tendsto (fun n : ℕ => ((ls o n).flatten.length : ℝ) / n) atTop (𝓝 (3 / 2)) := by
  obtain ⟨ls, h1, h2, h3⟩ := C126_average replayMeasure (X := id) (Y := id) aemeasurable_id aemeasurable_id
    (by rw [Measure.map_id]; exact replayRng_fair) (by rw [Measure.map_id]; exact replayRng_fair) demoStr
    (tag_multi (R := replayRng)) (by norm_num) (by norm_num) 0
  have e1 : meanOf [1, 2] [1, 1] = 3 / 2 := by norm_num [meanOf]
  exact ⟨ls, h1, e1 ▸ h2⟩

end Fauxdoc
