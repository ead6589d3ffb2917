import Verif.Spec.TextRun
import Verif.Props.MeanRun
import Verif.Props.WordDraw
import Verif.Props.TextDraw
/-
C127: the words and the texts of a sequence of calls, and their statistics in the long run.
-/
set_option linter.unusedSectionVars false
namespace Fauxdoc
open World

section
variable {K : Type} [Field K] [LinearOrder K] [FloorRing K] [IsStrictOrderedRing K] {R : Rng K}

/-- A generator picks a single number. -/
theorem picked_number {lens : List Nat} {wl : List K} {w : World R} {l : Ref}
    (h : Picks (lens.map fun n : Nat => .int n) wl (w.obj l)) (str : Val → List Char) (fuel : Nat) :
    ∃ c : Nat, pickedBy (R := R) lens wl 1 (w.obj l).choice.rng = [c] ∧
      World.call str (fuel + 1) l none w = (.ok (.int c), w.withGen l (R.past 1 (w.obj l).choice.rng)) := by
  obtain ⟨v, hv, h1⟩ := picks_single h str fuel
  rw [pickedBy_map] at hv
  rcases hp : pickedBy (R := R) lens wl 1 (w.obj l).choice.rng with _ | ⟨c, _ | ⟨d, m⟩⟩ <;> rw [hp] at hv
  · cases hv
  · cases hv
    exact ⟨c, rfl, h1⟩
  · cases hv

/-- One call of the word, with what it leaves behind. -/
theorem word_step (str : Val → List Char) {w : World R} {r l a : Ref} {lens : List Nat} {wl : List K}
    {cs : List Char} {wa : List K} (h : WordOf w r l a lens wl cs wa) (fuel : Nat) :
    ∃ c w', pickedBy (R := R) lens wl 1 (w.obj l).choice.rng = [c] ∧
      World.call str (fuel + 2) r none w =
        (.ok (.str (pickedBy (R := R) cs wa c (w.obj a).choice.rng)), w') ∧
      World.Alike w w' ∧ (w'.obj l).choice.rng = R.past 1 (w.obj l).choice.rng ∧
      (w'.obj a).choice.rng = R.past c (w.obj a).choice.rng := by
  obtain ⟨c, hc, h1⟩ := picked_number h.length str fuel
  have ha : (w.withGen l (R.past 1 (w.obj l).choice.rng)).obj a = w.obj a := by
    rw [withGen_obj, if_neg (Ne.symm h.apart)]
  have h2 := picks_batch (w := w.withGen l (R.past 1 (w.obj l).choice.rng)) (r := a)
    (by rw [ha]; exact h.letters) (by rw [ha]; exact h.roac) str fuel c
  rw [ha, pickedBy_map] at h2
  have hj : ∀ t : List Char, joinEmpty (t.map fun c => Val.str [c]) = .ok t := by
    intro t
    have := joinEmpty_strs (t.map fun c => [c])
    rw [List.map_map] at this
    refine this.trans (congrArg Except.ok ?_)
    clear this
    induction t with
    | nil => rfl
    | cons c t ih => rw [List.map_cons, List.flatten_cons, ih]; rfl
  have hcall : World.call str (fuel + 2) r none w =
      (.ok (.str (pickedBy (R := R) cs wa c (w.obj a).choice.rng)),
        (w.withGen l (R.past 1 (w.obj l).choice.rng)).withGen a (R.past c (w.obj a).choice.rng)) := by
    unfold call
    rw [PyM.run_get_bind, h.node]
    change Word.emit (World.call str (fuel + 1) l) (World.call str (fuel + 1) a) w = _
    unfold Word.emit
    rw [PyM.bind_ok h1, PyM.bind_ok h2]
    generalize pickedBy (R := R) cs wa c (w.obj a).choice.rng = t
    change (PyM.lift (joinEmpty (t.map fun c => Val.str [c])) >>= fun x => pure (Val.str x) :
      PyM (World R) Val) _ = _
    rw [hj]
    rfl
  refine ⟨c, _, hc, hcall, World.alike_after (fun _ => rfl) hcall, ?_, ?_⟩
  · rw [withGen_obj, if_neg h.apart, withGen_obj, if_pos rfl]
  · rw [withGen_obj, if_pos rfl]

theorem gave_cons {str : Val → List Char} {fuel : Nat} {r : Ref} {n : Nat} {w w' : World R}
    {t : List Char} {ts : List (List Char)} (h : World.call str fuel r none w = (.ok (.str t), w'))
    (hr : GaveStrings (World.bareCalls str fuel r n w') ts) :
    GaveStrings (World.bareCalls str fuel r (n + 1) w) (t :: ts) := by
  unfold GaveStrings World.bareCalls at hr ⊢
  rw [List.replicate_succ, List.map_cons, ← hr]
  change (World.call str fuel r none w).1 ::
    World.outcomes str fuel r (List.replicate n none) (World.call str fuel r none w).2 = _
  rw [h]

/-- **C127 (words).** Any number of calls of a word return strings: their lengths are what the draws of
the length emitter pick, and their letters, one string after the other, what the draws of the alphabet
emitter pick. -/
theorem C127_words (str : Val → List Char) {r l a : Ref} {lens : List Nat} {wl : List K}
    {cs : List Char} {wa : List K} (fuel n : Nat) : ∀ {w : World R} (_ : WordOf w r l a lens wl cs wa),
    ∃ ts, GaveStrings (World.bareCalls str (fuel + 2) r n w) ts ∧
      ts.map List.length = pickedBy (R := R) lens wl n (w.obj l).choice.rng ∧
      ts.flatten = pickedBy (R := R) cs wa ts.flatten.length (w.obj a).choice.rng := by
  induction n with
  | zero => exact fun _ => ⟨[], rfl, rfl, rfl⟩
  | succ n ih =>
    intro w h
    obtain ⟨c, w', hc, hcall, ha, hr, he⟩ := word_step str h fuel
    obtain ⟨ls, h1, h2, h3⟩ := ih (h.congr ha)
    rw [hr] at h2
    rw [he] at h3
    have hl := (pickedBy_getElem (R := R) (h.letters.same.trans (List.length_map _)) h.letters.total c
      (w.obj a).choice.rng).1
    refine ⟨pickedBy (R := R) cs wa c (w.obj a).choice.rng :: ls, gave_cons hcall h1, ?_, ?_⟩
    · rw [Nat.add_comm n 1, pickedBy_add, hc, List.map_cons, hl, h2]
      rfl
    · rw [List.flatten_cons, List.length_append, hl, pickedBy_add, ← h3]

/-- One call of the text, with what it leaves behind. -/
theorem text_step (str : Val → List Char) {w : World R} {r n wd sp : Ref} {lens : List Nat}
    {wn : List K} {words : List (List Char)} {ww : List K} {seps : List (List Char)} {ws : List K}
    (h : RandomText w r n wd sp lens wn words ww seps ws) (fuel : Nat) :
    ∃ k t w', pickedBy (R := R) lens wn 1 (w.obj n).choice.rng = [k + 1] ∧
      World.call str (fuel + 2) r none w = (.ok (.str t), w') ∧
      TextOf (pickedBy (R := R) words ww (k + 1) (w.obj wd).choice.rng)
        (pickedBy (R := R) seps ws k (w.obj sp).choice.rng) t ∧
      World.Alike w w' ∧ (w'.obj n).choice.rng = R.past 1 (w.obj n).choice.rng ∧
      (w'.obj wd).choice.rng = R.past (k + 1) (w.obj wd).choice.rng ∧
      (w'.obj sp).choice.rng = R.past k (w.obj sp).choice.rng := by
  obtain ⟨c, hc, _⟩ := picked_number h.counts str fuel
  obtain ⟨k, rfl⟩ : ∃ k, c = k + 1 :=
    ⟨c - 1, by
      have := h.positive c (pickedBy_mem (R := R) (k := 1) (g := (w.obj n).choice.rng) (ws := wn)
        (by rw [hc]; simp))
      omega⟩
  have h1 := picks_batch h.counts h.roac.1 str fuel 1
  rw [pickedBy_map, hc] at h1
  set w1 := w.withGen n (R.past 1 (w.obj n).choice.rng) with hw1
  have o1 : ∀ x, x ≠ n → w1.obj x = w.obj x := fun x hx => by rw [hw1, withGen_obj, if_neg hx]
  obtain ⟨kd, hkd⟩ := h.words.node
  have hwd : w1.obj wd = w.obj wd := o1 _ (Ne.symm h.apart.1)
  have hro := roacInfo_off (w := w1) (r := wd) (k := kd) (by rw [hwd]; exact hkd)
    (by rw [hwd]; exact h.roac.2.1)
  have h2 := picks_batch (w := w1) (r := wd) (by rw [hwd]; exact h.words)
    (by rw [hwd]; exact h.roac.2.1) str fuel (k + 1)
  rw [hwd, pickedBy_map] at h2
  set w2 := w1.withGen wd (R.past (k + 1) (w.obj wd).choice.rng) with hw2
  have hsp : w2.obj sp = w.obj sp := by
    rw [hw2, withGen_obj, if_neg (Ne.symm h.apart.2.2)]
    exact o1 _ (Ne.symm h.apart.2.1)
  have h3 := picks_batch (w := w2) (r := sp) (by rw [hsp]; exact h.seps)
    (by rw [hsp]; exact h.roac.2.2) str fuel k
  rw [hsp, pickedBy_map] at h3
  have hl2 := (pickedBy_getElem (R := R) (h.words.same.trans (List.length_map _)) h.words.total (k + 1)
    (w.obj wd).choice.rng).1
  have hl3 := (pickedBy_getElem (R := R) (h.seps.same.trans (List.length_map _)) h.seps.total k
    (w.obj sp).choice.rng).1
  obtain ⟨t, ht, htext⟩ := C32_emit (World.call str (fuel + 1) n) (wordsOf str (fuel + 1) wd)
    (World.call str (fuel + 1) sp) (k := k + 1) h1 rfl rfl (by omega)
    (.atOnce hro (fun D hD => by cases hD) h2 rfl
      (by rw [show (((k + 1 : Nat) : Int) - 1) = (k : Int) by omega]; exact h3) rfl hl2)
    (congrArg (· + 1) hl3)
  have hcall : World.call str (fuel + 2) r none w = _ := (call_text str (fuel + 1) _ h.node).trans ht
  refine ⟨k, t, _, hc, hcall, htext, World.alike_after (fun _ => rfl) hcall, ?_, ?_, ?_⟩
  · rw [withGen_obj, if_neg h.apart.2.1, hw2, withGen_obj, if_neg h.apart.1, hw1, withGen_obj, if_pos rfl]
  · rw [withGen_obj, if_neg h.apart.2.2, hw2, withGen_obj, if_pos rfl]
  · rw [withGen_obj, if_pos rfl]

/-- **C127 (texts).** Any number of calls of a text return strings: the numbers of their words are what
the draws of the first emitter pick; there is one separator less in each; and the words of all texts, one
after the other, are what the draws of the word emitter pick, the separators what those of the separator
emitter pick.  No draw is used twice and none is left out. -/
theorem C127_texts (str : Val → List Char) {r n wd sp : Ref} {lens : List Nat} {wn : List K}
    {words : List (List Char)} {ww : List K} {seps : List (List Char)} {ws : List K} (fuel m : Nat) :
    ∀ {w : World R} (_ : RandomText w r n wd sp lens wn words ww seps ws),
    ∃ ts wss sss, GaveStrings (World.bareCalls str (fuel + 2) r m w) ts ∧ TextRun wss sss ts ∧
      wss.map List.length = pickedBy (R := R) lens wn m (w.obj n).choice.rng ∧
      sss.map List.length = wss.map (fun l => l.length - 1) ∧
      wss.flatten = pickedBy (R := R) words ww wss.flatten.length (w.obj wd).choice.rng ∧
      sss.flatten = pickedBy (R := R) seps ws sss.flatten.length (w.obj sp).choice.rng := by
  induction m with
  | zero => exact fun _ => ⟨[], [], [], rfl, .nil, rfl, rfl, rfl, rfl⟩
  | succ m ih =>
    intro w h
    obtain ⟨k, t, w', hc, hcall, ht, ha, hn, hw, hs⟩ := text_step str h fuel
    obtain ⟨ts, wss, sss, h1, h2, h3, h4, h5, h6⟩ := ih (h.congr ha)
    rw [hn] at h3
    rw [hw] at h5
    rw [hs] at h6
    have hl2 := (pickedBy_getElem (R := R) (h.words.same.trans (List.length_map _)) h.words.total (k + 1)
      (w.obj wd).choice.rng).1
    have hl3 := (pickedBy_getElem (R := R) (h.seps.same.trans (List.length_map _)) h.seps.total k
      (w.obj sp).choice.rng).1
    refine ⟨t :: ts, _ :: wss, _ :: sss, gave_cons hcall h1, .cons ht h2, ?_, ?_, ?_, ?_⟩
    · rw [List.map_cons, hl2, Nat.add_comm m 1, pickedBy_add, hc, h3]
      rfl
    · rw [List.map_cons, List.map_cons, hl2, hl3, h4]
      rfl
    · rw [List.flatten_cons, List.length_append, hl2,
        pickedBy_add (n := k + 1) (m := wss.flatten.length), ← h5]
    · rw [List.flatten_cons, List.length_append, hl3,
        pickedBy_add (n := k) (m := sss.flatten.length), ← h6]

/-- Legible texts can be taken apart in one way only. -/
theorem TextRun.unique {words seps : List (List Char)} (hleg : Legible words seps)
    {wss sss wss' sss' : List (List (List Char))} {ts : List (List Char)} (h : TextRun wss sss ts)
    (h' : TextRun wss' sss' ts) (hm : MadeOf words seps wss sss) (hm' : MadeOf words seps wss' sss') :
    wss' = wss ∧ sss' = sss := by
  induction h generalizing wss' sss' with
  | nil => cases h'; exact ⟨rfl, rfl⟩
  | cons ht _ ih =>
    cases h' with
    | cons ht' hr' =>
      obtain ⟨rfl, rfl⟩ := hleg _ _ _ _ _ (hm'.1 _ (by simp)) (hm'.2 _ (by simp)) (hm.1 _ (by simp))
        (hm.2 _ (by simp)) ht' ht
      obtain ⟨rfl, rfl⟩ := ih hr' ⟨fun x hx => hm.1 x (by simp [hx]), fun x hx => hm.2 x (by simp [hx])⟩
        ⟨fun x hx => hm'.1 x (by simp [hx]), fun x hx => hm'.2 x (by simp [hx])⟩
      exact ⟨rfl, rfl⟩

theorem madeOf_picked {words seps : List (List Char)} {ww ws : List K} {k k' : Nat} {g g' : R.G}
    {wss sss : List (List (List Char))} (h : wss.flatten = pickedBy (R := R) words ww k g)
    (h' : sss.flatten = pickedBy (R := R) seps ws k' g') : MadeOf words seps wss sss :=
  ⟨fun l hl _ hx => pickedBy_mem (h ▸ List.mem_flatten.2 ⟨l, hl, hx⟩),
    fun l hl _ hx => pickedBy_mem (h' ▸ List.mem_flatten.2 ⟨l, hl, hx⟩)⟩

theorem GaveStrings.unique {os : List (Except Err Val)} {ts ts' : List (List Char)}
    (h : GaveStrings os ts) (h' : GaveStrings os ts') : ts = ts' := by
  refine List.map_injective_iff.2 (fun x y hxy => ?_) (h.symm.trans h')
  cases hxy
  rfl
end

section
open MeasureTheory Filter
open scoped Topology
variable {R : Rng ℝ}

/-- **C127 (words in the long run).** Let the generators of length and alphabet have independent uniform
draws each, whatever they have to do with each other.  With probability 1 the average length of the words
tends to the weighted average of the lengths, and if that is not zero, the share of a letter among all
letters to the share of its weight. -/
theorem C127_word_average {Ω : Type} [MeasurableSpace Ω] [MeasurableSpace R.G] (P : Measure Ω)
    {X Y : Ω → R.G} (hX : AEMeasurable X P) (hY : AEMeasurable Y P) (hU : FairDraws R (P.map X))
    (hV : FairDraws R (P.map Y)) (str : Val → List Char) {w : World R} {r l a : Ref} {lens : List Nat}
    {wl : List ℝ} {cs : List Char} {wa : List ℝ} (h : WordOf w r l a lens wl cs wa)
    (hwl : ∀ x ∈ wl, 0 ≤ x) (hwa : ∀ x ∈ wa, 0 ≤ x) (fuel : Nat) :
    ∃ ts : Ω → ℕ → List (List Char),
      (∀ o m, GaveStrings (World.bareCalls str (fuel + 2) r m ((w.withGen l (X o)).withGen a (Y o))) (ts o m)) ∧
      (∀ᵐ o ∂P, Tendsto (fun m : ℕ => ((ts o m).flatten.length : ℝ) / m) atTop (𝓝 (meanOf lens wl))) ∧
      ∀ c, 0 < meanOf lens wl →
        ∀ᵐ o ∂P, Tendsto (fun m => freq c (ts o m).flatten) atTop (𝓝 (shareOf cs wa c)) := by
  obtain ⟨k, hk⟩ := h.length.node
  obtain ⟨k', hk'⟩ := h.letters.node
  have hrun : ∀ (o : Ω) (m : ℕ), ∃ ts,
      GaveStrings (World.bareCalls str (fuel + 2) r m ((w.withGen l (X o)).withGen a (Y o))) ts ∧
      ts.map List.length = pickedBy (R := R) lens wl m (X o) ∧
      ts.flatten = pickedBy (R := R) cs wa ts.flatten.length (Y o) := by
    intro o m
    have al : World.Alike w ((w.withGen l (X o)).withGen a (Y o)) :=
      World.withGen_alike (World.withGen_alike (fun _ => rfl) hk (X o))
        (by rw [World.withGen_obj, if_neg (Ne.symm h.apart)]; exact hk') (Y o)
    obtain ⟨ts, h1, h2, h3⟩ := C127_words str fuel m (h.congr al)
    rw [World.withGen_obj, if_neg h.apart, World.withGen_obj, if_pos rfl] at h2
    rw [World.withGen_obj, if_pos rfl] at h3
    exact ⟨ts, h1, h2, h3⟩
  choose ts h1 h2 h3 using hrun
  obtain ⟨h4, h5⟩ := averages_of_runs P hX hY hU hV (h.length.same.trans (List.length_map _)) h.length.total
    (h.letters.same.trans (List.length_map _)) h.letters.total hwl hwa h2 h3
  exact ⟨ts, h1, h4, fun c => (h5 c).1⟩

/-- **C127 (texts in the long run).** Let each of the three generators of a text have independent uniform
draws, whatever they have to do with each other, and let the texts be legible.  Read the texts as they are
returned: take them apart into words and separators.  With probability 1 the average number of words of a
text tends to the weighted average of the numbers; the share of a word among all words tends to the share
of its weight; and the share of a separator among all separators to that of its own, if not all texts have
one word only. -/
theorem C127_text_average {Ω : Type} [MeasurableSpace Ω] [MeasurableSpace R.G] (P : Measure Ω)
    {X Y Z : Ω → R.G} (hX : AEMeasurable X P) (hY : AEMeasurable Y P) (hZ : AEMeasurable Z P)
    (hU : FairDraws R (P.map X)) (hV : FairDraws R (P.map Y)) (hW : FairDraws R (P.map Z))
    (str : Val → List Char) {w : World R} {r n wd sp : Ref} {lens : List Nat} {wn : List ℝ}
    {words : List (List Char)} {ww : List ℝ} {seps : List (List Char)} {ws : List ℝ}
    (h : RandomText w r n wd sp lens wn words ww seps ws) (hleg : Legible words seps)
    (hwn : ∀ x ∈ wn, 0 ≤ x) (hww : ∀ x ∈ ww, 0 ≤ x) (hws : ∀ x ∈ ws, 0 ≤ x) (fuel : Nat) :
    ∃ ts : Ω → ℕ → List (List Char),
      (∀ o m, GaveStrings (World.bareCalls str (fuel + 2) r m
        (((w.withGen n (X o)).withGen wd (Y o)).withGen sp (Z o))) (ts o m)) ∧
      (∀ o m, ∃ wss sss, TextRun wss sss (ts o m) ∧ MadeOf words seps wss sss) ∧
      ∀ wss sss : Ω → ℕ → List (List (List Char)), (∀ o m, TextRun (wss o m) (sss o m) (ts o m)) →
        (∀ o m, MadeOf words seps (wss o m) (sss o m)) →
        (∀ᵐ o ∂P, Tendsto (fun m : ℕ => ((wss o m).flatten.length : ℝ) / m) atTop (𝓝 (meanOf lens wn))) ∧
        (∀ x, ∀ᵐ o ∂P, Tendsto (fun m => freq x (wss o m).flatten) atTop (𝓝 (shareOf words ww x))) ∧
        ∀ x, 1 < meanOf lens wn →
          ∀ᵐ o ∂P, Tendsto (fun m => freq x (sss o m).flatten) atTop (𝓝 (shareOf seps ws x)) := by
  obtain ⟨k1, hk1⟩ := h.counts.node
  obtain ⟨k2, hk2⟩ := h.words.node
  obtain ⟨k3, hk3⟩ := h.seps.node
  obtain ⟨a1, a2, a3⟩ := h.apart
  have hrun : ∀ (o : Ω) (m : ℕ), ∃ ts wss sss, GaveStrings (World.bareCalls str (fuel + 2) r m
        (((w.withGen n (X o)).withGen wd (Y o)).withGen sp (Z o))) ts ∧ TextRun wss sss ts ∧
      wss.map List.length = pickedBy (R := R) lens wn m (X o) ∧
      sss.map List.length = wss.map (fun l => l.length - 1) ∧
      wss.flatten = pickedBy (R := R) words ww wss.flatten.length (Y o) ∧
      sss.flatten = pickedBy (R := R) seps ws sss.flatten.length (Z o) := by
    intro o m
    have al : World.Alike w (((w.withGen n (X o)).withGen wd (Y o)).withGen sp (Z o)) :=
      World.withGen_alike (World.withGen_alike (World.withGen_alike (fun _ => rfl) hk1 (X o))
        (by rw [World.withGen_obj, if_neg (Ne.symm a1)]; exact hk2) (Y o))
        (by rw [World.withGen_obj, if_neg (Ne.symm a3), World.withGen_obj, if_neg (Ne.symm a2)]; exact hk3)
        (Z o)
    obtain ⟨ts, wss, sss, h1, h2, h3, h4, h5, h6⟩ := C127_texts str fuel m (h.congr al)
    rw [World.withGen_obj, if_neg a2, World.withGen_obj, if_neg a1, World.withGen_obj, if_pos rfl] at h3
    rw [World.withGen_obj, if_neg a3, World.withGen_obj, if_pos rfl] at h5
    rw [World.withGen_obj, if_pos rfl] at h6
    exact ⟨ts, wss, sss, h1, h2, h3, h4, h5, h6⟩
  choose ts wss sss h1 h2 h3 h4 h5 h6 using hrun
  have hmade : ∀ o m, MadeOf words seps (wss o m) (sss o m) := fun o m => madeOf_picked (h5 o m) (h6 o m)
  refine ⟨ts, h1, fun o m => ⟨_, _, h2 o m, hmade o m⟩, fun wss' sss' hr' hm' => ?_⟩
  have hwss : wss' = wss := funext fun o => funext fun m =>
    ((h2 o m).unique hleg (hr' o m) (hmade o m) (hm' o m)).1
  have hsss : sss' = sss := funext fun o => funext fun m =>
    ((h2 o m).unique hleg (hr' o m) (hmade o m) (hm' o m)).2
  subst hwss hsss
  have hln : wn.length = lens.length := h.counts.same.trans (List.length_map _)
  obtain ⟨m1, m2⟩ := averages_of_runs P hX hY hU hV hln h.counts.total
    (h.words.same.trans (List.length_map _)) h.words.total hwn hww h3 h5
  obtain ⟨_, s2⟩ := averages_of_runs (counts := lens.map fun c => c - 1) P hX hZ hU hW
    (hln.trans (List.length_map _).symm) h.counts.total
    (h.seps.same.trans (List.length_map _)) h.seps.total hwn hws
    (fun o m => by
      rw [h4, pickedBy_map, ← h3, List.map_map]
      rfl) h6
  have hless : meanOf (lens.map fun c => c - 1) wn = meanOf lens wn - 1 := by
    have hs := h.counts.total
    unfold meanOf
    rw [eq_sub_iff_add_eq, div_add_one hs.ne']
    congr 1
    have hp := h.positive
    clear * - hp hln
    induction lens generalizing wn with
    | nil => rw [List.length_eq_zero_iff.1 hln]; simp
    | cons c lens ih =>
      obtain _ | ⟨x, wn⟩ := wn
      · simp at hln
      · have hc : 1 ≤ c := hp c (by simp)
        have := ih (wn := wn) (by simpa using hln) fun c hc => hp c (by simp [hc])
        simp only [List.map_cons, List.zip_cons_cons, List.sum_cons]
        rw [Nat.cast_sub hc]
        push_cast
        linarith
  have hone : 1 ≤ meanOf lens wn := by
    have : 0 ≤ meanOf (lens.map fun c => c - 1) wn := by
      refine div_nonneg (List.sum_nonneg fun c hc => ?_) h.counts.total.le
      obtain ⟨q, hq, rfl⟩ := List.mem_map.1 hc
      exact mul_nonneg (Nat.cast_nonneg _) (hwn _ (List.of_mem_zip hq).2)
    linarith
  exact ⟨m1, fun x => (m2 x).1 (by linarith), fun x hx => (s2 x).1 (by rw [hless]; linarith)⟩

/-! ### Examples -/

/-- One or two letters, each `a` or `b`: three letters in two words. -/
example : ∃ ts : replayRng.G → ℕ → List (List Char),
    (∀ o m, GaveStrings (World.bareCalls demoStr 2 2 m (((abWorld replayRng).withGen 0 o).withGen 1 o))
      (ts o m)) ∧
    ∀ᵐ o ∂replayMeasure, Tendsto (fun m : ℕ => ((ts o m).flatten.length : ℝ) / m) atTop (𝓝 (3 / 2)) := by
  obtain ⟨ts, h1, h2, _⟩ := C127_word_average replayMeasure (X := id) (Y := id) aemeasurable_id
    aemeasurable_id (by rw [Measure.map_id]; exact replayRng_fair)
    (by rw [Measure.map_id]; exact replayRng_fair) demoStr (ab_word replayRng) (by norm_num) (by norm_num) 0
  have e1 : meanOf [1, 2] [1, 1] = 3 / 2 := by norm_num [meanOf]
  exact ⟨ts, h1, e1 ▸ h2⟩

/-- Two or three words, each `no` or `yes`: half of the words are `no`. -/
example (ts : replayRng.G → ℕ → List (List Char)) (wss sss : replayRng.G → ℕ → List (List (List Char)))
    (h1 : ∀ o m, GaveStrings (World.bareCalls demoStr 2 3 m
      ((((yesWorld replayRng).withGen 0 o).withGen 1 o).withGen 2 o)) (ts o m))
    (h2 : ∀ o m, TextRun (wss o m) (sss o m) (ts o m))
    (h3 : ∀ o m, MadeOf [['n', 'o'], ['y', 'e', 's']] [[','], [';']] (wss o m) (sss o m)) :
    (∀ᵐ o ∂replayMeasure, Tendsto (fun m : ℕ => ((wss o m).flatten.length : ℝ) / m) atTop (𝓝 (5 / 2))) ∧
    ∀ᵐ o ∂replayMeasure, Tendsto (fun m => freq ['n', 'o'] (wss o m).flatten) atTop (𝓝 (1 / 2)) := by
  obtain ⟨ts', h1', _, h⟩ := C127_text_average replayMeasure (X := id) (Y := id) (Z := id) aemeasurable_id
    aemeasurable_id aemeasurable_id (by rw [Measure.map_id]; exact replayRng_fair)
    (by rw [Measure.map_id]; exact replayRng_fair) (by rw [Measure.map_id]; exact replayRng_fair) demoStr
    (yes_text replayRng) yes_legible (by norm_num) (by norm_num) (by norm_num) 0
  have e : ts' = ts := funext fun o => funext fun m => (h1' o m).unique (h1 o m)
  subst e
  obtain ⟨m1, m2, _⟩ := h wss sss h2 h3
  have e1 : meanOf [2, 3] [1, 1] = 5 / 2 := by norm_num [meanOf]
  have e2 : shareOf [['n', 'o'], ['y', 'e', 's']] [1, 1] ['n', 'o'] = 1 / 2 := by
    have hb : ¬ (['y', 'e', 's'] : List Char) = ['n', 'o'] := by decide
    norm_num [shareOf, List.filter_cons, hb]
  exact ⟨e1 ▸ m1, e2 ▸ m2 _⟩
end

end Fauxdoc
