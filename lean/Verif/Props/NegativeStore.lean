import Verif.Props.Negative
import Verif.Props.BadNumber
import Verif.Props.ChoiceEx
/-
C81 for all emitters of the store: asking for a negative number of values.
-/
set_option linter.unusedSectionVars false
namespace Fauxdoc
open PyM World
variable {K : Type} [Field K] [LinearOrder K] [FloorRing K] {R : Rng K}

namespace Choice

/-- `random.choices` accepts the weights: there are none, only one item (then they are not looked
at), or one cumulative weight per item, the last one being positive. -/
def Accepted (c : ChoiceSt Val R) : Prop :=
  c.items.length = 1 ∨ ∀ cum, c.cumWeights = some cum → cum.length = c.items.length ∧
    ∃ t, cum.getLast? = some t ∧ 0 < t

theorem drawWith_none {c : ChoiceSt Val R} {n : Int} (hn : n ≤ 0) (g : R.G) :
    (∃ x, drawWith c n g = (.error x, g)) ∨ drawWith c n g = (.ok [], g) := by
  have h0 : n.toNat = 0 := by omega
  unfold drawWith
  rw [if_neg (by simp; omega)]
  rcases c.cumWeights with _ | cum
  · right
    dsimp only
    unfold Rng.choicesUniform
    rw [if_neg (by omega), h0]; rfl
  · dsimp only
    unfold Rng.choicesCum
    by_cases h1 : cum.length ≠ c.items.length
    · rw [if_pos h1]; exact .inl ⟨_, rfl⟩
    rw [if_neg h1]
    rcases cum.getLast? with _ | t
    · exact .inl ⟨_, rfl⟩
    · dsimp only
      by_cases h2 : t ≤ 0
      · rw [if_pos h2]; exact .inl ⟨_, rfl⟩
      · rw [if_neg h2, h0]; exact .inr rfl

theorem drawWith_accepted {c : ChoiceSt Val R} {n : Int} (hn : n ≤ 0)
    (h : ∀ cum, c.cumWeights = some cum → cum.length = c.items.length ∧
      ∃ t, cum.getLast? = some t ∧ 0 < t) (g : R.G) : drawWith c n g = (.ok [], g) := by
  have h0 : n.toNat = 0 := by omega
  unfold drawWith
  rw [if_neg (by simp; omega)]
  rcases hc : c.cumWeights with _ | cum
  · dsimp only
    unfold Rng.choicesUniform
    rw [if_neg (by omega), h0]; rfl
  · obtain ⟨h1, t, h2, h3⟩ := h cum hc
    dsimp only
    unfold Rng.choicesCum
    rw [if_neg (by simpa using h1), h2]
    dsimp only
    rw [if_neg (not_le.2 h3), h0]; rfl

theorem child_none {s : ChoiceSt Val R × Nat} (hr : s.1.replace = true) {n : Int} (hn : n ≤ 0) :
    ((∃ x, child (some (.int n)) s = (.error x, s)) ∨ child (some (.int n)) s = (.ok (.list []), s)) ∧
    (Accepted s.1 → child (some (.int n)) s = (.ok (.list []), s)) := by
  have h0 : n.toNat = 0 := by omega
  have hc : child (R := R) (some (.int n)) = (do return .list (← emitMany n)) := by
    change (if n = 1 then _ else _ : ChoiceM Val R Val) = _
    rw [if_neg (by omega)]
  rw [hc, PyM.bind_apply, emitMany_eq, if_neg (by simp [hr]; omega), withReplacement_run]
  by_cases h1 : s.1.items.length = 1
  · rw [if_pos h1, h0]
    exact ⟨.inr rfl, fun _ => rfl⟩
  · rw [if_neg h1]
    refine ⟨?_, fun ha => ?_⟩
    · rcases drawWith_none (c := s.1) hn s.1.rng with ⟨x, h⟩ | h
      · rw [h]; exact .inl ⟨x, rfl⟩
      · rw [h]; exact .inr rfl
    · rw [drawWith_accepted hn (ha.resolve_left h1)]; rfl

/-- `em(0)` without replacement. -/
theorem child_zero {s : ChoiceSt Val R × Nat} (hr : s.1.replace = false) {i : Int}
    (hi : s.1.shuffledIndex = some i) (hnum : 0 ≤ s.1.numUniqueItems)  :
    child (some (.int 0)) s = (.ok (.list []), s) := by
  have hc : child (R := R) (some (.int 0)) = (do return .list (← emitMany 0)) := by
    rfl
  rw [hc, PyM.bind_apply, emitMany_eq, if_pos (by simp [hr]), withoutReplacement_norepl _ s hr, hi]
  dsimp only
  rw [if_neg (by omega)]
  have hg : grab s.1.shuffled i 0 = .ok [] := by
    unfold grab
    rw [if_neg (by omega)]
    congr 1
    unfold pyListSlice1 sliceBound
    dsimp only
    rw [add_zero]
    simp
  rw [hg]
  obtain ⟨⟨it, w, cw, rep, roac, sh, idx, num, sd, rng⟩, e⟩ := s
  dsimp only at hi ⊢
  subst hi
  simp only [add_zero, sub_zero]
  rfl

end Choice

theorem World.onChoice_same {β : Type} {r : Ref} {m : ChoiceM Val R β} {w : World R}
    {res : Except Err β} (h : m ((w.obj r).choice, w.entropy) = (res, ((w.obj r).choice, w.entropy))) :
    onChoice r m w = (res, w) := by
  unfold onChoice
  rw [h]
  dsimp only
  refine Prod.ext rfl ?_
  rcases w with ⟨obj, nx, en⟩
  unfold upd
  dsimp only
  congr 1
  funext x
  split_ifs with hx
  · rw [hx]
  · rfl

/-- `r` answers the number `n ≤ 0` with an empty list and nothing changes. -/
inductive Quiet (w : World R) : Ref → Int → Prop
  | static {r : Ref} {n : Int} : (w.obj r).node = some .static → Quiet w r n
  | choice {r : Ref} {n : Int} {k : ItemsKind} : (w.obj r).node = some (.choice k) →
      (w.obj r).choice.replace = true → Choice.Accepted (w.obj r).choice → Quiet w r n
  | choiceZero {r : Ref} {k : ItemsKind} {i : Int} : (w.obj r).node = some (.choice k) →
      (w.obj r).choice.replace = false → (w.obj r).choice.shuffledIndex = some i →
      0 ≤ (w.obj r).choice.numUniqueItems → Quiet w r 0
  | iterativeZero {r : Ref} : (w.obj r).node = some .iterative →
      (w.obj r).iter.resetAfterCall = false → Quiet w r 0
  | sequentialZero {r : Ref} {k : ItemsKind} : (w.obj r).node = some (.sequential k) →
      (w.obj r).seq.it.resetAfterCall = false → Quiet w r 0
  | word {r l a : Ref} {n : Int} : (w.obj r).node = some (.word l a) → Quiet w l n → Quiet w a 0 →
      Quiet w r n
  | wrapOne {r s : Ref} {cb : Callback R.G} {n : Int} : (w.obj r).node = some (.wrapOne s) →
      (w.obj r).wrapper = some cb → Quiet w s n → Quiet w r n
  | wrapMany {r : Ref} {ss : Dict Ref} {cb : Callback R.G} {n : Int} :
      (w.obj r).node = some (.wrapMany ss) → (w.obj r).wrapper = some cb →
      (∀ ks ∈ ss, Quiet w ks.2 n) → Quiet w r n
  | copy {r f : Ref} {fs : List Ref} {single : Bool} {sep : Option (List Char)} {n : Int} :
      (w.obj r).node = some (.copyFields (f :: fs) single sep) → Quiet w r n

/-- Who refuses a negative number with `ValueError`: `Iterative` and `Sequential`, and everything
that asks one of them first. -/
inductive RefusesNegative (w : World R) (n : Int) : Ref → Prop
  | iterative {r : Ref} : (w.obj r).node = some .iterative → RefusesNegative w n r
  | sequential {r : Ref} {k : ItemsKind} : (w.obj r).node = some (.sequential k) →
      RefusesNegative w n r
  | word {r l a : Ref} : (w.obj r).node = some (.word l a) → RefusesNegative w n l →
      RefusesNegative w n r
  | text {r m wd s : Ref} : (w.obj r).node = some (.text m wd s) → RefusesNegative w n m →
      RefusesNegative w n r
  | wrapOne {r s : Ref} {cb : Callback R.G} : (w.obj r).node = some (.wrapOne s) →
      (w.obj r).wrapper = some cb → RefusesNegative w n s → RefusesNegative w n r
  | wrapMany {r s : Ref} {k : String} {ss tt : Dict Ref} {cb : Callback R.G} :
      (w.obj r).node = some (.wrapMany (ss ++ (k, s) :: tt)) → (w.obj r).wrapper = some cb →
      (∀ ks ∈ ss, Quiet w ks.2 n) → RefusesNegative w n s → RefusesNegative w n r

theorem emitterCallOr_int {σ : Type} {b : Val → PyM σ Val} {e : PyM σ Val}
    {m : Int → PyM σ (List Val)} {n : Int} (h : n ≠ 1) :
    emitterCallOr b e m (some (.int n)) = (do return .list (← m n)) := by
  change (if n = 1 then _ else _ : PyM σ Val) = _
  rw [if_neg h]

theorem mapPyM_ok {σ α β : Type} {f : α → PyM σ β} {g : α → β} {s : σ} :
    ∀ {l : List α}, (∀ a ∈ l, f a s = (.ok (g a), s)) → mapPyM f l s = (.ok (l.map g), s)
  | [], _ => rfl
  | a :: as, h => by
    unfold mapPyM
    rw [bind_ok (h a (by simp)), bind_ok (mapPyM_ok fun b hb => h b (by simp [hb]))]
    rfl

theorem mapPyM_err {σ α β : Type} {f : α → PyM σ β} {g : α → β} {s : σ} {x : Err} {a : α}
    {tl : List α} (ha : f a s = (.error x, s)) :
    ∀ {l : List α}, (∀ a ∈ l, f a s = (.ok (g a), s)) → mapPyM f (l ++ a :: tl) s = (.error x, s)
  | [], _ => by
    rw [List.nil_append]
    unfold mapPyM
    exact bind_err ha
  | b :: bs, h => by
    rw [List.cons_append]
    unfold mapPyM
    rw [bind_ok (h b (by simp))]
    exact bind_err (mapPyM_err ha fun c hc => h c (by simp [hc]))

/-- C81, store: these emitters answer a number `n ≤ 0` with an empty list, and nothing
changes anywhere. -/
theorem C81_quiet_partial {w : World R} {r : Ref} {n : Int} (h : Quiet w r n) (hn : n ≤ 0)
    (str : Val → List Char) :
    ∃ depth, ∀ fuel, depth ≤ fuel → call str fuel r (some (.int n)) w = (.ok (.list []), w) := by
  induction h with
  | @static r n hd =>
    refine ⟨1, fun fuel hf => ?_⟩
    obtain ⟨k, rfl⟩ := Nat.exists_eq_add_of_le' hf
    unfold call
    rw [run_get_bind, hd]
    change staticChild _ (some (.int n)) w = _
    unfold staticChild emitterCall
    rw [emitterCallOr_int (by omega)]
    unfold Attr.run Static.emitMany
    rw [show n.toNat = 0 by omega]
    exact Prod.ext rfl ((staticAttr r).set_get w)
  | @choice r n k hd hr ha =>
    refine ⟨1, fun fuel hf => ?_⟩
    obtain ⟨k, rfl⟩ := Nat.exists_eq_add_of_le' hf
    unfold call
    rw [run_get_bind, hd]
    exact onChoice_same ((Choice.child_none (s := ((w.obj r).choice, w.entropy)) hr hn).2 ha)
  | @choiceZero r k i hd hr hi hnum =>
    refine ⟨1, fun fuel hf => ?_⟩
    obtain ⟨k, rfl⟩ := Nat.exists_eq_add_of_le' hf
    unfold call
    rw [run_get_bind, hd]
    exact onChoice_same (Choice.child_zero (s := ((w.obj r).choice, w.entropy)) hr hi hnum)
  | @iterativeZero r hd hr =>
    refine ⟨1, fun fuel hf => ?_⟩
    obtain ⟨k, rfl⟩ := Nat.exists_eq_add_of_le' hf
    unfold call
    rw [run_get_bind, hd]
    change iterChild _ (some (.int 0)) w = _
    unfold iterChild
    rw [emitterCallOr_int (by omega), bind_apply]
    have : (Iterative.emitMany 0) ((iterAttr r).get w) = (.ok [], (iterAttr r).get w) := by
      unfold Iterative.emitMany
      rw [if_neg (by omega)]
      change (Iterative.afterCall >>= fun _ => pure []) _ = _
      unfold Iterative.afterCall
      rw [bind_apply, run_get_bind, if_neg (by rw [show ((iterAttr r).get w).resetAfterCall = _ from hr]; simp)]
      rfl
    unfold Attr.run
    rw [this]
    exact Prod.ext rfl ((iterAttr r).set_get w)
  | @sequentialZero r k hd hr =>
    refine ⟨1, fun fuel hf => ?_⟩
    obtain ⟨k, rfl⟩ := Nat.exists_eq_add_of_le' hf
    unfold call
    rw [run_get_bind, hd]
    change seqChild _ (some (.int 0)) w = _
    unfold seqChild
    rw [emitterCallOr_int (by omega), bind_apply]
    have : (Sequential.onIt (Iterative.emitMany 0)) ((seqAttr r).get w) =
        (.ok [], (seqAttr r).get w) := by
      have : (Iterative.emitMany 0) ((seqAttr r).get w).it = (.ok [], ((seqAttr r).get w).it) := by
        unfold Iterative.emitMany
        rw [if_neg (by omega)]
        change (Iterative.afterCall >>= fun _ => pure []) _ = _
        unfold Iterative.afterCall
        rw [bind_apply, run_get_bind, if_neg (by rw [show ((seqAttr r).get w).it.resetAfterCall = _ from hr]; simp)]
        rfl
      unfold Sequential.onIt
      rw [this]
    unfold Attr.run
    rw [this]
    exact Prod.ext rfl ((seqAttr r).set_get w)
  | @word r l a n hd _ _ ih1 ih2 =>
    obtain ⟨d1, h1⟩ := ih1 hn
    obtain ⟨d2, h2⟩ := ih2 le_rfl
    refine ⟨max d1 d2 + 1, fun fuel hf => ?_⟩
    obtain ⟨k, rfl⟩ := Nat.exists_eq_add_of_le' (show 1 ≤ fuel by omega)
    rw [call_word str k (some (.int n)) hd]
    unfold Word.call
    rw [emitterCallOr_int (by omega), bind_apply]
    have : Word.emitMany (call str k l) (call str k a) n w = (.ok [], w) := by
      unfold Word.emitMany
      rw [bind_ok (h1 k (by omega))]
      change (call str k a (some (.int 0)) >>= _) w = _
      rw [bind_ok (h2 k (by omega))]
      rfl
    rw [this]; rfl
  | @wrapOne r s cb n hd hw _ ih =>
    obtain ⟨d, h1⟩ := ih hn
    refine ⟨d + 1, fun fuel hf => ?_⟩
    obtain ⟨k, rfl⟩ := Nat.exists_eq_add_of_le' (show 1 ≤ fuel by omega)
    rw [call_wrapOne str k (some (.int n)) hd hw]
    unfold WrapOne.call
    rw [emitterCallOr_int (by omega), bind_apply]
    unfold WrapOne.emitMany
    rw [bind_ok (h1 k (by omega))]
    rfl
  | @wrapMany r ss cb n hd hw _ ih =>
    have hdep : ∃ d, ∀ ks ∈ ss, ∀ fuel, d ≤ fuel →
        call str fuel ks.2 (some (.int n)) w = (.ok (.list []), w) := by
      clear hd
      rename_i hq
      clear hq
      induction ss with
      | nil => exact ⟨0, fun _ h => absurd h (by simp)⟩
      | cons t ts iht =>
        obtain ⟨d1, h1⟩ := ih t (by simp) hn
        obtain ⟨d2, h2⟩ := iht (fun ks h => ih ks (by simp [h]))
        refine ⟨max d1 d2, fun ks hk fuel hf => ?_⟩
        rcases List.mem_cons.1 hk with rfl | hk
        · exact h1 fuel (by omega)
        · exact h2 ks hk fuel (by omega)
    obtain ⟨d, h1⟩ := hdep
    refine ⟨d + 1, fun fuel hf => ?_⟩
    obtain ⟨k, rfl⟩ := Nat.exists_eq_add_of_le' (show 1 ≤ fuel by omega)
    rw [call_wrapMany str k (some (.int n)) hd hw]
    unfold WrapMany.call
    rw [emitterCallOr_int (by omega), bind_apply]
    unfold WrapMany.emitMany WrapMany.draw
    rw [bind_ok (mapPyM_ok (g := fun ke => (ke.1, .list [])) (fun ke hk => ?_)),
      show n.toNat = 0 by omega]
    · rfl
    · obtain ⟨ks, hk', rfl⟩ := List.mem_map.1 hk
      exact bind_ok (h1 ks hk' k (by omega))
  | @copy r f fs single sep n hd =>
    refine ⟨1, fun fuel hf => ?_⟩
    obtain ⟨k, rfl⟩ := Nat.exists_eq_add_of_le' hf
    rw [call_copyFields str k (some (.int n)) hd]
    unfold CopyFields.call
    rw [emitterCallOr_int (by omega), bind_apply]
    obtain ⟨x, hx⟩ := CopyFields.emit_ok str (g := group str k w (f :: fs) single) sep
      (by simp [group, sourceGroup]) w
    unfold CopyFields.emitMany
    rw [bind_ok hx, show n.toNat = 0 by omega]
    rfl

theorem quiet_all {w : World R} {n : Int} (hn : n ≤ 0) (str : Val → List Char) :
    ∀ ss : Dict Ref, (∀ ks ∈ ss, Quiet w ks.2 n) → ∃ d, ∀ ks ∈ ss, ∀ fuel, d ≤ fuel →
      call str fuel ks.2 (some (.int n)) w = (.ok (.list []), w)
  | [], _ => ⟨0, fun _ h => absurd h (by simp)⟩
  | t :: ts, h => by
    obtain ⟨d1, h1⟩ := C81_quiet_partial (h t (by simp)) hn str
    obtain ⟨d2, h2⟩ := quiet_all hn str ts fun ks hk => h ks (by simp [hk])
    refine ⟨max d1 d2, fun ks hk fuel hf => ?_⟩
    rcases List.mem_cons.1 hk with rfl | hk
    · exact h1 fuel (by omega)
    · exact h2 ks hk fuel (by omega)

/-- C81, store: these emitters refuse a negative number with `ValueError`, and nothing
changes anywhere. -/
theorem C81_refused {w : World R} {r : Ref} {n : Int} (h : RefusesNegative w n r) (hn : n < 0)
    (str : Val → List Char) :
    ∃ depth, ∀ fuel, depth ≤ fuel → call str fuel r (some (.int n)) w = (.error .valueError, w) := by
  have hem : ∀ it : IterSt Val, Iterative.emitMany n it = (.error .valueError, it) := fun it => by
    unfold Iterative.emitMany
    rw [if_pos hn]; rfl
  induction h with
  | @iterative r hd =>
    refine ⟨1, fun fuel hf => ?_⟩
    obtain ⟨k, rfl⟩ := Nat.exists_eq_add_of_le' hf
    unfold call
    rw [run_get_bind, hd]
    change iterChild _ (some (.int n)) w = _
    unfold iterChild
    rw [emitterCallOr_int (by omega), bind_apply]
    unfold Attr.run
    rw [hem]
    exact Prod.ext rfl ((iterAttr r).set_get w)
  | @sequential r k hd =>
    refine ⟨1, fun fuel hf => ?_⟩
    obtain ⟨k, rfl⟩ := Nat.exists_eq_add_of_le' hf
    unfold call
    rw [run_get_bind, hd]
    change seqChild _ (some (.int n)) w = _
    unfold seqChild
    rw [emitterCallOr_int (by omega), bind_apply]
    unfold Attr.run Sequential.onIt
    rw [hem]
    exact Prod.ext rfl ((seqAttr r).set_get w)
  | @word r l a hd _ ih =>
    obtain ⟨d, h1⟩ := ih
    refine ⟨d + 1, fun fuel hf => ?_⟩
    obtain ⟨k, rfl⟩ := Nat.exists_eq_add_of_le' (show 1 ≤ fuel by omega)
    rw [call_word str k (some (.int n)) hd]
    unfold Word.call
    rw [emitterCallOr_int (by omega)]
    exact bind_err (bind_err (h1 k (by omega)))
  | @text r m wd s hd _ ih =>
    obtain ⟨d, h1⟩ := ih
    refine ⟨d + 1, fun fuel hf => ?_⟩
    obtain ⟨k, rfl⟩ := Nat.exists_eq_add_of_le' (show 1 ≤ fuel by omega)
    rw [call_text str k (some (.int n)) hd]
    unfold Text.call
    rw [emitterCallOr_int (by omega)]
    exact bind_err (bind_err (h1 k (by omega)))
  | @wrapOne r s cb hd hw _ ih =>
    obtain ⟨d, h1⟩ := ih
    refine ⟨d + 1, fun fuel hf => ?_⟩
    obtain ⟨k, rfl⟩ := Nat.exists_eq_add_of_le' (show 1 ≤ fuel by omega)
    rw [call_wrapOne str k (some (.int n)) hd hw]
    unfold WrapOne.call
    rw [emitterCallOr_int (by omega)]
    exact bind_err (bind_err (h1 k (by omega)))
  | @wrapMany r s key ss tt cb hd hw hq _ ih =>
    obtain ⟨d, h1⟩ := ih
    obtain ⟨d2, h2⟩ := quiet_all (by omega) str ss hq
    refine ⟨max d d2 + 1, fun fuel hf => ?_⟩
    obtain ⟨k, rfl⟩ := Nat.exists_eq_add_of_le' (show 1 ≤ fuel by omega)
    rw [call_wrapMany str k (some (.int n)) hd hw]
    unfold WrapMany.call
    rw [emitterCallOr_int (by omega)]
    refine bind_err (bind_err ?_)
    unfold WrapMany.draw drawn
    rw [List.map_append, List.map_cons]
    refine mapPyM_err (f := fun ke : String × Child (World R) => do return (ke.1, ← ke.2 (some (.int n))))
      (g := fun ke => (ke.1, .list [])) (bind_err (h1 k (by omega))) fun ke hk => ?_
    obtain ⟨ks, hk', rfl⟩ := List.mem_map.1 hk
    exact bind_ok (h2 ks hk' k (by omega))

/-- **C81 violated (separators).** A `Text` that is asked for `-m` values returns an empty list, but
on the way it asks its separator emitter for `m` values (text.py 289: `total - number`): the effect on the separator
emitter, and any exception, is that of `sep_emitter(m)`. -/
theorem C81_text_violated {w : World R} {r nw wd s : Ref} {m : Nat}
    (hd : (w.obj r).node = some (.text nw wd s)) (hq : Quiet w nw (-(m : Int))) (hq0 : Quiet w wd 0)
    (hro : ∀ k, (w.obj wd).node = some (.choice k) → (w.obj wd).choice.roac = false)
    (str : Val → List Char) :
    ∃ depth, ∀ fuel, depth ≤ fuel → call str (fuel + 1) r (some (.int (-(m : Int)))) w =
      match call str fuel s (some (.int m)) w with
      | (.ok v, t) => (v.elems.map fun _ => .list [], t)
      | (.error x, t) => (.error x, t) := by
  obtain ⟨d1, h1⟩ := C81_quiet_partial hq (by omega) str
  obtain ⟨d2, h2⟩ := C81_quiet_partial hq0 le_rfl str
  have hroac : roacInfo wd w = (.ok none, w) := by
    unfold roacInfo
    rw [run_get_bind]
    rcases hc : (w.obj wd).node with _ | nd
    · rfl
    · cases nd with
      | choice k =>
        refine onChoice_same ?_
        unfold Choice.roacInfo
        rw [Choice.self_bind]
        dsimp only
        rw [hro k hc]
        rfl
      | _ => rfl
  refine ⟨max d1 d2, fun fuel hf => ?_⟩
  have hwi : Text.getWordsIterator (wordsOf str fuel wd) 0 w = (.ok (.drawn []), w) := by
    unfold Text.getWordsIterator
    rw [bind_ok (show (wordsOf str fuel wd).roac w = _ from hroac)]
    change (call str fuel wd (some (.int 0)) >>= _) w = _
    rw [bind_ok (h2 fuel (by omega))]
    rfl
  rw [call_text str fuel (some (.int (-(m : Int)))) hd]
  unfold Text.call
  rw [emitterCallOr_int (by omega), bind_apply]
  unfold Text.emitMany
  rw [bind_ok (h1 fuel (by omega)), bind_ok (show lift (Val.list []).elems w = (.ok [], w) from rfl),
    bind_ok (show lift (sumInts []) w = (.ok ([], 0), w) from rfl)]
  dsimp only
  rw [bind_ok hwi, show (0 : Int) - -(m : Int) = m by omega, bind_apply]
  rcases call str fuel s (some (.int m)) w with ⟨x | v, t⟩
  · rfl
  · dsimp only
    rw [bind_apply]
    unfold PyM.lift
    rcases v.elems with x | l <;> rfl

/-- `AskedFirst w r r'`: the number `r` is called with goes to `r'` first, and `r` returns something
computed from what `r'` returns. -/
inductive AskedFirst (w : World R) : Ref → Ref → Prop
  | word {r l a : Ref} : (w.obj r).node = some (.word l a) → AskedFirst w r l
  | text {r n wd s : Ref} : (w.obj r).node = some (.text n wd s) → AskedFirst w r n
  | wrapOne {r s : Ref} : (w.obj r).node = some (.wrapOne s) → AskedFirst w r s

/-- Whatever `m` returns in the state `s` satisfies `P`. -/
private def Returns {σ α : Type} (P : α → Prop) (m : PyM σ α) (s : σ) : Prop :=
  ∀ v, (m s).1 = .ok v → P v

private theorem Returns.bind {σ α β : Type} {P : β → Prop} {m : PyM σ α} {f : α → PyM σ β} {s : σ}
    (h : ∀ a t, m s = (.ok a, t) → Returns P (f a) t) : Returns P (m >>= f) s := by
  intro v hv
  rw [bind_apply] at hv
  rcases hm : m s with ⟨x | a, t⟩
  · rw [hm] at hv; cases hv
  · rw [hm] at hv; exact h a t hm v hv

private theorem Returns.many {σ : Type} {b : Val → PyM σ Val} {e : PyM σ Val}
    {m : Int → PyM σ (List Val)} {n : Int} {s : σ} (hn : n < 0) (h : Returns (· = []) (m n) s) :
    Returns (· = .list []) (emitterCallOr b e m (some (.int n))) s := by
  rw [emitterCallOr_int (by omega)]
  refine .bind fun a t ha v hv => ?_
  cases hv
  rw [h a (by rw [ha])]

private theorem Returns.lift_bind {σ α β : Type} {P : β → Prop} {x : Py α} {f : α → PyM σ β} {s : σ}
    (h : ∀ a, x = .ok a → Returns P (f a) s) : Returns P (lift x >>= f) s := by
  refine .bind fun a t ha => ?_
  rcases x with e | b
  · cases ha
  · cases ha; exact h _ rfl

/-- C81, results: whatever the state and the recursion limit, no emitter returns a value for a
negative number, unless the number reaches a `Choice` without replacement through `Word`, `Text`
and `WrapOne` objects (`C81_values_violated`). -/
theorem C81_no_values_partial {w : World R} (str : Val → List Char) {n : Int} (hn : n < 0)
    (fuel : Nat) : ∀ r : Ref, (∀ r', Relation.ReflTransGen (AskedFirst w) r r' →
      ∀ k, (w.obj r').node = some (.choice k) → (w.obj r').choice.replace = true) →
    ∀ v, (call str fuel r (some (.int n)) w).1 = .ok v → v = .list [] := by
  have h0 : n.toNat = 0 := by omega
  induction fuel with
  | zero => intro r _ v hv; cases hv
  | succ fuel ih =>
    intro r hch
    change Returns _ _ _
    unfold call
    refine .bind fun a t ha => ?_
    cases ha
    dsimp only
    rcases hnode : (w.obj r).node with _ | node
    · intro v hv; cases hv
    cases node with
    | choice k =>
      intro v hv
      rcases (Choice.child_none (s := ((w.obj r).choice, w.entropy)) (hch r .refl k hnode)
        (show n ≤ 0 by omega)).1 with ⟨x, h⟩ | h
      · dsimp only at hv; rw [onChoice_same h] at hv; cases hv
      · dsimp only at hv; rw [onChoice_same h] at hv; cases hv; rfl
    | static =>
      refine .many hn fun v hv => ?_
      unfold Attr.run Static.emitMany at hv
      rw [h0] at hv; cases hv; rfl
    | iterative =>
      refine .many hn fun v hv => ?_
      unfold Attr.run Iterative.emitMany at hv
      rw [if_pos hn] at hv; cases hv
    | sequential k =>
      refine .many hn fun v hv => ?_
      unfold Attr.run Sequential.onIt Iterative.emitMany at hv
      rw [if_pos hn] at hv; cases hv
    | word l a =>
      refine .many hn (.bind fun v t hv => ?_)
      cases ih l (fun r' hr' => hch r' (.head (.word hnode) hr')) v (by rw [hv])
      refine .lift_bind fun ls hls => ?_
      cases hls
      refine .lift_bind fun ns hns => ?_
      cases hns
      refine .bind fun cs t _ => .lift_bind fun chars _ v hv => ?_
      cases hv; rfl
    | text nw wd s =>
      refine .many hn (.bind fun v t hv => ?_)
      cases ih nw (fun r' hr' => hch r' (.head (.text hnode) hr')) v (by rw [hv])
      refine .lift_bind fun ls hls => ?_
      cases hls
      refine .lift_bind fun ns hns => ?_
      cases hns
      refine .bind fun wi t _ => .bind fun ss t _ => .lift_bind fun chars _ v hv => ?_
      cases hv; rfl
    | wrapOne s =>
      dsimp only
      rcases (w.obj r).wrapper with _ | cb
      · intro v hv; cases hv
      refine .many hn (.bind fun v t hv => ?_)
      cases ih s (fun r' hr' => hch r' (.head (.wrapOne hnode) hr')) v (by rw [hv])
      refine .lift_bind fun ls hls v hv => ?_
      cases hls
      cases hv; rfl
    | wrapMany ss =>
      dsimp only
      rcases (w.obj r).wrapper with _ | cb
      · intro v hv; cases hv
      refine .many hn (.bind fun d t _ v hv => ?_)
      rw [h0] at hv
      cases hv; rfl
    | copyFields src single sep =>
      refine .many hn (.bind fun d t _ v hv => ?_)
      rw [h0] at hv
      cases hv; rfl
    | basedOn src single =>
      dsimp only
      rcases (w.obj r).wrapper with _ | cb
      · intro v hv; cases hv
      refine .many hn (.bind fun d t _ v hv => ?_)
      rw [h0] at hv
      cases hv; rfl
    | field => intro v hv; cases hv

/-- **C81 violated (actions).** `BasedOnFields` applies its action although no value is asked for:
the effect, and any exception, is that of one value. -/
theorem C81_action_violated {w : World R} {r : Ref} {src : List Ref} {single : Bool}
    {cb : Callback R.G} (hd : (w.obj r).node = some (.basedOn src single))
    (hw : (w.obj r).wrapper = some cb) (str : Val → List Char) (fuel : Nat) {n : Int} (hn : n < 0) :
    call str (fuel + 1) r (some (.int n)) w =
      match call str (fuel + 1) r none w with
      | (.ok _, t) => (.ok (.list []), t)
      | (.error e, t) => (.error e, t) := by
  rw [call_basedOn str fuel (some (.int n)) hd hw, call_basedOn str fuel none hd hw]
  unfold BasedOnFields.call
  rw [emitterCallOr_int (by omega), bind_apply]
  rw [show ∀ b e (m : Int → PyM (World R) (List Val)), emitterCallOr b e m none = e from fun _ _ _ => rfl]
  unfold BasedOnFields.emitMany
  rw [bind_apply]
  rcases BasedOnFields.emit (rngAttr r) (group str fuel w src single) cb w with ⟨_ | _, _⟩
  · rfl
  · dsimp only
    rw [show n.toNat = 0 by omega]; rfl

/-! ### Concrete cases -/

-- After 'a', 'b' out of 'aab' without replacement: `em(-1)` gives nothing, and `em(1)` gives 'b' again.
example : ∃ s', Choice.call (some (-1)) dealt2 = (.ok [], s') ∧ s' ≠ dealt2 ∧
    Choice.call (some 1) s' = (.ok ['b'], dealt2) :=
  C81_take_back_violated (E := ['a']) (vs := ['b']) dealt2_run (by decide +kernel) (by simp)
-- At the beginning, `em(-1)` gives two of the three values, and four are said to be left.
example : ∃ vs s', Choice.call (some (-1)) dealt0 = (.ok vs, s') ∧ vs ≠ [] ∧ vs.length = 2 ∧
    Choice.numUniqueItems s' = (.ok 4, s') ∧ (3 : Int) < 4 :=
  C81_values_violated dealt0_run (by decide +kernel) (m := 1) (by decide) (by decide)
example : Choice.call (some (-5)) weighted0 = (.ok [], weighted0) :=
  (C81_with_replacement_partial weighted0_reach (by decide +kernel) (by decide)).1 (.inl fun ws h => by
    rw [show weighted0.1.weights = some [1, 0, 3] by decide +kernel] at h; cases h; norm_num)

/-- `Text(Static(2), Choice('xy'), Choice(',;', replace=False))` (4), a wrapper (5) of a `Static`
and a `Choice`, a wrapper (6) of the `Static` and a `Sequential`. -/
def negWorld : World demoRng := ((do
  let n ← World.newStatic (.int 2)
  let wd ← World.newChoice .list [.str ['x'], .str ['y']] none true false (some 1) none
  let sep ← World.newChoice .list [.str [','], .str [';']] none false false (some 2) none
  let q ← World.newSequential .list [.int 1, .int 2] false
  let _ ← World.newText 5 n wd (some sep) none
  let _ ← World.newWrapMany demoStr 5 [("a", n), ("b", wd)] listOfValues (some 3)
  let _ ← World.newWrapMany demoStr 5 [("a", n), ("b", q)] listOfValues (some 3)
  return ()) emptyWorld).2

theorem negWorld_static : Quiet negWorld 0 (-2) := .static (by decide +kernel)
theorem negWorld_choice (n : Int) : Quiet negWorld 1 n :=
  .choice (k := .list) (by decide +kernel) (by decide +kernel) (.inr fun cum h => by
    rw [show (negWorld.obj 1).choice.cumWeights = none by decide +kernel] at h; cases h)

/-- A wrapper gives nothing for `-2`. -/
example : Quiet negWorld 5 (-2) := by
  obtain ⟨cb, h⟩ : ∃ cb, (negWorld.obj 5).wrapper = some cb :=
    Option.isSome_iff_exists.1 (by decide +kernel)
  refine .wrapMany (ss := [("a", 0), ("b", 1)]) (by decide +kernel) h fun ks hk => ?_
  simp only [List.mem_cons, List.not_mem_nil, or_false] at hk
  rcases hk with rfl | rfl
  · exact negWorld_static
  · exact negWorld_choice _

/-- Another one refuses the number, because of its second source. -/
example : RefusesNegative negWorld (-2) 6 := by
  obtain ⟨cb, h⟩ : ∃ cb, (negWorld.obj 6).wrapper = some cb :=
    Option.isSome_iff_exists.1 (by decide +kernel)
  refine .wrapMany (ss := [("a", 0)]) (k := "b") (s := 3) (tt := []) (by decide +kernel) h
    (fun ks hk => ?_) (.sequential (k := .list) (by decide +kernel))
  simp only [List.mem_cons, List.not_mem_nil, or_false] at hk
  subst hk
  exact negWorld_static

/-- The text takes two separators, of which there are no more afterwards. -/
example : ∃ depth, ∀ fuel, depth ≤ fuel → call demoStr (fuel + 1) 4 (some (.int (-(2 : Nat)))) negWorld =
    match call demoStr fuel 2 (some (.int (2 : Nat))) negWorld with
    | (.ok v, t) => (v.elems.map fun _ => .list [], t)
    | (.error x, t) => (.error x, t) := by
  obtain ⟨d, h⟩ := C81_text_violated (r := 4) (nw := 0) (wd := 1) (s := 2) (m := 2) (w := negWorld)
    (by decide +kernel) negWorld_static (negWorld_choice 0) (fun k _ => by decide +kernel) demoStr
  refine ⟨d, fun fuel hf => (h fuel hf).trans ?_⟩
  rcases call demoStr fuel 2 (some (.int (2 : Nat))) negWorld with ⟨_ | _, _⟩ <;> rfl

example : (call demoStr 5 4 (some (.int (-2))) negWorld).1 = .ok (.list []) ∧
    (call demoStr 5 4 none (call demoStr 5 4 (some (.int (-2))) negWorld).2).1 = .error .valueError ∧
    (call demoStr 5 4 none negWorld).1.isOk = true := by decide +kernel

/-- The emitter 16 of `demoWorld` is based on a field. -/
example : (call demoStr 5 16 (some (.int (-1))) demoWorld).1 = .ok (.list []) := by decide +kernel

/-- No `Choice` without replacement is asked first by the text 4. -/
example : ∀ v, (call demoStr 5 4 (some (.int (-2))) negWorld).1 = .ok v → v = .list [] := by
  refine C81_no_values_partial demoStr (by decide) 5 4 fun r' h k hk => ?_
  have e4 : (negWorld.obj 4).node = some (.text 0 1 2) := by decide +kernel
  have e0 : (negWorld.obj 0).node = some .static := by decide +kernel
  have : r' = 4 ∨ r' = 0 := by
    clear hk
    induction h with
    | refl => exact .inl rfl
    | tail _ h2 ih =>
      rcases ih with rfl | rfl
      · cases h2 with
        | word h => rw [e4] at h; cases h
        | text h => rw [e4] at h; cases h; exact .inr rfl
        | wrapOne h => rw [e4] at h; cases h
      · cases h2 with
        | word h => rw [e0] at h; cases h
        | text h => rw [e0] at h; cases h
        | wrapOne h => rw [e0] at h; cases h
  rcases this with rfl | rfl
  · rw [e4] at hk; cases hk
  · rw [e0] at hk; cases hk

end Fauxdoc
