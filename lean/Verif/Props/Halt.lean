import Verif.Proofs.Halt2
import Verif.Props.Heap4
/-
C62: using emitters, fields and schemas always ends, as long as none is below itself.
-/
set_option linter.unusedSectionVars false
namespace Fauxdoc
open PyM World
variable {K : Type} [Field K] [LinearOrder K] [FloorRing K] [IsStrictOrderedRing K] {R : Rng K}
variable {V : Ref → Val → Prop} {P : Ref → Prop} {depth : Ref → Nat}

/-- **C62.** Calling an object returns a value or raises an ordinary exception. There is no endless
loop, and no `RecursionError` if the recursion limit exceeds the depth. -/
theorem C62_call (str : Val → List Char) {w : World R} (ht : TypedOn V P w) (h : EndsOn P depth w)
    {fuel : Nat} {r : Ref} (hr : P r) (hd : depth r < fuel) {arg : Option Val} (ha : ArgOK arg) :
    Ended (World.call str fuel r arg w).1 :=
  (call_halts str h fuel r hr hd).halts arg ha w ⟨ht, fun _ => rfl⟩

/-- **C62.** `reset()` ends. -/
theorem C62_reset {w : World R} (h : EndsOn P depth w) {fuel : Nat} {r : Ref} (hr : P r)
    (hd : depth r < fuel) : Ended (World.reset fuel r w).1 :=
  World.reset_halts (EndsOn.ranked h) fuel r hr hd w fun _ => rfl

/-- **C62.** `seed(s)` ends. -/
theorem C62_seed {w : World R} (h : EndsOn P depth w) {fuel : Nat} {r : Ref} (hr : P r)
    (hd : depth r < fuel) (s : Option Int) : Ended (World.seed fuel r s w).1 :=
  World.seed_halts (EndsOn.ranked h) fuel r s hr hd w fun _ => rfl

/-- **C62.** `schema()` ends. -/
theorem C62_document (str : Val → List Char) {w : World R} (ht : TypedOn V P w)
    (h : EndsOn P depth w) {fuel : Nat} (fields : Dict Ref)
    (hr : ∀ kf ∈ fields, P kf.2 ∧ depth kf.2 < fuel) :
    Ended (World.document str fuel fields w).1 := by
  unfold World.document Schema.call
  rw [run_get_bind]
  have hl : ∀ (fs : Dict Ref) (doc : Dict Val), (∀ kf ∈ fs, P kf.2 ∧ depth kf.2 < fuel) →
      Halts (HaltInv V P w)
        (Schema.loop (fun r => (w.obj r).hide) (fun r => World.call str fuel r none) doc fs) := by
    intro fs
    induction fs with
    | nil => exact fun doc _ => Halts.pure _
    | cons kf fs ihf =>
      intro doc hfs
      have hc := call_halts (V := V) str h fuel kf.2 (hfs kf (by simp)).1 (hfs kf (by simp)).2
      unfold Schema.loop
      refine (hc.halts none trivial).bind (hc.contract none trivial) fun v _ => ?_
      split
      · exact ihf _ fun x hx => hfs x (by simp [hx])
      · exact ihf _ fun x hx => hfs x (by simp [hx])
  exact hl fields [] hr w ⟨ht, fun _ => rfl⟩

/-- **C62.** `schema.reset_fields()` ends. -/
theorem C62_resetFields {w : World R} (h : EndsOn P depth w) {fuel : Nat} (fields : Dict Ref)
    (hr : ∀ kf ∈ fields, P kf.2 ∧ depth kf.2 < fuel) :
    Ended (World.resetFields fuel fields w).1 := by
  rw [resetFields_eq]
  refine doMethod_halts (I := NodesAs fun x => (w.obj x).node) (fun c hc => ?_)
    (fun c _ => reset_nodes fuel c) w fun _ => rfl
  obtain ⟨kf, hkf, rfl⟩ := List.mem_map.1 hc
  exact World.reset_halts (EndsOn.ranked h) fuel _ (hr kf hkf).1 (hr kf hkf).2

/-- **C62.** `schema.seed_fields(s)` ends. -/
theorem C62_seedFields {w : World R} (h : EndsOn P depth w) {fuel : Nat} (s : Option Int)
    (fields : Dict Ref) (hr : ∀ kf ∈ fields, P kf.2 ∧ depth kf.2 < fuel) :
    Ended (World.seedFields fuel s fields w).1 := by
  rw [seedFields_eq]
  refine doMethod_halts (I := NodesAs fun x => (w.obj x).node) (fun c hc => ?_)
    (fun c _ => seed_nodes fuel c s) w fun _ => rfl
  obtain ⟨kf, hkf, rfl⟩ := List.mem_map.1 hc
  exact World.seed_halts (EndsOn.ranked h) fuel _ s (hr kf hkf).1 (hr kf hkf).2

/-! ### Programs -/

variable {str : Val → List Char}

theorem Steps.fed {w0 w : World R} (h : Steps str w0 w) (h0 : w0.Blank) : ∀ r, (w.obj r).Fed := by
  induction h with
  | start => intro r; rw [h0 r]; trivial
  | @step v u _ h' ih =>
    intro r
    rcases step_cases h' with hk | ⟨a, hg, _, _, ha⟩
    · exact fed_of_base (hk.base r) (ih r)
    · by_cases hr : r = v.next
      · subst hr; exact fed_of_base hg.new ha
      · exact fed_of_base (hg.base r hr) (ih r)

/-- A program without assignments cannot put an emitter below itself. -/
theorem Steps.endsOn {w0 w : World R} (h : Steps str w0 w) (h0 : w0.Blank)
    (htame : ∀ r, (w.obj r).Tame) : EndsOn (fun _ => True) id w := fun r _ =>
  ⟨htame r, h.fed h0 r, fun c hc => ⟨trivial, (h.grounded (.blank h0)).older r c hc⟩⟩

/-- **C62.** In programs that only construct and use objects, with weights that are not negative and
functions that end, everything ends: calls, `reset`, `seed`, documents. -/
theorem C62_program {w0 w : World R} (h : Steps str w0 w) (h0 : w0.Blank)
    (htame : ∀ r, (w.obj r).Tame) {fuel : Nat} {r : Ref} (hr : r < fuel) :
    (∀ arg, ArgOK arg → Ended (World.call str fuel r arg w).1) ∧
    Ended (World.reset fuel r w).1 ∧
    ∀ s, Ended (World.seed fuel r s w).1 :=
  ⟨fun _ ha => C62_call str (h.typed h0) (h.endsOn h0 htame) trivial hr ha,
    C62_reset (h.endsOn h0 htame) trivial hr, fun s => C62_seed (h.endsOn h0 htame) trivial hr s⟩

theorem C62_program_schema {w0 w : World R} (h : Steps str w0 w) (h0 : w0.Blank)
    (htame : ∀ r, (w.obj r).Tame) {fuel : Nat} (fields : Dict Ref)
    (hr : ∀ kf ∈ fields, kf.2 < fuel) :
    Ended (World.document str fuel fields w).1 ∧ Ended (World.resetFields fuel fields w).1 ∧
    ∀ s, Ended (World.seedFields fuel s fields w).1 :=
  have hf : ∀ kf ∈ fields, True ∧ id kf.2 < fuel := fun kf hkf => ⟨trivial, hr kf hkf⟩
  ⟨C62_document str (h.typed h0) (h.endsOn h0 htame) fields hf,
    C62_resetFields (h.endsOn h0 htame) fields hf,
    fun s => C62_seedFields (h.endsOn h0 htame) s fields hf⟩

/-! ### Cases -/

/-- Without the condition there is no such guarantee: an emitter that is its own source exceeds every
recursion limit. -/
theorem C62_cycle (str : Val → List Char) {w : World R} {r : Ref} {cb : Callback R.G}
    (hn : (w.obj r).node = some (.wrapOne r)) (hc : (w.obj r).wrapper = some cb) (fuel : Nat) :
    World.call str fuel r none w = (.error .recursion, w) := by
  induction fuel with
  | zero => rfl
  | succ fuel ih =>
    unfold World.call
    rw [run_get_bind, hn, hc]
    unfold WrapOne.call emitterCallOr WrapOne.emit
    exact PyM.bind_err ih

theorem count_tame (r : Ref) : (count6.obj r).Tame := by
  by_cases h : r < 5
  · have hn : ∀ r < 5, (count6.obj r).choice.weights = none ∧ (count6.obj r).wrapper.isNone := by
      decide +kernel
    obtain ⟨h1, h2⟩ := hn r h
    unfold Attrs.Tame
    split
    · rw [h1]; rintro ws ⟨⟩
    all_goals first | trivial | (rintro cb hcb; rw [hcb] at h2; cases h2)
  · have := (count_steps.grounded (.blank fun _ => rfl)).beyond r (by
      have : count6.next = 5 := by decide +kernel
      rw [this]; exact Nat.le_of_not_lt h)
    unfold Attrs.Tame
    rw [this]
    trivial

/-- The words, the texts and three texts in a row. -/
example : Ended (World.call demoStr 6 2 none count6).1 ∧ Ended (World.call demoStr 6 4 none count6).1 ∧
    Ended (World.call demoStr 6 4 (some (.int 3)) count6).1 :=
  have h := fun r (hr : r < 6) => (C62_program count_steps (fun _ => rfl) count_tame hr).1
  ⟨h 2 (by decide) none trivial, h 4 (by decide) none trivial,
    h 4 (by decide) _ (by rintro i ⟨⟩; decide)⟩

/-- One letter is left after `abc(2)`: enough for a letter, not for a word. -/
example : (World.call demoStr 6 1 none count6).1 = .ok (.str ['b']) ∧
    (World.call demoStr 6 2 none count6).1 = .error .valueError := by
  decide +kernel

end Fauxdoc
