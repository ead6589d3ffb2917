import Verif.Spec.Wrappers
/-
Lemmas about signatures, callbacks and the loops of the wrapper emitters.
-/
namespace Fauxdoc
variable {σ G α β : Type}

theorem Callback.wantsRng_iff (cb : Callback G) : cb.wantsRng = true ↔ cb.DeclaresRng := by
  unfold Callback.wantsRng Callback.DeclaresRng
  cases cb.sig with
  | none => simp
  | some ps => simp

theorem singleIsEmit_call (bad : Val → PyM σ Val) (emit : PyM σ Val)
    (emitMany : Int → PyM σ (List Val)) :
    SingleIsEmit (fun _ => True) (emitterCallOr bad emit emitMany) := by
  refine fun s _ => ⟨?_, trivial⟩
  change (if (1 : Int) = 1 then (do return Val.list [← emit])
      else (do return Val.list (← emitMany 1)) : PyM σ Val) s = _
  rw [if_pos rfl]
  have e : emitterCallOr bad emit emitMany none = emit := rfl
  rw [e, PyM.bind_apply]
  rcases emit s with ⟨_ | _, _⟩ <;> rfl

theorem mapPyM_nil (f : α → PyM σ β) (s : σ) : mapPyM f [] s = (.ok [], s) := rfl

theorem mapPyM_cons_ok {f : α → PyM σ β} {a : α} {as : List α} {s t : σ} {r : List β} :
    mapPyM f (a :: as) s = (.ok r, t) ↔
      ∃ b bs s1, f a s = (.ok b, s1) ∧ mapPyM f as s1 = (.ok bs, t) ∧ r = b :: bs := by
  constructor
  · intro h
    obtain ⟨b, s1, h1, h2⟩ := PyM.bind_eq_ok h
    obtain ⟨bs, s2, h3, h4⟩ := PyM.bind_eq_ok h2
    cases h4
    exact ⟨b, bs, s1, h1, h3, rfl⟩
  · rintro ⟨b, bs, s1, h1, h2, rfl⟩
    unfold mapPyM
    rw [PyM.bind_ok h1, PyM.bind_ok h2]; rfl

theorem mapPyM_ok_iff {f : α → PyM σ β} {l : List α} {s t : σ} {r : List β} :
    mapPyM f l s = (.ok r, t) ↔ Runs f l s r t := by
  induction l generalizing s r with
  | nil =>
    rw [mapPyM_nil]
    constructor
    · intro h; cases h; exact .nil _
    · intro h; cases h; rfl
  | cons a as ih =>
    rw [mapPyM_cons_ok]
    constructor
    · rintro ⟨b, bs, s1, h1, h2, rfl⟩
      exact .cons h1 (ih.1 h2)
    · intro h
      cases h with
      | cons h1 h2 => exact ⟨_, _, _, h1, ih.2 h2, rfl⟩

theorem Attr.run_ok {L : Attr σ G} {m : PyM G α} {s t : σ} {a : α} :
    L.run m s = (.ok a, t) ↔ ∃ g, m (L.get s) = (.ok a, g) ∧ t = L.set g s := by
  unfold Attr.run
  generalize m (L.get s) = x
  obtain ⟨r, g⟩ := x
  simp only [Prod.mk.injEq]
  constructor
  · rintro ⟨rfl, rfl⟩; exact ⟨g, ⟨rfl, rfl⟩, rfl⟩
  · rintro ⟨g', ⟨rfl, rfl⟩, rfl⟩; exact ⟨rfl, rfl⟩

/-- Running computations on the generator only changes the generator. -/
theorem runs_run_iff {L : Attr σ G} {f : α → PyM G β} {l : List α} {s t : σ} {r : List β} :
    Runs (fun a => L.run (f a)) l s r t ↔
      ∃ g, Runs f l (L.get s) r g ∧ t = L.set g s := by
  induction l generalizing s r with
  | nil =>
    constructor
    · intro h; cases h; exact ⟨_, .nil _, (L.set_get _).symm⟩
    · rintro ⟨g, h, rfl⟩; cases h; rw [L.set_get]; exact .nil _
  | cons a as ih =>
    constructor
    · intro h
      cases h with
      | cons h1 h2 =>
        obtain ⟨g1, h3, rfl⟩ := Attr.run_ok.1 h1
        obtain ⟨g2, h4, rfl⟩ := ih.1 h2
        rw [L.get_set] at h4
        exact ⟨g2, .cons h3 h4, L.set_set _ _ _⟩
    · rintro ⟨g, h, rfl⟩
      cases h with
      | cons h1 h2 =>
        refine .cons (Attr.run_ok.2 ⟨_, h1, rfl⟩) (ih.2 ⟨g, ?_, (L.set_set _ _ _).symm⟩)
        rwa [L.get_set]

theorem runs_lift_iff {f : α → Py β} {l : List α} {s t : σ} {r : List β} :
    Runs (fun a => (PyM.lift (f a) : PyM σ β)) l s r t ↔
      List.Forall₂ (fun a b => f a = .ok b) l r ∧ t = s := by
  induction l generalizing s r with
  | nil =>
    constructor
    · intro h; cases h; exact ⟨.nil, rfl⟩
    · rintro ⟨h, rfl⟩; cases h; exact .nil _
  | cons a as ih =>
    constructor
    · intro h
      cases h with
      | cons h1 h2 =>
        rw [PyM.lift_apply, Prod.mk.injEq] at h1
        obtain ⟨h1, rfl⟩ := h1
        obtain ⟨h3, rfl⟩ := ih.1 h2
        exact ⟨.cons h1 h3, rfl⟩
    · rintro ⟨h, rfl⟩
      cases h with
      | cons h1 h2 =>
        refine .cons (g1 := t) ?_ (ih.2 ⟨h2, rfl⟩)
        rw [PyM.lift_apply, h1]

/-- The loop of the wrapper emitters. -/
theorem runs_call_iff {L : Attr σ G} {cb : Callback G} {as : List (List Val × Dict Val)}
    (hself : ∀ a ∈ as, "self" ∉ a.2.keys) {s t : σ} {ws : List Val} :
    Runs (fun a => cb.call L a.1 a.2) as s ws t ↔ Applies L cb as s ws t := by
  have e : ∀ {as : List (List Val × Dict Val)}, (∀ a ∈ as, "self" ∉ a.2.keys) → ∀ {s},
      (Runs (fun a => cb.call L a.1 a.2) as s ws t ↔
        Runs (fun a => if cb.wantsRng then L.run (cb.invokeRng a.1 a.2)
          else PyM.lift (cb.invoke a.1 a.2)) as s ws t) := by
    intro as
    induction as generalizing ws with
    | nil =>
      intro _ s
      constructor <;> (intro h; cases h; exact .nil _)
    | cons a as ih =>
      intro hs s
      have ha : cb.call L a.1 a.2 = if cb.wantsRng then L.run (cb.invokeRng a.1 a.2)
          else PyM.lift (cb.invoke a.1 a.2) := by
        unfold Callback.call
        rw [if_neg (hs a (by simp))]
      have := fun ws s => ih (ws := ws) (fun b hb => hs b (by simp [hb])) (s := s)
      constructor
      · intro h
        cases h with
        | cons h1 h2 => rw [ha] at h1; exact .cons h1 ((this _ _).1 h2)
      · intro h
        cases h with
        | cons h1 h2 =>
          have h1' : (if cb.wantsRng then L.run (cb.invokeRng a.1 a.2)
            else PyM.lift (cb.invoke a.1 a.2) : PyM σ Val) s = _ := h1
          rw [← ha] at h1'
          exact .cons h1' ((this _ _).2 h2)
  rw [e hself]
  unfold Applies
  by_cases h : cb.wantsRng = true
  · have hd := (cb.wantsRng_iff).1 h
    simp only [h, if_true, hd, true_imp_iff, not_true, false_imp_iff, and_true]
    exact runs_run_iff
  · have hd : ¬ cb.DeclaresRng := fun hd => h ((cb.wantsRng_iff).2 hd)
    simp only [h, hd, false_imp_iff, not_false_iff, true_imp_iff, true_and]
    exact runs_lift_iff

theorem runs_map {γ : Type} {f : β → PyM σ γ} {m : α → β} {l : List α} {s t : σ} {r : List γ} :
    Runs f (l.map m) s r t ↔ Runs (fun a => f (m a)) l s r t := by
  induction l generalizing s r with
  | nil => constructor <;> (intro h; cases h; exact .nil _)
  | cons a as ih =>
    constructor
    · intro h
      cases h with
      | cons h1 h2 => exact .cons h1 (ih.1 h2)
    · intro h
      cases h with
      | cons h1 h2 => exact .cons h1 (ih.2 h2)

theorem Runs.length_eq {f : α → PyM σ β} {l : List α} {s t : σ} {r : List β}
    (h : Runs f l s r t) : r.length = l.length := by
  induction h with
  | nil => rfl
  | cons _ _ ih => simp [ih]

/-! ### Signatures -/

namespace Sig

theorem bindKw_spec {ps : List Param} {kw : List String} {b : Bool}
    (hn : (ps.map (·.name)).Nodup) (hk : kw.Nodup) (h : bindKw ps kw b = true) :
    (∀ p ∈ ps, p.kind ≠ .varKw → p.kind ≠ .varPos →
      p.hasDefault = true ∧ p.name ∉ kw ∨ p.kind ≠ .posOnly ∧ p.name ∈ kw) ∧
    (∀ k ∈ kw, b = true ∨ (∃ p ∈ ps, p.kind = .varKw) ∨
      ∃ p ∈ ps, p.name = k ∧ (p.kind = .posOrKw ∨ p.kind = .kwOnly)) := by
  induction ps generalizing kw b with
  | nil =>
    refine ⟨by simp, ?_⟩
    intro k hk'
    unfold bindKw at h
    cases kw with
    | nil => simp at hk'
    | cons a as => left; simpa using h
  | cons p ps ih =>
    have hn' := (List.nodup_cons.1 hn)
    unfold bindKw at h
    by_cases h1 : p.kind = .varKw
    · rw [if_pos h1] at h
      obtain ⟨i1, i2⟩ := ih hn'.2 hk h
      refine ⟨?_, ?_⟩
      · intro q hq hq1 hq2
        rcases List.mem_cons.1 hq with rfl | hq
        · exact absurd h1 hq1
        · exact i1 q hq hq1 hq2
      · intro k _
        exact .inr (.inl ⟨p, by simp, h1⟩)
    rw [if_neg h1] at h
    by_cases h2 : p.kind = .varPos
    · rw [if_pos h2] at h
      obtain ⟨i1, i2⟩ := ih hn'.2 hk h
      refine ⟨?_, ?_⟩
      · intro q hq hq1 hq2
        rcases List.mem_cons.1 hq with rfl | hq
        · exact absurd h2 hq2
        · exact i1 q hq hq1 hq2
      · intro k hk'
        rcases i2 k hk' with i | ⟨q, hq, e⟩ | ⟨q, hq, e⟩
        · exact .inl i
        · exact .inr (.inl ⟨q, by simp [hq], e⟩)
        · exact .inr (.inr ⟨q, by simp [hq], e⟩)
    rw [if_neg h2] at h
    by_cases h3 : p.name ∈ kw
    · rw [if_pos h3] at h
      by_cases h4 : p.kind = .posOnly
      · rw [if_pos h4] at h; cases h
      rw [if_neg h4] at h
      obtain ⟨i1, i2⟩ := ih hn'.2 (hk.erase _) h
      refine ⟨?_, ?_⟩
      · intro q hq hq1 hq2
        rcases List.mem_cons.1 hq with rfl | hq
        · exact .inr ⟨h4, h3⟩
        · have hne : q.name ≠ p.name := by
            intro e
            exact hn'.1 (List.mem_map.2 ⟨q, hq, e⟩)
          rcases i1 q hq hq1 hq2 with ⟨j1, j2⟩ | ⟨j1, j2⟩
          · exact .inl ⟨j1, fun hh => j2 ((List.mem_erase_of_ne hne).2 hh)⟩
          · exact .inr ⟨j1, List.mem_of_mem_erase j2⟩
      · intro k hk'
        by_cases e : k = p.name
        · refine .inr (.inr ⟨p, by simp, e.symm, ?_⟩)
          cases hkind : p.kind <;> simp_all
        · rcases i2 k ((List.mem_erase_of_ne e).2 hk') with i | ⟨q, hq, e⟩ | ⟨q, hq, e⟩
          · exact .inl i
          · exact .inr (.inl ⟨q, by simp [hq], e⟩)
          · exact .inr (.inr ⟨q, by simp [hq], e⟩)
    · rw [if_neg h3] at h
      by_cases h4 : p.hasDefault = true
      · rw [if_pos h4] at h
        obtain ⟨i1, i2⟩ := ih hn'.2 hk h
        refine ⟨?_, ?_⟩
        · intro q hq hq1 hq2
          rcases List.mem_cons.1 hq with rfl | hq
          · exact .inl ⟨h4, h3⟩
          · exact i1 q hq hq1 hq2
        · intro k hk'
          rcases i2 k hk' with i | ⟨q, hq, e⟩ | ⟨q, hq, e⟩
          · exact .inl i
          · exact .inr (.inl ⟨q, by simp [hq], e⟩)
          · exact .inr (.inr ⟨q, by simp [hq], e⟩)
      · rw [if_neg h4] at h; cases h

/-- What the positional phase guarantees: it splits off the filled parameters. -/
theorem bindPos_spec {ps : List Param} {kw : List String} {n : Nat} {rest : List Param}
    (hord : ps.Pairwise fun p q => p.kind.rank ≤ q.kind.rank)
    (h : bindPos kw ps n = some rest) :
    ∃ filled tail, ps = filled ++ tail ∧
      (∀ p ∈ filled, (p.kind = .posOnly ∨ p.kind = .posOrKw) ∧
        (p.kind = .posOrKw → p.name ∉ kw)) ∧
      (tail = rest ∧ filled.length = n ∨
        ∃ v, v.kind = .varPos ∧ tail = v :: rest ∧ filled.length ≤ n) := by
  induction ps generalizing n with
  | nil =>
    cases n with
    | zero => cases h; exact ⟨[], [], rfl, by simp, .inl ⟨rfl, rfl⟩⟩
    | succ n => cases h
  | cons p ps ih =>
    cases n with
    | zero =>
      unfold bindPos at h
      by_cases h1 : p.kind = .varPos
      · rw [if_pos h1] at h; cases h
        exact ⟨[], _, rfl, by simp, .inr ⟨p, h1, rfl, by simp⟩⟩
      rw [if_neg h1] at h
      have : rest = p :: ps := by
        split_ifs at h <;> simp_all
      subst this
      exact ⟨[], _, rfl, by simp, .inl ⟨rfl, rfl⟩⟩
    | succ n =>
      unfold bindPos at h
      by_cases h1 : p.kind = .varKw ∨ p.kind = .kwOnly
      · rw [if_pos h1] at h; cases h
      rw [if_neg h1] at h
      by_cases h2 : p.kind = .varPos
      · rw [if_pos h2] at h; cases h
        exact ⟨[], _, rfl, by simp, .inr ⟨p, h2, rfl, by simp⟩⟩
      rw [if_neg h2] at h
      by_cases h3 : p.name ∈ kw ∧ p.kind ≠ .posOnly
      · rw [if_pos h3] at h; cases h
      rw [if_neg h3] at h
      obtain ⟨filled, tail, e, hf, ht⟩ := ih (List.pairwise_cons.1 hord).2 h
      refine ⟨p :: filled, tail, by rw [e]; rfl, ?_, ?_⟩
      · intro q hq
        rcases List.mem_cons.1 hq with rfl | hq
        · refine ⟨?_, ?_⟩
          · cases hk : q.kind <;> simp_all
          · intro hk hm
            exact h3 ⟨hm, by rw [hk]; simp⟩
        · exact hf q hq
      · rcases ht with ⟨rfl, hl⟩ | ⟨v, hv, rfl, hl⟩
        · exact .inl ⟨rfl, by simp [hl]⟩
        · exact .inr ⟨v, hv, rfl, by simp; omega⟩

theorem positional_append (a b : List Param) : positional (a ++ b) = positional a ++ positional b :=
  List.filter_append ..

theorem positional_of_all {l : List Param}
    (h : ∀ p ∈ l, p.kind = .posOnly ∨ p.kind = .posOrKw) : positional l = l :=
  List.filter_eq_self.2 (by simpa using h)

theorem mem_positional {p : Param} {l : List Param} :
    p ∈ positional l ↔ p ∈ l ∧ (p.kind = .posOnly ∨ p.kind = .posOrKw) := by
  simp [positional]

/-- An argument list that `Signature.bind` accepts is accepted by the call. -/
theorem callOk_of_bindOk {ps : List Param} (hv : Valid ps) {n : Nat} {kw : List String}
    (hk : kw.Nodup) (h : bindOk ps n kw = true) : callOk ps n kw = true := by
  unfold bindOk at h
  cases hb : bindPos kw ps n with
  | none => rw [hb] at h; cases h
  | some rest =>
    rw [hb] at h
    have h : bindKw rest kw false = true := h
    obtain ⟨filled, tail, e, hf, ht⟩ := bindPos_spec hv.order hb
    have hpf : positional filled = filled := positional_of_all fun p hp => (hf p hp).1
    have hnames := hv.names
    have hsub : ∀ p ∈ rest, p ∈ ps := by
      intro p hp
      rw [e]
      rcases ht with ⟨rfl, _⟩ | ⟨v, _, rfl, _⟩ <;> simp [hp]
    have hnr : (rest.map (·.name)).Nodup := by
      rw [e] at hnames
      rcases ht with ⟨rfl, _⟩ | ⟨v, _, rfl, _⟩
      · rw [List.map_append] at hnames
        exact (List.nodup_append.1 hnames).2.1
      · rw [List.map_append, List.map_cons] at hnames
        exact (List.nodup_cons.1 (List.nodup_append.1 hnames).2.1).2
    obtain ⟨k1, k2⟩ := bindKw_spec hnr hk h
    have hpos : positional ps = filled ++ positional tail := by
      rw [e, positional_append, hpf]
    have hkwonly : ∀ p ∈ ps, p.kind = .kwOnly → p ∈ rest := by
      intro p hp hpk
      rw [e] at hp
      rcases List.mem_append.1 hp with hp | hp
      · have := (hf p hp).1
        rw [hpk] at this
        rcases this with h | h <;> cases h
      · rcases ht with ⟨rfl, _⟩ | ⟨v, hv', rfl, _⟩
        · exact hp
        · rcases List.mem_cons.1 hp with rfl | hp
          · rw [hpk] at hv'; cases hv'
          · exact hp
    have hdrop : n ≤ (positional ps).length ∧ (positional ps).take n = filled ∧
          (positional ps).drop n = positional rest ∨
        (∃ p ∈ ps, p.kind = .varPos) ∧ (positional ps).take n = filled ∧
          (positional ps).drop n = [] := by
      rcases ht with ⟨rfl, hl⟩ | ⟨v, hv', rfl, hl⟩
      · left
        rw [hpos]
        exact ⟨by simp; omega, by rw [← hl, List.take_left], by rw [← hl, List.drop_left]⟩
      · right
        have ho := hv.order
        rw [e] at ho
        have ho2 := (List.pairwise_cons.1 (List.pairwise_append.1 ho).2.1).1
        have hpt : positional (v :: rest) = [] := by
          refine List.filter_eq_nil_iff.2 ?_
          intro q hq
          rcases List.mem_cons.1 hq with rfl | hq
          · simp [hv']
          · have := ho2 q hq
            rw [hv'] at this
            cases hqk : q.kind <;> simp_all [ParamKind.rank]
        rw [hpos, hpt, List.append_nil]
        exact ⟨⟨v, by rw [e]; simp, hv'⟩, List.take_of_length_le hl, List.drop_eq_nil_of_le hl⟩
    unfold callOk
    simp only [Bool.and_eq_true, decide_eq_true_eq]
    refine ⟨⟨⟨⟨?_, ?_⟩, ?_⟩, ?_⟩, ?_⟩
    · rcases hdrop with h | h
      · exact .inl h.1
      · exact .inr h.1
    · intro k hk'
      rcases k2 k hk' with h | ⟨p, hp, h⟩ | ⟨p, hp, h⟩
      · cases h
      · exact .inl ⟨p, hsub p hp, h⟩
      · exact .inr ⟨p, hsub p hp, h⟩
    · intro p hp
      have : p ∈ filled := by
        rcases hdrop with h | h
        · rw [h.2.1] at hp; exact hp
        · rw [h.2.1] at hp; exact hp
      exact (hf p this).2
    · intro p hp
      rcases hdrop with h | h
      · rw [h.2.2] at hp
        obtain ⟨hp1, hp2⟩ := mem_positional.1 hp
        have a1 : p.kind ≠ .varKw := by rcases hp2 with h | h <;> simp [h]
        have a2 : p.kind ≠ .varPos := by rcases hp2 with h | h <;> simp [h]
        rcases k1 p hp1 a1 a2 with h | h
        · exact .inl h.1
        · exact .inr ⟨hp2.resolve_left h.1, h.2⟩
      · rw [h.2.2] at hp; cases hp
    · intro p hp hpk
      rcases k1 p (hkwonly p hp hpk) (by simp [hpk]) (by simp [hpk]) with h | h
      · exact .inl h.1
      · exact .inr h.2

end Sig
end Fauxdoc
