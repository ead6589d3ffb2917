import Verif.Spec.BadSeed
import Verif.Proofs.World8
/-
C92: seeds that `random.seed` refuses.
-/
namespace Fauxdoc.Refused
open PyM
variable {G E : Type} {ofSeed : Int → G} {ofEntropy : Nat → G} {cls : Ref → Cls}

theorem SameBut.refl (a : Obj G E) : SameBut a a := ⟨rfl, rfl, rfl, rfl, rfl⟩

theorem SameBut.trans {a b c : Obj G E} (h : SameBut a b) (h' : SameBut b c) : SameBut a c :=
  ⟨h.cls.trans h'.cls, h.rng.trans h'.rng, h.data.trans h'.data, h.lastReset.trans h'.lastReset,
    h.lastSeed.trans h'.lastSeed⟩

theorem SameBut.eq {a b : Obj G E} (h : SameBut a b) (hs : a.seed = b.seed) : a = b := by
  cases a; cases b
  cases h.cls; cases h.rng; cases h.data; cases h.lastReset; cases h.lastSeed; cases hs
  rfl

theorem Alike.refl (w : Store G E) : Alike w w := ⟨rfl, fun _ => .refl _⟩

theorem Alike.trans {w w' w'' : Store G E} (h : Alike w w') (h' : Alike w' w'') : Alike w w'' :=
  ⟨h.1.trans h'.1, fun x => (h.2 x).trans (h'.2 x)⟩

theorem Store.Has.alike {w w' : Store G E} (h : w.Has cls) (h' : Alike w w') : w'.Has cls :=
  fun x => (h'.2 x).cls.symm.trans (h x)

/-- Spoiling a seed changes nothing else: generators, data and everything emitted from them stay. -/
theorem alike_spoilt (w : Store G E) (q : Ref) : AlikeBut q w (w.spoilt q) := by
  refine ⟨⟨rfl, fun x => ?_⟩, fun x hx => ?_⟩
  · by_cases h : x = q
    · simp only [Store.spoilt, h, if_true]
      exact ⟨rfl, rfl, rfl, rfl, rfl⟩
    · simp only [Store.spoilt, h, if_false]
      exact .refl _
  · simp only [Store.spoilt, hx, if_false]

theorem seed_spoilt (r : Ref) (w : Store G E) :
    (mixinSeed ofSeed ofEntropy r .refused : PyM (Store G E) Unit) w =
      (.error .typeError, w.spoilt r) := by
  show (Except.error Err.typeError, w.upd r fun a => { a with seed := .refused }) = _
  refine Prod.ext rfl ?_
  unfold Store.upd Store.spoilt
  simp only [Store.mk.injEq, and_true]
  funext x
  by_cases h : x = r
  · simp [h]
  · simp [h]

theorem doMethod_nil {σ : Type} (f : Ref → PyM σ Unit) (w : σ) :
    Group.doMethod (([] : List Ref).map some) f w = (.ok (), w) := rfl

/-- Parts without a generator have no `seed`. -/
theorem doMethod_plain {fuel : Nat} {w : Store G E} (hw : w.Has cls) (s : Seed) :
    ∀ {pre : List Ref} (post : List Ref), (∀ x ∈ pre, (cls x).random = false) →
    Group.doMethod ((pre ++ post).map some) (seed ofSeed ofEntropy (fuel + 1) · s) w =
      Group.doMethod (post.map some) (seed ofSeed ofEntropy (fuel + 1) · s) w
  | [], post, _ => rfl
  | c :: pre, post, h => by
    rw [List.cons_append, World.doMethod_cons]
    have hc : (w.obj c).cls = .plain := by
      have := h c (by simp)
      rw [← hw c] at this
      cases hcls : (w.obj c).cls <;> rw [hcls] at this <;> simp [Cls.random] at this ⊢
    have : seed ofSeed ofEntropy (fuel + 1) c s w = (.error .attributeError, w) := by
      unfold seed
      rw [run_get_bind, hc]
      rfl
    rw [this]
    simp only [if_true]
    exact doMethod_plain hw s post fun x hx => h x (by simp [hx])

/-- **C92 (a seed that is refused).**  `seed` raises `TypeError`, and the only thing it has changed is
`rng_seed` of one object: the one that is reached by going to the first part that has a generator. -/
theorem C92_refused {n fuel : Nat} {r q : Ref} (w : Store G E) (hw : w.Has cls) (hr : Fits cls n r)
    (hf : n ≤ fuel) (hq : First cls r q) :
    seed ofSeed ofEntropy fuel r .refused w = (.error .typeError, w.spoilt q) := by
  induction hq generalizing n fuel with
  | here hr' hk =>
    rename_i r
    cases hr with | intro h =>
    rename_i n
    obtain ⟨fuel, rfl⟩ : ∃ m, fuel = m + 1 := ⟨fuel - 1, by omega⟩
    have hkids : ∀ kids, (cls r).kids = kids →
        Group.doMethod (kids.map some) (seed ofSeed ofEntropy fuel · .refused) w = (.ok (), w) := by
      intro kids hkids
      cases kids with
      | nil => rfl
      | cons c kids =>
        have := h c (by rw [hkids]; simp)
        cases this with | intro =>
        obtain ⟨fuel, rfl⟩ : ∃ m, fuel = m + 1 := ⟨fuel - 1, by omega⟩
        have e := doMethod_plain (ofSeed := ofSeed) (ofEntropy := ofEntropy) (fuel := fuel) hw .refused
          (pre := c :: kids) [] (by rw [← hkids]; exact hk)
        rw [List.append_nil] at e
        rw [e]
        rfl
    unfold seed
    rw [run_get_bind, hw r]
    cases hc : cls r with
    | plain => rw [hc] at hr'; simp [Cls.random] at hr'
    | own =>
      show (mixinSeed ofSeed ofEntropy r .refused >>= _) w = _
      rw [PyM.bind_apply, seed_spoilt]
    | parent kids =>
      show (Group.doMethod _ _ >>= _) w = _
      rw [PyM.bind_apply, hkids kids (by rw [hc]; rfl)]
      show PyM.ignoring _ _ w = _
      unfold PyM.ignoring
      rw [seed_spoilt]
      rfl
    | twice kids =>
      show (Group.doMethod _ _ >>= _) w = _
      rw [PyM.bind_apply, hkids kids (by rw [hc]; rfl)]
      show (PyM.ignoring _ _ >>= _) w = _
      rw [PyM.bind_apply]
      unfold PyM.ignoring
      rw [seed_spoilt]
      rfl
  | down hk hp hc hq ih =>
    rename_i r c q pre post
    cases hr with | intro h =>
    rename_i n
    obtain ⟨fuel, rfl⟩ : ∃ m, fuel = m + 1 := ⟨fuel - 1, by omega⟩
    have hfc := h c (by rw [hk]; simp)
    have hkids : Group.doMethod ((cls r).kids.map some) (seed ofSeed ofEntropy fuel · .refused) w =
        (.error .typeError, w.spoilt q) := by
      rw [hk]
      have hfc' := hfc
      cases hfc' with | intro =>
      obtain ⟨fuel, rfl⟩ : ∃ m, fuel = m + 1 := ⟨fuel - 1, by omega⟩
      rw [doMethod_plain hw .refused _ hp, World.doMethod_cons, ih hfc (by omega)]
      rfl
    unfold seed
    rw [run_get_bind, hw r]
    cases hcr : cls r with
    | plain => rw [hcr] at hk; simp [Cls.kids] at hk
    | own => rw [hcr] at hk; simp [Cls.kids] at hk
    | parent kids =>
      rw [hcr] at hkids
      show (Group.doMethod (kids.map some) _ >>= _) w = _
      rw [PyM.bind_apply]
      erw [hkids]
    | twice kids =>
      rw [hcr] at hkids
      show (Group.doMethod (kids.map some) _ >>= _) w = _
      rw [PyM.bind_apply]
      erw [hkids]

/-- There is such an object. -/
theorem C92_first {n : Nat} {r : Ref} (hr : Fits cls n r) (h : (cls r).random = true) :
    ∃ q, First cls r q ∧ (q = r ∨ Below cls r q) := by
  induction hr with
  | intro hk ih =>
    rename_i n r
    by_cases hall : ∀ c ∈ (cls r).kids, (cls c).random = false
    · exact ⟨r, .here h hall, .inl rfl⟩
    · have : ∃ pre c post, (cls r).kids = pre ++ c :: post ∧ (∀ x ∈ pre, (cls x).random = false) ∧
          (cls c).random = true := by
        clear ih hk h
        generalize (cls r).kids = l at *
        induction l with
        | nil => simp at hall
        | cons a l ihl =>
          by_cases ha : (cls a).random = true
          · exact ⟨[], a, l, rfl, by simp, ha⟩
          · have ha' : (cls a).random = false := by simpa using ha
            obtain ⟨pre, c, post, h1, h2, h3⟩ := ihl (by
              intro hl
              exact hall fun c hc => by
                rcases List.mem_cons.1 hc with rfl | hc
                · exact ha'
                · exact hl c hc)
            exact ⟨a :: pre, c, post, by rw [h1]; rfl, by
              intro x hx
              rcases List.mem_cons.1 hx with rfl | hx
              · exact ha'
              · exact h2 x hx, h3⟩
      obtain ⟨pre, c, post, h1, h2, h3⟩ := this
      have hc : c ∈ (cls r).kids := by rw [h1]; simp
      obtain ⟨q, hq, hb⟩ := ih c hc h3
      refine ⟨q, .down h1 h2 h3 hq, .inr ?_⟩
      rcases hb with rfl | hb
      · exact .kid hc
      · exact .step hc hb

/-! ### A valid seed afterwards -/

theorem Alike.upd {w w' : Store G E} (h : Alike w w') (r : Ref) {f f' : Obj G E → Obj G E}
    (hf : SameBut (f (w.obj r)) (f' (w'.obj r))) : Alike (w.upd r f) (w'.upd r f') := by
  refine ⟨h.1, fun x => ?_⟩
  simp only [Store.upd]
  by_cases hx : x = r
  · rw [if_pos hx, if_pos hx]; exact hf
  · rw [if_neg hx, if_neg hx]; exact h.2 x

theorem rel_setSeed (r : Ref) (s s' : Seed) :
    Rel Alike (setSeed r s : PyM (Store G E) Unit) (setSeed r s') := fun _ _ h =>
  ⟨rfl, h.upd r ⟨(h.2 r).cls, (h.2 r).rng, (h.2 r).data, (h.2 r).lastReset, (h.2 r).lastSeed⟩⟩

theorem rel_newRng (r : Ref) (s : Seed) : Rel Alike
    (newRng ofSeed ofEntropy r s : PyM (Store G E) Unit) (newRng ofSeed ofEntropy r s) := by
  intro w w' h
  match s with
  | .refused => exact ⟨rfl, h⟩
  | .valid (some n) =>
    exact ⟨rfl, h.upd r ⟨(h.2 r).cls, rfl, (h.2 r).data, (h.2 r).lastReset, (h.2 r).lastSeed⟩⟩
  | .valid none =>
    have := h.upd r (f := fun a => { a with rng := ofEntropy w.entropy })
      (f' := fun a => { a with rng := ofEntropy w'.entropy }) ⟨(h.2 r).cls, congrArg ofEntropy h.1,
        (h.2 r).data, (h.2 r).lastReset, (h.2 r).lastSeed⟩
    exact ⟨rfl, congrArg (· + 1) h.1, this.2⟩

theorem rel_last (r : Ref) (m : PyM (G × E) Unit) : Rel Alike (last r m) (last r m) := by
  intro w w' h
  unfold last
  rw [(h.2 r).rng, (h.2 r).data]
  exact ⟨rfl, h.upd r ⟨(h.2 r).cls, rfl, rfl, (h.2 r).lastReset, (h.2 r).lastSeed⟩⟩

theorem rel_mixinSeed (r : Ref) (s : Seed) : Rel Alike
    (mixinSeed ofSeed ofEntropy r s : PyM (Store G E) Unit) (mixinSeed ofSeed ofEntropy r s) :=
  (rel_setSeed r s s).bind fun _ => rel_newRng r s

/-- What `RandomMixin.seed` does with a valid seed. -/
theorem mixinSeed_valid (r : Ref) (s : Option Int) (w : Store G E) :
    ((mixinSeed ofSeed ofEntropy r (.valid s) : PyM (Store G E) Unit) w).1 = .ok () ∧
      (((mixinSeed ofSeed ofEntropy r (.valid s) : PyM (Store G E) Unit) w).2.obj r).seed = .valid s ∧
      ∀ x, ((((mixinSeed ofSeed ofEntropy r (.valid s) : PyM (Store G E) Unit) w).2.obj x).cls =
        (w.obj x).cls) ∧ (x ≠ r →
        ((mixinSeed ofSeed ofEntropy r (.valid s) : PyM (Store G E) Unit) w).2.obj x = w.obj x) := by
  cases s <;>
  · refine ⟨rfl, ?_, fun x => ?_⟩
    · simp [mixinSeed, setSeed, newRng, Store.upd, PyM.modify]
    · by_cases h : x = r <;> simp [mixinSeed, setSeed, newRng, Store.upd, PyM.modify, h]

theorem ignoring_mixinSeed (r : Ref) (s : Option Int) :
    PyM.ignoring .attributeError (mixinSeed ofSeed ofEntropy r (.valid s)) =
      (mixinSeed ofSeed ofEntropy r (.valid s) : PyM (Store G E) Unit) := by
  funext w
  unfold PyM.ignoring
  have := (mixinSeed_valid (ofSeed := ofSeed) (ofEntropy := ofEntropy) r s w).1
  generalize (mixinSeed ofSeed ofEntropy r (.valid s) : PyM (Store G E) Unit) w = p at *
  obtain ⟨e | u, w1⟩ := p
  · cases this
  · rfl

/-- `seed` with a valid seed, spelled out. -/
theorem seed_valid (fuel : Nat) (r : Ref) (s : Option Int) (w : Store G E) :
    seed ofSeed ofEntropy (fuel + 1) r (.valid s) w = (match (w.obj r).cls with
      | .plain => PyM.raise .attributeError
      | .own => do
        mixinSeed ofSeed ofEntropy r (.valid s)
        last r (w.obj r).lastSeed
      | .parent kids => do
        Group.doMethod (kids.map some) (seed ofSeed ofEntropy fuel · (.valid s))
        mixinSeed ofSeed ofEntropy r (.valid s)
      | .twice kids => do
        Group.doMethod (kids.map some) (seed ofSeed ofEntropy fuel · (.valid s))
        mixinSeed ofSeed ofEntropy r (.valid s)
        Group.doMethod (kids.map some) (seed ofSeed ofEntropy fuel · (.valid s)) :
        PyM (Store G E) Unit) w := by
  rw [seed, run_get_bind]
  cases (w.obj r).cls with
  | plain => rfl
  | own => rfl
  | parent kids =>
    dsimp only
    rw [ignoring_mixinSeed]
  | twice kids =>
    dsimp only
    rw [ignoring_mixinSeed]
    refine congrFun (congrArg (Bind.bind _) (funext fun _ => ?_)) w
    funext v
    rw [PyM.bind_apply, PyM.bind_apply]
    obtain ⟨h1, h2, -⟩ := mixinSeed_valid (ofSeed := ofSeed) (ofEntropy := ofEntropy) r s v
    generalize (mixinSeed ofSeed ofEntropy r (.valid s) : PyM (Store G E) Unit) v = p at *
    obtain ⟨e | u, v1⟩ := p
    · rfl
    · dsimp only at h2 ⊢
      rw [run_get_bind, h2]

theorem rel_seed (s : Option Int) : ∀ (fuel : Nat) (r : Ref), Rel Alike
    (seed ofSeed ofEntropy fuel r (.valid s) : PyM (Store G E) Unit)
    (seed ofSeed ofEntropy fuel r (.valid s))
  | 0, _ => Rel.raise _ _
  | fuel + 1, r => by
    intro w w' h
    rw [seed_valid, seed_valid, (h.2 r).cls, (h.2 r).lastSeed]
    cases (w'.obj r).cls with
    | plain => exact ⟨rfl, h⟩
    | own => exact ((rel_mixinSeed r _).bind fun _ => rel_last r _) w w' h
    | parent kids =>
      exact ((Group.doMethod_rel fun c _ => rel_seed s fuel c).bind fun _ => rel_mixinSeed r _) w w' h
    | twice kids =>
      exact ((Group.doMethod_rel fun c _ => rel_seed s fuel c).bind fun _ =>
        (rel_mixinSeed r _).bind fun _ => Group.doMethod_rel fun c _ => rel_seed s fuel c) w w' h

/-- The classes, and the objects in `X` have this seed. -/
def SeedInv (cls : Ref → Cls) (s : Option Int) (X : Ref → Prop) (w : Store G E) : Prop :=
  w.Has cls ∧ ∀ x, X x → (cls x).random = true → (w.obj x).seed = .valid s

theorem keeps_mixinSeed (r : Ref) (s : Option Int) (X : Ref → Prop) :
    Keeps (SeedInv cls s X) (mixinSeed ofSeed ofEntropy r (.valid s) : PyM (Store G E) Unit) := by
  intro w h
  obtain ⟨-, h2, h3⟩ := mixinSeed_valid (ofSeed := ofSeed) (ofEntropy := ofEntropy) r s w
  refine ⟨fun x => (h3 x).1.trans (h.1 x), fun x hx hr => ?_⟩
  by_cases hxr : x = r
  · rw [hxr]; exact h2
  · rw [(h3 x).2 hxr]; exact h.2 x hx hr

theorem keeps_last (r : Ref) (m : PyM (G × E) Unit) (s : Option Int) (X : Ref → Prop) :
    Keeps (SeedInv cls s X) (last r m) := by
  intro w h
  unfold last
  refine ⟨fun x => ?_, fun x hx hr => ?_⟩
  · rw [← h.1 x]
    by_cases hxr : x = r <;> simp [Store.upd, hxr]
  · rw [← h.2 x hx hr]
    by_cases hxr : x = r <;> simp [Store.upd, hxr]

theorem keeps_seed (s : Option Int) (X : Ref → Prop) : ∀ (fuel : Nat) (r : Ref),
    Keeps (SeedInv cls s X) (seed ofSeed ofEntropy fuel r (.valid s) : PyM (Store G E) Unit)
  | 0, _ => fun _ h => h
  | fuel + 1, r => by
    intro w h
    rw [seed_valid]
    have hk : ∀ kids : List Ref, Keeps (SeedInv cls s X) (Group.doMethod (kids.map some)
        (seed ofSeed ofEntropy fuel · (.valid s)) : PyM (Store G E) Unit) := fun kids =>
      (Group.doMethod_rel fun c _ => (keeps_seed s X fuel c).rel).keeps
    cases (w.obj r).cls with
    | plain => exact h
    | own => exact (keeps_mixinSeed r s X).bind (fun _ => keeps_last r _ s X) w h
    | parent kids => exact (hk kids).bind (fun _ => keeps_mixinSeed r s X) w h
    | twice kids =>
      exact (hk kids).bind (fun _ => (keeps_mixinSeed r s X).bind fun _ => hk kids) w h

theorem doMethod_noAttr {σ : Type} : ∀ (kids : List Ref) (f : Ref → PyM σ Unit) (w : σ),
    (Group.doMethod (kids.map some) f w).1 ≠ .error .attributeError
  | [], _, _ => by simp [Group.doMethod, PyM.forEach, Pure.pure, PyM.pure]
  | c :: kids, f, w => by
    rw [World.doMethod_cons]
    rcases f c w with ⟨e | u, w1⟩
    · by_cases he : e = .attributeError
      · simp only [he, if_true]
        exact doMethod_noAttr kids f w1
      · simp [he]
    · exact doMethod_noAttr kids f w1

theorem seed_done (s : Option Int) : ∀ (fuel : Nat) (r : Ref) (w w' : Store G E)
    (x : Except Err Unit), w.Has cls → seed ofSeed ofEntropy fuel r (.valid s) w = (x, w') →
    x = .ok () ∨ x = .error .attributeError →
    ∀ y, y = r ∨ Below cls r y → (cls y).random = true → (w'.obj y).seed = .valid s
  | 0, _, w, w', x, _, h, hx => by
    cases h
    rcases hx with hx | hx <;> cases hx
  | fuel + 1, r, w, w', x, hw, h, hx => by
    intro y hy hr
    rw [seed_valid, hw r] at h
    have hkids : ∀ (kids : List Ref) (v v' : Store G E), v.Has cls →
        Group.doMethod (kids.map some) (seed ofSeed ofEntropy fuel · (.valid s)) v = (.ok (), v') →
        v'.Has cls ∧ ∀ c ∈ kids, ∀ y, y = c ∨ Below cls c y → (cls y).random = true →
          (v'.obj y).seed = .valid s := by
      intro kids v v' hv h
      refine World.doMethod_all (I := fun v => v.Has cls) (Q := fun c v => ∀ y, y = c ∨ Below cls c y →
        (cls y).random = true → (v.obj y).seed = .valid s) kids ?_ ?_ ?_ v v' hv h
      · intro c _ v hv
        exact (keeps_seed s (fun _ => False) fuel c v ⟨hv, fun _ h => h.elim⟩).1
      · rintro c _ d _ v ⟨hv, hq⟩
        have := keeps_seed s (fun y => y = c ∨ Below cls c y) fuel d v ⟨hv, hq⟩ (ofSeed := ofSeed)
          (ofEntropy := ofEntropy)
        exact ⟨this.1, this.2⟩
      · intro c _ v v' x hv h hx
        exact seed_done s fuel c v v' x hv h hx
    have step : ∀ kids : List Ref, (cls r).kids = kids → ∀ v : Store G E,
        Group.doMethod (kids.map some) (seed ofSeed ofEntropy fuel · (.valid s)) w = (.ok (), v) →
        SeedInv cls s (fun y => y = r ∨ Below cls r y)
          ((mixinSeed ofSeed ofEntropy r (.valid s) : PyM (Store G E) Unit) v).2 := by
      intro kids hkr v hv
      obtain ⟨h1, h2⟩ := hkids kids w v hw hv
      obtain ⟨-, h3, h4⟩ := mixinSeed_valid (ofSeed := ofSeed) (ofEntropy := ofEntropy) r s v
      refine ⟨fun x => (h4 x).1.trans (h1 x), fun x hx hr => ?_⟩
      by_cases hxr : x = r
      · rw [hxr]; exact h3
      · rw [(h4 x).2 hxr]
        rcases hx with hx | hx
        · exact absurd hx hxr
        · cases hx with
          | kid hm => exact h2 x (hkr ▸ hm) x (.inl rfl) hr
          | step hm hb => exact h2 _ (hkr ▸ hm) x (.inr hb) hr
    have none : (cls r).kids = [] → y = r := by
      intro hk
      rcases hy with hy | hy
      · exact hy
      · cases hy with
        | kid hm => rw [hk] at hm; cases hm
        | step hm _ => rw [hk] at hm; cases hm
    cases hc : cls r with
    | plain =>
      rw [none (by rw [hc]; rfl), hc] at hr
      cases hr
    | own =>
      rw [hc] at h
      have hyr := none (by rw [hc]; rfl)
      obtain ⟨h1, h2, h3⟩ := mixinSeed_valid (ofSeed := ofSeed) (ofEntropy := ofEntropy) r s w
      dsimp only at h
      rw [PyM.bind_apply] at h
      generalize (mixinSeed ofSeed ofEntropy r (.valid s) : PyM (Store G E) Unit) w = p at *
      obtain ⟨e | u, w1⟩ := p
      · cases h1
      · dsimp only at h h2 h3
        have := keeps_last (cls := cls) r (w.obj r).lastSeed s (fun x => x = r) w1
          ⟨fun x => (h3 x).1.trans (hw x), fun x hx _ => by rw [hx]; exact h2⟩
        rw [h] at this
        exact this.2 y hyr hr
    | parent kids =>
      rw [hc] at h
      dsimp only at h
      rw [PyM.bind_apply] at h
      have hs := step kids (by rw [hc]; rfl)
      have hna := doMethod_noAttr kids (seed ofSeed ofEntropy fuel · (.valid s)) w
      generalize Group.doMethod (kids.map some) (seed ofSeed ofEntropy fuel · (.valid s)) w = p at *
      obtain ⟨e | u, v⟩ := p
      · cases h
        rcases hx with hx | hx
        · cases hx
        · exact absurd hx hna
      · have := hs v rfl
        dsimp only at h
        rw [h] at this
        exact this.2 y hy hr
    | twice kids =>
      rw [hc] at h
      dsimp only at h
      rw [PyM.bind_apply] at h
      have hs := step kids (by rw [hc]; rfl)
      have hna := doMethod_noAttr kids (seed ofSeed ofEntropy fuel · (.valid s)) w
      generalize Group.doMethod (kids.map some) (seed ofSeed ofEntropy fuel · (.valid s)) w = p at *
      obtain ⟨e | u, v⟩ := p
      · cases h
        rcases hx with hx | hx
        · cases hx
        · exact absurd hx hna
      · have hi := hs v rfl
        have h1 := (mixinSeed_valid (ofSeed := ofSeed) (ofEntropy := ofEntropy) r s v).1
        dsimp only at h
        rw [PyM.bind_apply] at h
        generalize (mixinSeed ofSeed ofEntropy r (.valid s) : PyM (Store G E) Unit) v = p at *
        obtain ⟨e | u, v1⟩ := p
        · cases h1
        · dsimp only at h
          have hk : Keeps (SeedInv cls s fun y => y = r ∨ Below cls r y) (Group.doMethod (kids.map some)
              (seed ofSeed ofEntropy fuel · (.valid s)) : PyM (Store G E) Unit) :=
            (Group.doMethod_rel fun c _ => (keeps_seed s _ fuel c).rel).keeps
          have := hk v1 hi
          rw [h] at this
          exact this.2 y hy hr

/-- **C92 (recovery).**  A valid seed repairs what seeds that were refused, or failed calls of
`reset`, have left: it works as if they had never been given, and afterwards every object in question
has the new `rng_seed`. -/
theorem C92_reseed (fuel : Nat) (r : Ref) (s : Option Int) (w v : Store G E) (h : Alike w v) :
    (seed ofSeed ofEntropy fuel r (.valid s) v).1 = (seed ofSeed ofEntropy fuel r (.valid s) w).1 ∧
      Alike (seed ofSeed ofEntropy fuel r (.valid s) w).2 (seed ofSeed ofEntropy fuel r (.valid s) v).2 ∧
      ((seed ofSeed ofEntropy fuel r (.valid s) w).1 = .ok () →
        ∀ y, y = r ∨ Below (fun x => (w.obj x).cls) r y → (w.obj y).cls.random = true →
          (seed ofSeed ofEntropy fuel r (.valid s) v).2.obj y =
            (seed ofSeed ofEntropy fuel r (.valid s) w).2.obj y) := by
  obtain ⟨h1, h2⟩ := rel_seed s fuel r w v h (ofSeed := ofSeed) (ofEntropy := ofEntropy)
  refine ⟨h1.symm, h2, fun hok y hy hr => ?_⟩
  have a1 := seed_done (cls := fun x => (w.obj x).cls) s fuel r w _ _ (fun _ => rfl)
    (Prod.ext rfl rfl : seed ofSeed ofEntropy fuel r (.valid s) w = (_, _)) (.inl hok) y hy hr
  have a2 := seed_done (cls := fun x => (w.obj x).cls) s fuel r v _ _
    (fun x => (h.2 x).cls.symm) (Prod.ext rfl rfl : seed ofSeed ofEntropy fuel r (.valid s) v = (_, _))
    (.inl (h1 ▸ hok)) y hy hr
  exact ((h2.2 y).eq (a1.trans a2.symm)).symm

/-! ### Resetting afterwards -/

/-- The store in which the parts have this seed. -/
def Store.seedAll (w : Store G E) (kids : List Ref) (s : Seed) : Store G E :=
  ⟨fun x => if x ∈ kids ∧ (w.obj x).cls.random = true then { w.obj x with seed := s } else w.obj x,
    w.entropy⟩

theorem seedKids_eq (s : Seed) : ∀ (kids : List Ref) (w : Store G E),
    seedKids kids s w = (.ok (), w.seedAll kids s)
  | [], w => by
    refine Prod.ext rfl ?_
    simp [Store.seedAll, seedKids, Group.setattr, PyM.forEach]
  | c :: kids, w => by
    have e : seedKids (c :: kids) s w = seedKids kids s
        (if (w.obj c).cls.random = true then w.upd c fun a => { a with seed := s } else w) := by
      unfold seedKids Group.setattr
      rw [List.map_cons, PyM.forEach, PyM.bind_apply]
      dsimp only
      rw [run_get_bind]
      by_cases h : (w.obj c).cls.random = true
      · rw [if_pos h, if_pos h]; rfl
      · rw [if_neg h, if_neg h]; rfl
    rw [e, seedKids_eq s kids]
    refine Prod.ext rfl ?_
    unfold Store.seedAll Store.upd
    by_cases h : (w.obj c).cls.random = true
    · simp only [h, if_true, Store.mk.injEq, and_true]
      funext x
      by_cases hx : x = c
      · subst hx
        by_cases hm : x ∈ kids <;> simp [h]
      · simp [hx]
    · rw [if_neg h]
      simp only [Store.mk.injEq, and_true]
      funext x
      by_cases hx : x = c
      · subst hx
        simp [h]
      · simp [hx]

theorem AlikeBut.refl (q : Ref) (w : Store G E) : AlikeBut q w w := ⟨.refl w, fun _ _ => rfl⟩

theorem AlikeBut.upd {q : Ref} {w w' : Store G E} (h : AlikeBut q w w') (r : Ref)
    {f f' : Obj G E → Obj G E} (hf : SameBut (f (w.obj r)) (f' (w'.obj r)))
    (hf' : r ≠ q → f (w.obj r) = f' (w'.obj r)) : AlikeBut q (w.upd r f) (w'.upd r f') := by
  refine ⟨h.1.upd r hf, fun x hx => ?_⟩
  simp only [Store.upd]
  by_cases hxr : x = r
  · rw [if_pos hxr, if_pos hxr]; exact hf' (hxr ▸ hx)
  · rw [if_neg hxr, if_neg hxr]; exact h.2 x hx

theorem relBut_newRng (q r : Ref) (s : Seed) : Rel (AlikeBut q)
    (newRng ofSeed ofEntropy r s : PyM (Store G E) Unit) (newRng ofSeed ofEntropy r s) := by
  intro w w' h
  have hs := h.1.2 r
  match s with
  | .refused => exact ⟨rfl, h⟩
  | .valid (some n) =>
    exact ⟨rfl, h.upd r ⟨hs.cls, rfl, hs.data, hs.lastReset, hs.lastSeed⟩ fun hr => by rw [h.2 r hr]⟩
  | .valid none =>
    have := h.upd r (f := fun a => { a with rng := ofEntropy w.entropy })
      (f' := fun a => { a with rng := ofEntropy w'.entropy }) ⟨hs.cls, congrArg ofEntropy h.1.1,
        hs.data, hs.lastReset, hs.lastSeed⟩ fun hr => by rw [h.2 r hr, h.1.1]
    exact ⟨rfl, ⟨congrArg (· + 1) h.1.1, this.1.2⟩, this.2⟩

theorem relBut_last (q r : Ref) (m : PyM (G × E) Unit) :
    Rel (AlikeBut q) (last r m) (last r m) := by
  intro w w' h
  have hs := h.1.2 r
  unfold last
  rw [hs.rng, hs.data]
  exact ⟨rfl, h.upd r ⟨hs.cls, rfl, rfl, hs.lastReset, hs.lastSeed⟩ fun hr => by rw [h.2 r hr]⟩

/-! #### Classes stay -/

theorem Store.Has.upd {w : Store G E} (h : w.Has cls) (r : Ref) {f : Obj G E → Obj G E}
    (hf : ∀ a, (f a).cls = a.cls) : (w.upd r f).Has cls := by
  intro x
  simp only [Store.upd]
  by_cases hx : x = r
  · rw [if_pos hx, hf, hx]; exact h r
  · rw [if_neg hx]; exact h x

theorem has_newRng (r : Ref) (s : Seed) : Keeps (fun w => w.Has cls)
    (newRng ofSeed ofEntropy r s : PyM (Store G E) Unit) := by
  intro w h
  match s with
  | .refused => exact h
  | .valid (some n) => exact h.upd r (f := fun a => { a with rng := ofSeed n }) fun _ => rfl
  | .valid none =>
    exact h.upd r (f := fun a => { a with rng := ofEntropy w.entropy }) fun _ => rfl

theorem has_last (r : Ref) (m : PyM (G × E) Unit) : Keeps (fun w => w.Has cls) (last r m) :=
  fun w h => h.upd r (f := fun a => { a with
    rng := (m ((w.obj r).rng, (w.obj r).data)).2.1, data := (m ((w.obj r).rng, (w.obj r).data)).2.2 })
    fun _ => rfl

theorem Store.Has.seedAll {w : Store G E} (h : w.Has cls) (kids : List Ref) (s : Seed) :
    (w.seedAll kids s).Has cls := by
  intro x
  rw [← h x]
  simp only [Store.seedAll]
  split <;> rfl

theorem has_seedKids (kids : List Ref) (s : Seed) : Keeps (fun w => w.Has cls)
    (seedKids kids s : PyM (Store G E) Unit) := by
  intro w h
  rw [seedKids_eq]
  exact h.seedAll kids s

theorem has_reset : ∀ (fuel : Nat) (r : Ref),
    Keeps (fun w => w.Has cls) (reset ofSeed ofEntropy fuel r : PyM (Store G E) Unit)
  | 0, _ => fun _ h => h
  | fuel + 1, r => by
    intro w h
    have hk : ∀ kids : List Ref, Keeps (fun w => w.Has cls) (Group.doMethod (kids.map some)
        (reset ofSeed ofEntropy fuel) : PyM (Store G E) Unit) := fun kids =>
      (Group.doMethod_rel fun c _ => (has_reset fuel c).rel).keeps
    have hm : ∀ (kids : List Ref) (s : Seed), Keeps (fun w => w.Has cls)
        (mixinReset ofSeed ofEntropy (reset ofSeed ofEntropy fuel) r kids s : PyM (Store G E) Unit) :=
      fun kids s => (has_seedKids kids s).bind fun _ => (has_newRng r s).bind fun _ => hk kids
    rw [reset, run_get_bind]
    cases (w.obj r).cls with
    | plain => exact has_last r _ w h
    | own => exact (has_newRng r _).bind (fun _ => has_last r _) w h
    | parent kids => exact (hm kids _).bind (fun _ => has_last r _) w h
    | twice kids =>
      refine (hm kids _).bind (fun _ => ?_) w h
      intro v hv
      rw [run_get_bind]
      exact (has_seedKids kids _).bind (fun _ => hk kids) v hv

/-- Giving the parts a seed: either `q` is one of them, and the stores do not differ any more, or they
go on differing in `q` alone. -/
theorem relBut_seedKids {q : Ref} (hq : (cls q).random = true) (kids : List Ref) (s : Seed)
    {k : PyM (Store G E) Unit} (hh : Keeps (fun w => w.Has cls) k)
    (hk : q ∉ kids → Rel (fun w w' => AlikeBut q w w' ∧ w.Has cls) k k) :
    Rel (fun w w' => AlikeBut q w w' ∧ w.Has cls) (seedKids kids s >>= fun _ => k)
      (seedKids kids s >>= fun _ => k) := by
  rintro w w' ⟨h, hw⟩
  rw [PyM.bind_apply, PyM.bind_apply, seedKids_eq, seedKids_eq]
  dsimp only
  by_cases hm : q ∈ kids
  · have e : w.seedAll kids s = w'.seedAll kids s := by
      unfold Store.seedAll
      rw [Store.mk.injEq]
      refine ⟨?_, h.1.1⟩
      funext x
      by_cases hx : x = q
      · have hc : (w.obj x).cls.random = true := by rw [hw x, hx]; exact hq
        have hc' : (w'.obj x).cls.random = true := by rw [← (h.1.2 x).cls]; exact hc
        rw [if_pos ⟨hx ▸ hm, hc⟩, if_pos ⟨hx ▸ hm, hc'⟩]
        have hs := h.1.2 x
        exact SameBut.eq ⟨hs.cls, hs.rng, hs.data, hs.lastReset, hs.lastSeed⟩ rfl
      · rw [h.2 x hx]
    rw [← e]
    exact ⟨rfl, .refl _ _, hh _ (hw.seedAll kids s)⟩
  · refine hk hm _ _ ⟨⟨⟨h.1.1, fun x => ?_⟩, fun x hx => ?_⟩, hw.seedAll kids s⟩
    · have hs := h.1.2 x
      simp only [Store.seedAll, ← hs.cls]
      split
      · exact ⟨rfl, hs.rng, hs.data, hs.lastReset, hs.lastSeed⟩
      · exact hs
    · simp only [Store.seedAll, h.2 x hx]

theorem Rel.withHas {q : Ref} {m : PyM (Store G E) Unit} (h : Rel (AlikeBut q) m m)
    (hh : Keeps (fun w => w.Has cls) m) : Rel (fun w w' => AlikeBut q w w' ∧ w.Has cls) m m :=
  fun w w' hw => ⟨(h w w' hw.1).1, (h w w' hw.1).2, hh w hw.2⟩

theorem relBut_reset {q : Ref} (hq : (cls q).random = true) : ∀ (fuel : Nat) (r : Ref), r ≠ q →
    Rel (fun w w' => AlikeBut q w w' ∧ w.Has cls) (reset ofSeed ofEntropy fuel r :
      PyM (Store G E) Unit) (reset ofSeed ofEntropy fuel r)
  | 0, _, _ => Rel.raise _ _
  | fuel + 1, r, hr => by
    rintro w w' ⟨h, hw⟩
    have hhk : ∀ kids : List Ref, Keeps (fun w => w.Has cls) (Group.doMethod (kids.map some)
        (reset ofSeed ofEntropy fuel) : PyM (Store G E) Unit) := fun kids =>
      (Group.doMethod_rel fun c _ => (has_reset fuel c).rel).keeps
    have hk : ∀ kids : List Ref, q ∉ kids → Rel (fun w w' => AlikeBut q w w' ∧ w.Has cls)
        (Group.doMethod (kids.map some) (reset ofSeed ofEntropy fuel) : PyM (Store G E) Unit)
        (Group.doMethod (kids.map some) (reset ofSeed ofEntropy fuel)) := fun kids hm =>
      Group.doMethod_rel fun c hc => relBut_reset hq fuel c (by rintro rfl; exact hm hc)
    have hm : ∀ (kids : List Ref) (s : Seed), Rel (fun w w' => AlikeBut q w w' ∧ w.Has cls)
        (mixinReset ofSeed ofEntropy (reset ofSeed ofEntropy fuel) r kids s : PyM (Store G E) Unit)
        (mixinReset ofSeed ofEntropy (reset ofSeed ofEntropy fuel) r kids s) := fun kids s =>
      relBut_seedKids hq kids s ((has_newRng r s).bind fun _ => hhk kids) fun hm =>
        (Rel.withHas (relBut_newRng q r s) (has_newRng r s)).bind fun _ => hk kids hm
    rw [reset, run_get_bind, run_get_bind, h.2 r hr]
    cases (w'.obj r).cls with
    | plain => exact Rel.withHas (relBut_last q r _) (has_last r _) w w' ⟨h, hw⟩
    | own =>
      exact ((Rel.withHas (relBut_newRng q r _) (has_newRng r _)).bind fun _ =>
        Rel.withHas (relBut_last q r _) (has_last r _)) w w' ⟨h, hw⟩
    | parent kids =>
      exact ((hm kids _).bind fun _ => Rel.withHas (relBut_last q r _) (has_last r _)) w w' ⟨h, hw⟩
    | twice kids =>
      refine ((hm kids _).bind fun _ => ?_) w w' ⟨h, hw⟩
      intro v v' hv
      rw [run_get_bind, run_get_bind, hv.1.2 r hr]
      exact relBut_seedKids hq kids _ (hhk kids) (hk kids) v v' hv

/-! #### What a reset that succeeds has done -/

/-- The classes, the last steps of `reset`, and the objects in `X` have this seed. -/
def RInv (cls : Ref → Cls) (L : Ref → PyM (G × E) Unit) (s : Seed) (X : Ref → Prop) (w : Store G E) :
    Prop :=
  w.Has cls ∧ (∀ x, (w.obj x).lastReset = L x) ∧ ∀ x, X x → (cls x).random = true →
    (w.obj x).seed = s

variable {L : Ref → PyM (G × E) Unit} {s : Seed}

theorem RInv.weaken {X Y : Ref → Prop} {w : Store G E} (h : RInv cls L s X w) (hy : ∀ x, Y x → X x) :
    RInv cls L s Y w := ⟨h.1, h.2.1, fun x hx => h.2.2 x (hy x hx)⟩

theorem RInv.upd {X : Ref → Prop} {w : Store G E} (h : RInv cls L s X w) (r : Ref)
    {f : Obj G E → Obj G E} (h1 : ∀ a, (f a).cls = a.cls) (h2 : ∀ a, (f a).lastReset = a.lastReset)
    (h3 : ∀ a, (f a).seed = a.seed) : RInv cls L s X (w.upd r f) := by
  refine ⟨h.1.upd r h1, fun x => ?_, fun x hx hr => ?_⟩
  · simp only [Store.upd]
    by_cases hxr : x = r
    · rw [if_pos hxr, h2, hxr]; exact h.2.1 r
    · rw [if_neg hxr]; exact h.2.1 x
  · simp only [Store.upd]
    by_cases hxr : x = r
    · rw [if_pos hxr, h3]; exact hxr ▸ h.2.2 x hx hr
    · rw [if_neg hxr]; exact h.2.2 x hx hr

theorem rinv_newRng (X : Ref → Prop) (r : Ref) (t : Seed) : Keeps (RInv cls L s X)
    (newRng ofSeed ofEntropy r t : PyM (Store G E) Unit) := by
  intro w h
  match t with
  | .refused => exact h
  | .valid (some n) =>
    exact h.upd r (f := fun a => { a with rng := ofSeed n }) (fun _ => rfl) (fun _ => rfl) fun _ => rfl
  | .valid none =>
    exact h.upd r (f := fun a => { a with rng := ofEntropy w.entropy }) (fun _ => rfl) (fun _ => rfl)
      fun _ => rfl

theorem rinv_last (X : Ref → Prop) (r : Ref) (m : PyM (G × E) Unit) :
    Keeps (RInv cls L s X) (last r m) :=
  fun w h => h.upd r (f := fun a => { a with
    rng := (m ((w.obj r).rng, (w.obj r).data)).2.1, data := (m ((w.obj r).rng, (w.obj r).data)).2.2 })
    (fun _ => rfl) (fun _ => rfl) fun _ => rfl

theorem RInv.seedAll {X : Ref → Prop} {w : Store G E} (h : RInv cls L s X w) (kids : List Ref) :
    RInv cls L s (fun x => X x ∨ x ∈ kids) (w.seedAll kids s) := by
  refine ⟨h.1.seedAll kids s, fun x => ?_, fun x hx hr => ?_⟩
  · rw [← h.2.1 x]
    simp only [Store.seedAll]
    split <;> rfl
  · simp only [Store.seedAll]
    split
    · rfl
    · rename_i hn
      rcases hx with hx | hx
      · exact h.2.2 x hx hr
      · exact absurd ⟨hx, by rw [h.1 x]; exact hr⟩ hn

theorem rinv_reset : ∀ (fuel : Nat) (r : Ref) (X : Ref → Prop), X r →
    Keeps (RInv cls L s X) (reset ofSeed ofEntropy fuel r : PyM (Store G E) Unit)
  | 0, _, _, _ => fun _ h => h
  | fuel + 1, r, X, hX => by
    intro w h
    have hk : ∀ (kids : List Ref) (v : Store G E), RInv cls L s X v →
        RInv cls L s (fun x => X x ∨ x ∈ kids) (Group.doMethod (kids.map some)
          (reset ofSeed ofEntropy fuel) (v.seedAll kids s)).2 := fun kids v hv =>
      (Group.doMethod_rel fun c hc => (rinv_reset fuel c (fun x => X x ∨ x ∈ kids) (.inr hc)).rel).keeps
        _ (hv.seedAll kids)
    have hm : ∀ kids : List Ref, Keeps (RInv cls L s X)
        (mixinReset ofSeed ofEntropy (reset ofSeed ofEntropy fuel) r kids s : PyM (Store G E) Unit) := by
      intro kids v hv
      unfold mixinReset
      rw [PyM.bind_apply, seedKids_eq]
      refine ((rinv_newRng (fun x => X x ∨ x ∈ kids) r s).bind (fun _ =>
        (Group.doMethod_rel fun c hc => (rinv_reset fuel c _ (.inr hc)).rel).keeps) _
        (hv.seedAll kids)).weaken fun _ h => .inl h
    rw [reset, run_get_bind]
    have hs : (cls r).random = true → (w.obj r).seed = s := h.2.2 r hX
    rw [h.1 r]
    cases hc : cls r with
    | plain => exact rinv_last X r _ w h
    | own => exact (rinv_newRng X r _).bind (fun _ => rinv_last X r _) w h
    | parent kids =>
      rw [hs (by rw [hc]; rfl)]
      exact (hm kids).bind (fun _ => rinv_last X r _) w h
    | twice kids =>
      rw [hs (by rw [hc]; rfl)]
      refine (hm kids).bind (fun _ => ?_) w h
      intro v hv
      rw [run_get_bind, hv.2.2 r hX (by rw [hc]; rfl), PyM.bind_apply, seedKids_eq]
      exact (hk kids v hv).weaken fun _ h => .inl h

theorem newRng_noAttr (r : Ref) (t : Seed) (w : Store G E) :
    ((newRng ofSeed ofEntropy r t : PyM (Store G E) Unit) w).1 ≠ .error .attributeError := by
  match t with
  | .refused => simp [newRng, PyM.raise]
  | .valid (some n) => simp [newRng, PyM.modify]
  | .valid none => simp [newRng, PyM.modify]

theorem bind_noAttr {m : PyM (Store G E) Unit} {k : Unit → PyM (Store G E) Unit}
    (h : ∀ w, (m w).1 ≠ .error .attributeError) (hk : ∀ w, (k () w).1 ≠ .error .attributeError)
    (w : Store G E) : ((m >>= k) w).1 ≠ .error .attributeError := by
  rw [PyM.bind_apply]
  have h1 := h w
  generalize m w = p at *
  obtain ⟨e | u, v⟩ := p
  · exact h1
  · exact hk v

theorem reset_noAttr (fuel : Nat) (r : Ref) (w : Store G E)
    (hL : ∀ p, ((w.obj r).lastReset p).1 ≠ .error .attributeError) :
    (reset ofSeed ofEntropy fuel r w).1 ≠ .error .attributeError := by
  cases fuel with
  | zero => simp [reset, PyM.raise]
  | succ fuel =>
    have hl : ∀ v : Store G E, (last r (w.obj r).lastReset v).1 ≠ .error .attributeError :=
      fun v => hL _
    have hsk : ∀ (kids : List Ref) (t : Seed) (v : Store G E),
        (seedKids kids t v).1 ≠ .error .attributeError := fun kids t v => by simp [seedKids_eq]
    have hm : ∀ (kids : List Ref) (t : Seed) (v : Store G E), (mixinReset ofSeed ofEntropy
        (reset ofSeed ofEntropy fuel) r kids t v).1 ≠ .error .attributeError := fun kids t =>
      bind_noAttr (hsk kids t) (bind_noAttr (newRng_noAttr r t) (doMethod_noAttr kids _))
    rw [reset, run_get_bind]
    cases (w.obj r).cls with
    | plain => exact hl w
    | own => exact bind_noAttr (newRng_noAttr r _) hl w
    | parent kids => exact bind_noAttr (hm kids _) hl w
    | twice kids =>
      refine bind_noAttr (hm kids _) (fun v => ?_) w
      rw [run_get_bind]
      exact bind_noAttr (hsk kids _) (doMethod_noAttr kids _) v

theorem reset_done (hL : ∀ x p, (L x p).1 ≠ .error .attributeError) : ∀ (fuel : Nat) (r : Ref)
    (w w' : Store G E), RInv cls L s (fun x => x = r) w →
    reset ofSeed ofEntropy fuel r w = (.ok (), w') →
    ∀ y, Below cls r y → (cls y).random = true → (w'.obj y).seed = s
  | 0, _, w, w', _, h => by cases h
  | fuel + 1, r, w, w', hw, h => by
    intro y hy hr
    have hkids : ∀ (kids : List Ref) (v v' : Store G E), RInv cls L s (fun x => x = r ∨ x ∈ kids) v →
        Group.doMethod (kids.map some) (reset ofSeed ofEntropy fuel) v = (.ok (), v') →
        ∀ c ∈ kids, ∀ y, y = c ∨ Below cls c y → (cls y).random = true → (v'.obj y).seed = s := by
      intro kids v v' hv h
      refine (World.doMethod_all (I := RInv cls L s fun x => x = r ∨ x ∈ kids)
        (Q := fun c v => ∀ y, y = c ∨ Below cls c y → (cls y).random = true → (v.obj y).seed = s)
        kids ?_ ?_ ?_ v v' hv h).2
      · intro c hc
        exact rinv_reset fuel c _ (.inr hc)
      · rintro c _ d hd v ⟨hv, hq⟩
        have := rinv_reset fuel d (fun x => (x = r ∨ x ∈ kids) ∨ (x = c ∨ Below cls c x)) (.inl (.inr hd))
          v ⟨hv.1, hv.2.1, fun x hx hr => hx.elim (fun hx => hv.2.2 x hx hr) fun hx => hq x hx hr⟩
          (ofSeed := ofSeed) (ofEntropy := ofEntropy)
        exact ⟨this.weaken fun _ h => .inl h, (this.weaken fun _ h => .inr h).2.2⟩
      · intro c hc v v' x hv h hx y hy hr
        have hok : x = .ok () := by
          rcases hx with hx | hx
          · exact hx
          · have := reset_noAttr (ofSeed := ofSeed) (ofEntropy := ofEntropy) fuel c v
              (by rw [hv.2.1 c]; exact hL c)
            rw [h] at this
            exact absurd hx this
        subst hok
        have hvc : RInv cls L s (fun x => x = c) v := hv.weaken fun x hx => .inr (hx ▸ hc)
        rcases hy with rfl | hy
        · have := rinv_reset fuel y (fun x => x = y) rfl v hvc (ofSeed := ofSeed) (ofEntropy := ofEntropy)
          rw [h] at this
          exact this.2.2 y rfl hr
        · exact reset_done hL fuel c v v' hvc h y hy hr
    have hs : (cls r).random = true → (w.obj r).seed = s := hw.2.2 r rfl
    have hmix : ∀ (kids : List Ref) (v : Store G E), (cls r).kids = kids →
        mixinReset ofSeed ofEntropy (reset ofSeed ofEntropy fuel) r kids s w = (.ok (), v) →
        RInv cls L s (fun y => y = r ∨ Below cls r y) v := by
      intro kids v hkr h
      have hinv := (rinv_newRng (cls := cls) (L := L) (s := s) (fun x => x = r ∨ x ∈ kids) r s
        (ofSeed := ofSeed) (ofEntropy := ofEntropy)) _ (hw.seedAll kids)
      unfold mixinReset at h
      rw [PyM.bind_apply, seedKids_eq] at h
      dsimp only at h
      rw [PyM.bind_apply] at h
      generalize (newRng ofSeed ofEntropy r s : PyM (Store G E) Unit) (w.seedAll kids s) = p at *
      obtain ⟨e | u, v1⟩ := p
      · cases h
      · dsimp only at h hinv
        have h1 := hkids kids v1 v hinv h
        have h2 : RInv cls L s (fun x => x = r ∨ x ∈ kids) (Group.doMethod (kids.map some)
            (reset ofSeed ofEntropy fuel) v1).2 :=
          (Group.doMethod_rel fun c hc => (rinv_reset fuel c _ (.inr hc)).rel).keeps v1 hinv
        rw [h] at h2
        refine ⟨h2.1, h2.2.1, fun x hx hr => ?_⟩
        rcases hx with hx | hx
        · exact h2.2.2 x (.inl hx) hr
        · cases hx with
          | kid hm => exact h1 x (hkr ▸ hm) x (.inl rfl) hr
          | step hm hb => exact h1 _ (hkr ▸ hm) x (.inr hb) hr
    have none : (cls r).kids ≠ [] := by
      intro hk
      cases hy with
      | kid hm => rw [hk] at hm; cases hm
      | step hm _ => rw [hk] at hm; cases hm
    rw [reset, run_get_bind, hw.1 r] at h
    cases hc : cls r with
    | plain => rw [hc] at none; exact absurd rfl none
    | own => rw [hc] at none; exact absurd rfl none
    | parent kids =>
      rw [hc] at h
      dsimp only at h
      rw [hs (by rw [hc]; rfl), PyM.bind_apply] at h
      have hm := hmix kids
      generalize mixinReset ofSeed ofEntropy (reset ofSeed ofEntropy fuel) r kids s w = p at *
      obtain ⟨e | u, v⟩ := p
      · cases h
      · dsimp only at h
        have := rinv_last (fun y => y = r ∨ Below cls r y) r (w.obj r).lastReset v
          (hm v (by rw [hc]; rfl) rfl)
        rw [h] at this
        exact this.2.2 y (.inr hy) hr
    | twice kids =>
      rw [hc] at h
      dsimp only at h
      rw [hs (by rw [hc]; rfl), PyM.bind_apply] at h
      have hm := hmix kids
      generalize mixinReset ofSeed ofEntropy (reset ofSeed ofEntropy fuel) r kids s w = p at *
      obtain ⟨e | u, v⟩ := p
      · cases h
      · have hv := hm v (by rw [hc]; rfl) rfl
        dsimp only at h
        rw [run_get_bind, hv.2.2 r (.inl rfl) (by rw [hc]; rfl), PyM.bind_apply, seedKids_eq] at h
        dsimp only at h
        have : RInv cls L s (fun x => (x = r ∨ Below cls r x) ∨ x ∈ kids) (Group.doMethod (kids.map some)
            (reset ofSeed ofEntropy fuel) (v.seedAll kids s)).2 :=
          (Group.doMethod_rel fun c hc => (rinv_reset fuel c _ (.inr hc)).rel).keeps _ (hv.seedAll kids)
        rw [h] at this
        exact this.2.2 y (.inl (.inr hy)) hr

theorem Below.fits {r y : Ref} (h : Below cls r y) {n : Nat} (hr : Fits cls n r) :
    ∃ m, m < n ∧ Fits cls m y := by
  induction h generalizing n with
  | kid hm =>
    cases hr with | intro hk => exact ⟨_, Nat.lt_succ_self _, hk _ hm⟩
  | step hm _ ih =>
    cases hr with | intro hk =>
    obtain ⟨m, h1, h2⟩ := ih (hk _ hm)
    exact ⟨m, by omega, h2⟩

/-- Nothing is a part of itself. -/
theorem not_below_self {n : Nat} {r : Ref} (hr : Fits cls n r) : ¬ Below cls r r := by
  induction n using Nat.strong_induction_on with
  | _ n ih =>
    intro h
    obtain ⟨m, h1, h2⟩ := h.fits hr
    exact ih m h1 h2 h

theorem First.random {r q : Ref} (h : First cls r q) : (cls q).random = true := by
  induction h with
  | here hr _ => exact hr
  | down _ _ _ _ ih => exact ih

/-- **C92 (resetting afterwards).**  If the object has parts with generators, a seed that was refused
leaves no trace after `reset`: it raises the same exceptions or none, and if it succeeds everything is
as if that seed had never been given. -/
theorem C92_reset_partial {n fuel fuel' : Nat} {r q : Ref} (w : Store G E) (hw : w.Has cls)
    (hr : Fits cls n r) (hf : n ≤ fuel) (hq : First cls r q) (hb : Below cls r q) :
    let v := (seed ofSeed ofEntropy fuel r .refused w).2
    (reset ofSeed ofEntropy fuel' r v).1 = (reset ofSeed ofEntropy fuel' r w).1 ∧
      Alike (reset ofSeed ofEntropy fuel' r w).2 (reset ofSeed ofEntropy fuel' r v).2 ∧
      ((∀ x p, ((w.obj x).lastReset p).1 ≠ .error .attributeError) →
        (reset ofSeed ofEntropy fuel' r w).1 = .ok () →
        reset ofSeed ofEntropy fuel' r v = reset ofSeed ofEntropy fuel' r w) := by
  intro v
  have hv : v = w.spoilt q := congrArg Prod.snd (C92_refused w hw hr hf hq)
  have hne : r ≠ q := by rintro rfl; exact not_below_self hr hb
  have ha := alike_spoilt w q
  obtain ⟨h1, h2, -⟩ := relBut_reset hq.random fuel' r hne w v ⟨hv ▸ ha, hw⟩ (ofSeed := ofSeed)
    (ofEntropy := ofEntropy)
  refine ⟨h1.symm, h2.1, fun hL hok => ?_⟩
  refine Prod.ext h1.symm ?_
  have key : ∀ u : Store G E, AlikeBut q w u → (reset ofSeed ofEntropy fuel' r u).1 = .ok () →
      ((reset ofSeed ofEntropy fuel' r u).2.obj q).seed = (w.obj r).seed := by
    intro u hu hok
    refine reset_done (cls := cls) (L := fun x => (w.obj x).lastReset) hL fuel' r u _
      ⟨hw.alike hu.1, fun x => (hu.1.2 x).lastReset.symm, fun x hx _ => ?_⟩ (Prod.ext hok rfl) q hb
      hq.random
    rw [hx, hu.2 r hne]
  have e1 := key w (.refl q w) hok
  have e2 := key v (hv ▸ ha) (h1 ▸ hok)
  have hobj : (reset ofSeed ofEntropy fuel' r v).2.obj = (reset ofSeed ofEntropy fuel' r w).2.obj := by
    funext x
    by_cases hx : x = q
    · rw [hx]; exact ((h2.1.2 q).eq (e1.trans e2.symm)).symm
    · exact (h2.2 x hx).symm
  have hent := h2.1.1
  generalize (reset ofSeed ofEntropy fuel' r v).2 = a at *
  generalize (reset ofSeed ofEntropy fuel' r w).2 = b at *
  cases a; cases b
  cases hobj; cases hent
  rfl

/-- **C92 (resetting with such a seed).**  `reset` of an object whose `rng_seed` is refused raises
`TypeError`; it has changed nothing but `rng_seed` of the parts. -/
theorem C92_reset_fails (fuel : Nat) (r : Ref) (w : Store G E) (hr : (w.obj r).cls.random = true)
    (hs : (w.obj r).seed = .refused) :
    (reset ofSeed ofEntropy (fuel + 1) r w).1 = .error .typeError ∧
      Alike w (reset ofSeed ofEntropy (fuel + 1) r w).2 ∧
      ∀ x, x ∉ (w.obj r).cls.kids → (reset ofSeed ofEntropy (fuel + 1) r w).2.obj x = w.obj x := by
  have e : reset ofSeed ofEntropy (fuel + 1) r w =
      (.error .typeError, w.seedAll (w.obj r).cls.kids .refused) := by
    rw [reset, run_get_bind]
    have hnil : w.seedAll [] .refused = w := by simp [Store.seedAll]
    cases hc : (w.obj r).cls with
    | plain => rw [hc] at hr; cases hr
    | own =>
      dsimp only
      rw [hs, PyM.bind_apply]
      show (Except.error Err.typeError, w) = (_, w.seedAll [] .refused)
      rw [hnil]
    | parent kids =>
      dsimp only
      rw [hs, PyM.bind_apply]
      unfold mixinReset
      rw [PyM.bind_apply, seedKids_eq]
      rfl
    | twice kids =>
      dsimp only
      rw [hs, PyM.bind_apply]
      unfold mixinReset
      rw [PyM.bind_apply, seedKids_eq]
      rfl
  rw [e]
  refine ⟨rfl, ⟨rfl, fun x => ?_⟩, fun x hx => ?_⟩
  · simp only [Store.seedAll]
    split
    · exact ⟨rfl, rfl, rfl, rfl, rfl⟩
    · exact .refl _
  · simp only [Store.seedAll]
    rw [if_neg fun h => hx h.1]

/-! ### Examples -/

/-- `Choice` (0), `Static` (1), `WrapOne` of the choice (2), a field with the static value (3), a field
with the wrapped choice (4).  All were given the seed 7; the generators are counters, and the choice has
drawn three times. -/
def someStore : Store Nat Nat where
  obj x := {
    cls := match x with
      | 0 => .own
      | 2 => .parent [0]
      | 3 => .parent [1, 1, 1]
      | 4 => .parent [2, 1, 1]
      | _ => .plain
    seed := .valid (some 7)
    rng := if x = 0 then 10 else 7
    data := 0
    lastReset := pure ()
    lastSeed := pure () }
  entropy := 0

/-- `Schema.seed_fields` and `Schema.reset_fields`, profile.py 288-300, for the two fields. -/
def seedFields (s : Seed) : PyM (Store Nat Nat) Unit :=
  Group.doMethod ([3, 4].map some) (seed Int.toNat id 9 · s)
@[inherit_doc seedFields]
def resetFields : PyM (Store Nat Nat) Unit := Group.doMethod ([3, 4].map some) (reset Int.toNat id 9)

/-- **C92 (finding).**  `Choice(...).seed([1])` raises `TypeError` but stores the seed: `reset`, which
would have worked before, raises `TypeError` from then on. -/
theorem C92_reset_violated :
    let v := (seed Int.toNat id 1 0 .refused someStore).2
    (seed Int.toNat id 1 0 .refused someStore).1 = .error .typeError ∧
    (reset Int.toNat id 1 0 someStore).1 = .ok () ∧ (reset Int.toNat id 1 0 v).1 = .error .typeError ∧
    (reset Int.toNat id 1 0 (reset Int.toNat id 1 0 v).2).1 = .error .typeError := by
  decide +kernel

/-- **C92 (finding).**  The same for a schema whose first field draws nothing: after
`seed_fields([1])` no field can be reset. -/
theorem C92_schema_violated :
    let v := (seedFields .refused someStore).2
    (seedFields .refused someStore).1 = .error .typeError ∧
    (resetFields someStore).1 = .ok () ∧ ((resetFields someStore).2.obj 0).rng = 7 ∧
    (resetFields v).1 = .error .typeError ∧ ((resetFields v).2.obj 0).rng = 10 := by
  decide +kernel

/-- The classes of the example. -/
def someCls : Ref → Cls := fun x => (someStore.obj x).cls

theorem some_fits : Fits someCls 3 4 := by
  refine .intro fun c hc => ?_
  have : c = 2 ∨ c = 1 := by simpa [someCls, someStore, Cls.kids] using hc
  rcases this with rfl | rfl
  · refine .intro fun c hc => ?_
    have : c = 0 := by simpa [someCls, someStore, Cls.kids] using hc
    subst this
    exact .intro fun c hc => by simp [someCls, someStore, Cls.kids] at hc
  · exact .intro fun c hc => by simp [someCls, someStore, Cls.kids] at hc

theorem some_first : First someCls 4 0 :=
  .down (pre := []) (c := 2) (post := [1, 1]) rfl (by simp) rfl <|
    .down (pre := []) (c := 0) (post := []) rfl (by simp) rfl <|
      .here rfl (by simp [someCls, someStore, Cls.kids])

/-- In the field with the wrapped choice, it is the choice that keeps the seed ... -/
example : seed Int.toNat id 3 4 .refused someStore = (.error .typeError, someStore.spoilt 0) :=
  C92_refused someStore (fun _ => rfl) some_fits le_rfl some_first
/-- ... `reset` of the field overwrites it ... -/
example : reset Int.toNat id 3 4 (seed Int.toNat id 3 4 .refused someStore).2 =
    reset Int.toNat id 3 4 someStore :=
  (C92_reset_partial someStore (fun _ => rfl) some_fits le_rfl some_first
    (.step (c := 2) (by decide) (.kid (by decide)))).2.2 (fun _ _ => by simp [someStore, Pure.pure, PyM.pure])
    (by decide +kernel)
/-- ... and so does another seed. -/
example : (seed Int.toNat id 3 4 (.valid (some 8)) (someStore.spoilt 0)).1 = .ok () ∧
    ((seed Int.toNat id 3 4 (.valid (some 8)) (someStore.spoilt 0)).2.obj 0).seed = .valid (some 8) ∧
    ((seed Int.toNat id 3 4 (.valid (some 8)) (someStore.spoilt 0)).2.obj 0).rng = 8 := by
  decide +kernel

end Fauxdoc.Refused
