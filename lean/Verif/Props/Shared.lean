import Verif.Spec.Shared
import Verif.Props.DocSet
/-
C110: fields that share an emitter share out its values.
-/
set_option linter.unusedSectionVars false
namespace Fauxdoc
variable {K : Type} [Field K] [LinearOrder K] [IsStrictOrderedRing K] [FloorRing K]
  {R : Rng K}
open World

theorem draws_iff {w : World R} {e f : Ref} :
    w.draws e f = true ↔ ∃ n rp g hd, (w.obj f).node = some (.field n e rp g hd) := by
  unfold World.draws
  split
  · rename_i n e' rp g hd h
    rw [decide_eq_true_iff]
    constructor
    · rintro rfl; exact ⟨n, rp, g, hd, h⟩
    · rintro ⟨n', rp', g', hd', h'⟩
      rw [h] at h'
      cases h'
      rfl
  · rename_i h
    constructor
    · intro h'; cases h'
    · rintro ⟨n, rp, g, hd, h'⟩
      exact absurd h' (h n e rp g hd)

theorem draws_congr {w v : World R} (hn : ∀ x, (v.obj x).node = (w.obj x).node) (e : Ref) :
    v.draws e = w.draws e := by
  funext f
  unfold World.draws
  rw [hn]

theorem Sharers.congr {w v : World R} {fields : Dict Ref} {e : Ref} (h : Sharers w fields e)
    (hn : ∀ x, (v.obj x).node = (w.obj x).node) : Sharers v fields e := by
  refine ⟨h.refs, fun kf hkf => ?_⟩
  rcases h.each kf hkf with ⟨n, rp, g, hd, h1, h2, h3⟩ | h1
  · exact .inl ⟨n, rp, g, hd, (hn _).trans h1, fun h => h2 ((Below.congr hn).1 h),
      fun h => h3 ((Below.congr hn).1 h)⟩
  · exact .inr fun h => h1 ((Below.congr hn).1 h)

theorem below_leaf {w : World R} {e x : Ref} (he : (w.obj e).children = []) (h : Below w e x) : x = e := by
  cases h with
  | self => rfl
  | step hc _ => rw [he] at hc; cases hc

theorem loop_shared {V : Ref → Val → Prop} {str : Val → List Char} {e : Ref}
    {I : Attrs R → List Val → Prop} (hI : Streams str e I) (fuel : Nat) (hide : Ref → Bool)
    (fs : Dict Ref) :
    ∀ (doc : Dict Val) (w : World R) (_ : (w.obj e).children = []) (_ : Sharers w fs e)
      (_ : TypedOn V (fun _ => True) w) (_ : fs.keys.Nodup) (E : List Val) (_ : I (w.obj e) E),
      let p := Schema.loop hide (fun r => World.call str fuel r none) doc fs w
      ∃ bs, I (p.2.obj e) (E ++ bs.flatten) ∧
        ShowsEach (fs.filter fun kf => w.draws e kf.2) hide (p.1, p.2.lastValues) bs := by
  induction fs with
  | nil => intro doc w _ _ _ _ E hE; exact ⟨[], by rw [List.flatten_nil, List.append_nil]; exact hE, fun doc _ => .nil⟩
  | cons kf fs ih =>
    obtain ⟨k, f⟩ := kf
    intro doc w hleaf hsh ht hk E hE
    have hk1 : k ∉ Dict.keys fs := by
      unfold Dict.keys at hk ⊢
      exact (List.nodup_cons.1 hk).1
    have hk2 : (Dict.keys fs).Nodup := by
      unfold Dict.keys at hk ⊢
      exact (List.nodup_cons.1 hk).2
    have hf1 : f ∉ fs.map Prod.snd := (List.nodup_cons.1 hsh.refs).1
    have hsh' : Sharers w fs e :=
      ⟨(List.nodup_cons.1 hsh.refs).2, fun kf h => hsh.each kf (List.mem_cons_of_mem _ h)⟩
    dsimp only
    unfold Schema.loop
    rw [PyM.bind_apply]
    have hnode := fun y => call_node (arg := none) (str := str) (r := f) fuel y w
    have htyped := (call_typed str fuel f trivial none trivial w ht).1
    rcases hsh.each (k, f) List.mem_cons_self with ⟨n, rp, g, hd, hn, hrp, hg⟩ | hnot
    · dsimp only at hn
      have hdr : w.draws e f = true := draws_iff.2 ⟨n, rp, g, hd, hn⟩
      rw [List.filter_cons_of_pos (by simpa using hdr)]
      have hef : e ≠ f := by
        rintro rfl
        unfold Attrs.children at hleaf
        rw [hn] at hleaf
        simp [Node.childRefs] at hleaf
      have hbf : Below w f e :=
        .step (by unfold Attrs.children; rw [hn]; simp [Node.childRefs]) (.self e)
      obtain ⟨b, h1, h2⟩ := field_streams hI hef hn hrp hg ht fuel hE
      have hc := fun v w' => call_field_cache str fuel f w w' v hn
      revert h1 h2 hnode hc htyped
      rcases World.call str fuel f none w with ⟨x | v, w1⟩
      · intro hnode htyped h1 h2 hc
        exact ⟨[b], by simpa using h1, fun doc h => by cases h⟩
      · intro hnode htyped h1 h2 hc
        dsimp only at h1 h2 hnode htyped ⊢
        have hapart : ∀ kg ∈ fs, ¬ Below w1 kg.2 f := by
          intro kg hm hb
          rw [Below.congr hnode] at hb
          rcases hsh'.each kg hm with ⟨n', rp', g', hd', hn', hrp', hg'⟩ | hnot'
          · cases hb with
            | self => exact hf1 (List.mem_map_of_mem hm)
            | step hcc hb =>
              unfold Attrs.children at hcc
              rw [hn'] at hcc
              simp only [Node.childRefs, List.mem_cons, List.not_mem_nil, or_false] at hcc
              rcases hcc with rfl | rfl | rfl
              · exact hef (below_leaf hleaf hb).symm
              · exact hrp' (hb.trans hbf)
              · exact hg' (hb.trans hbf)
          · exact hnot' (hb.trans hbf)
        have hcv : (w1.obj f).cache = v := hc v w1 rfl
        have hleaf1 : (w1.obj e).children = [] := by
          unfold Attrs.children at hleaf ⊢
          rw [hnode]; exact hleaf
        have hih := fun doc => ih doc w1 hleaf1 (hsh'.congr hnode) htyped hk2 _ h1
        simp only [draws_congr hnode] at hih
        split
        · rename_i hh
          obtain ⟨bs, h3, h4⟩ := hih doc
          refine ⟨b :: bs, by rw [List.flatten_cons, ← List.append_assoc]; exact h3, fun doc' h => ?_⟩
          refine .cons ⟨?_, fun hf => ?_⟩ (h4 doc' h)
          · dsimp only
            unfold World.lastValues
            rw [loop_apart fuel hide fs doc w1 f hapart, hcv]
            exact h2 v rfl
          · dsimp only at hf; rw [hh] at hf; cases hf
        · obtain ⟨bs, h3, h4⟩ := hih (doc.set k v)
          refine ⟨b :: bs, by rw [List.flatten_cons, ← List.append_assoc]; exact h3, fun doc' h => ?_⟩
          have hlast : (Schema.loop hide (fun r => World.call str fuel r none) (doc.set k v) fs
              w1).2.lastValues f = v := by
            unfold World.lastValues
            rw [loop_apart fuel hide fs _ w1 f hapart, hcv]
          refine .cons ⟨?_, fun _ => ?_⟩ (h4 doc' h)
          · dsimp only
            rw [hlast]
            exact h2 v rfl
          · dsimp only at h ⊢
            have hp := loop_get hide (fun r => World.call str fuel r none) fs (doc.set k v) doc' w1
              (Schema.loop hide (fun r => World.call str fuel r none) (doc.set k v) fs w1).2 k hk1
              (Prod.ext h rfl)
            rw [hp, Dict.get?_set, if_pos rfl, hlast]
    · have hdr : w.draws e f = false := by
        rw [Bool.eq_false_iff]
        intro h
        obtain ⟨n, rp, g, hd, h⟩ := draws_iff.1 h
        exact hnot (.step (by unfold Attrs.children; rw [h]; simp [Node.childRefs]) (.self e))
      rw [List.filter_cons_of_neg (by simpa using hdr)]
      have he := C57_only_below str fuel f e none w hnot
      revert he hnode htyped
      rcases World.call str fuel f none w with ⟨x | v, w1⟩
      · intro hnode htyped he
        dsimp only at he
        refine ⟨[], ?_, fun doc h => by cases h⟩
        dsimp only
        rw [he, List.flatten_nil, List.append_nil]
        exact hE
      · intro hnode htyped he
        dsimp only at he hnode htyped ⊢
        have hleaf1 : (w1.obj e).children = [] := by rw [he]; exact hleaf
        have hih := fun doc => ih doc w1 hleaf1 (hsh'.congr hnode) htyped hk2 E (by rw [he]; exact hE)
        simp only [draws_congr hnode] at hih
        split <;> exact hih _

/-- One document. -/
theorem document_shared {V : Ref → Val → Prop} {str : Val → List Char} {e : Ref}
    {I : Attrs R → List Val → Prop} (hI : Streams str e I) (fuel : Nat) (fields : Dict Ref)
    (hk : fields.keys.Nodup) (w : World R) (hleaf : (w.obj e).children = [])
    (hsh : Sharers w fields e) (ht : TypedOn V (fun _ => True) w) (E : List Val)
    (hE : I (w.obj e) E) :
    let p := World.document str fuel fields w
    ∃ bs, I (p.2.obj e) (E ++ bs.flatten) ∧ ShowsEach (fields.filter fun kf => w.draws e kf.2)
      (fun r => (w.obj r).hide) (p.1, p.2.lastValues) bs := by
  unfold World.document
  rw [PyM.run_get_bind]
  exact loop_shared hI fuel _ fields [] w hleaf hsh ht hk E hE

/-- Any number of documents, with other uses of objects in between. -/
theorem sharedHist_streams {V : Ref → Val → Prop} {str : Val → List Char} {e : Ref}
    {I : Attrs R → List Val → Prop} (hI : Streams str e I) (fields : Dict Ref)
    (hk : fields.keys.Nodup) {w w' : World R} {ds : List (Except Err (Dict Val) × (Ref → Val))}
    (h : SharedHist str fields e w ds w') :
    ∀ (_ : (w.obj e).children = []) (_ : Sharers w fields e) (_ : Built V str w) (E : List Val)
      (_ : I (w.obj e) E),
    ∃ bss, I (w'.obj e) (E ++ bss.flatten.flatten) ∧ List.Forall₂ (ShowsEach
      (fields.filter fun kf => w.draws e kf.2) fun r => (w.obj r).hide) ds bss := by
  have hide_congr : ∀ {w v : World R}, (∀ x, (v.obj x).node = (w.obj x).node) →
      (fun r => (v.obj r).hide) = fun r => (w.obj r).hide := fun hn => by
    funext r; exact hide_of_node (hn r)
  have leaf_congr : ∀ {w v : World R}, (∀ x, (v.obj x).node = (w.obj x).node) →
      (w.obj e).children = [] → (v.obj e).children = [] := fun hn h => by
    unfold Attrs.children at h ⊢
    rw [hn]; exact h
  induction h with
  | nil w => intro _ _ hb E hE; exact ⟨[], by simpa using hE, .nil⟩
  | @doc w ds w' fuel h ih =>
    intro hl hu hb E hE
    obtain ⟨bs, h1, h2⟩ := document_shared hI fuel fields hk w hl hu (built_typed hb) E hE
    have hn : ∀ x, ((World.document str fuel fields w).2.obj x).node = (w.obj x).node :=
      fun x => (World.document_frame str fuel fields (fun _ => True) w (fun _ _ _ _ => trivial)
        fun _ _ => trivial).node x
    obtain ⟨bss, h3, h4⟩ := ih (leaf_congr hn hl) (hu.congr hn) (.document hb fuel fields) _ h1
    simp only [draws_congr hn, hide_congr hn] at h4
    exact ⟨bs :: bss, by
      rw [List.flatten_cons, List.flatten_append, ← List.append_assoc]; exact h3, .cons h2 h4⟩
  | @call w ds w' fuel r arg ha hr h ih =>
    intro hl hu hb E hE
    have hn := fun x => call_node (arg := arg) (str := str) (r := r) fuel x w
    obtain ⟨bs, h3, h4⟩ := ih (leaf_congr hn hl) (hu.congr hn) (.call hb fuel r arg ha) E
      (by rw [C57_only_below str fuel r e arg w hr]; exact hE)
    simp only [draws_congr hn, hide_congr hn] at h4
    exact ⟨bs, h3, h4⟩
  | @reset w ds w' fuel r hr h ih =>
    intro hl hu hb E hE
    have hfr := World.reset_frame fuel r (Below w r) w (fun _ h1 _ h2 => h1.child h2) (.self r)
    have hn : ∀ x, ((World.reset fuel r w).2.obj x).node = (w.obj x).node := fun x => hfr.node x
    obtain ⟨bs, h3, h4⟩ := ih (leaf_congr hn hl) (hu.congr hn) (.reset hb fuel r) E
      (by rw [hfr.frame e hr]; exact hE)
    simp only [draws_congr hn, hide_congr hn] at h4
    exact ⟨bs, h3, h4⟩
  | @seed w ds w' fuel r s hr h ih =>
    intro hl hu hb E hE
    have hfr := Fauxdoc.seed_frame fuel r s (Below w r) w (fun _ h1 _ h2 => h1.child h2) (.self r)
    have hn : ∀ x, ((World.seed fuel r s w).2.obj x).node = (w.obj x).node := fun x => hfr.node x
    obtain ⟨bs, h3, h4⟩ := ih (leaf_congr hn hl) (hu.congr hn) (.seed hb fuel r s) E
      (by rw [hfr.frame e hr]; exact hE)
    simp only [draws_congr hn, hide_congr hn] at h4
    exact ⟨bs, h3, h4⟩

/-! ### The values in the documents -/

theorem blocks_parts {users : Dict Ref} {vals : Ref → Val} {bs : List (List Val)}
    {P : String × Ref → Prop} (h : List.Forall₂ (fun (kf : String × Ref) b => Block (vals kf.2) b ∧ P kf)
      users bs) (hp : ∀ x ∈ bs.flatten, x.Plain) :
    users.flatMap (fun kf => (vals kf.2).parts) = bs.flatten := by
  induction h with
  | nil => rfl
  | @cons kf b users bs h1 _ ih =>
    rw [List.flatMap_cons, List.flatten_cons, h1.1.parts_eq fun x hx => hp x (by
        rw [List.flatten_cons]; exact List.mem_append_left _ hx), ih fun x hx => hp x (by
        rw [List.flatten_cons]; exact List.mem_append_right _ hx)]

theorem madeBy_sublist {users : Dict Ref} {hide : Ref → Bool}
    {ds : List (Except Err (Dict Val) × (Ref → Val))} {bss : List (List (List Val))}
    (h : List.Forall₂ (ShowsEach users hide) ds bss) (hp : ∀ x ∈ bss.flatten.flatten, x.Plain) :
    (madeBy users ds).Sublist bss.flatten.flatten ∧
      (NoneFailed ds → madeBy users ds = bss.flatten.flatten) := by
  induction h with
  | nil => exact ⟨.slnil, fun _ => rfl⟩
  | @cons d bs ds bss h1 _ ih =>
    obtain ⟨ih1, ih2⟩ := ih fun x hx => hp x (by
      rw [List.flatten_cons, List.flatten_append]; exact List.mem_append_right _ hx)
    have hp1 : ∀ x ∈ bs.flatten, x.Plain := fun x hx => hp x (by
      rw [List.flatten_cons, List.flatten_append]; exact List.mem_append_left _ hx)
    unfold madeBy
    rw [List.flatMap_cons, List.flatten_cons, List.flatten_append]
    constructor
    · refine List.Sublist.append ?_ ih1
      rcases hd : d.1 with x | doc
      · exact List.nil_sublist _
      · rw [blocks_parts (h1 doc hd) hp1]
    · intro ha
      congr 1
      · obtain ⟨doc, hd⟩ := ha d (by simp)
        rw [hd]
        exact blocks_parts (h1 doc hd) hp1
      · exact ih2 fun d hd => ha d (List.mem_cons_of_mem _ hd)

/-- **C110.** If a `Choice` without replacement is the data emitter of any number of fields, then across
any number of documents, whatever happens to other objects in between and whichever documents fail,
the values taken from it by all of them together are consecutive values of one permutation of its
items, dealt out document by document and in a document in the order of the fields; and the counter
goes down by as many. -/
theorem C110_permutation (V : Ref → Val → Prop) (str : Val → List Char) {fields : Dict Ref}
    (hk : fields.keys.Nodup) {e : Ref} {w w' : World R}
    {ds : List (Except Err (Dict Val) × (Ref → Val))} (hb : Built V str w)
    (hu : Sharers w fields e) {k : ItemsKind} (hc : (w.obj e).node = some (.choice k))
    (hr : (w.obj e).choice.replace = false) (h : SharedHist str fields e w ds w') :
    ∃ p E bss, p.Perm (w.obj e).choice.items ∧ E ++ bss.flatten.flatten <+: p ∧
      List.Forall₂ (ShowsEach (fields.filter fun kf => w.draws e kf.2) fun r => (w.obj r).hide) ds bss ∧
      (w.obj e).choice.numUniqueItems = (w.obj e).choice.items.length - E.length ∧
      (w'.obj e).choice.numUniqueItems =
        (w.obj e).choice.numUniqueItems - bss.flatten.flatten.length := by
  obtain ⟨_, E, hE⟩ := (Choice.intact_iff _).1 (C60_intact V str hb e k hc)
  have hl : (w.obj e).children = [] := by unfold Attrs.children; rw [hc]; rfl
  obtain ⟨bss, h1, h2⟩ := sharedHist_streams (streams_choice str e (w.obj e).choice.items
    (w.obj e).choice.shuffled) fields hk h hl hu hb E ⟨⟨k, hc⟩, hr, rfl, hE⟩
  obtain ⟨_, hr', hs, hg⟩ := h1
  obtain ⟨hp, _, hE', _, hn'⟩ := hg.norepl hr'
  obtain ⟨_, _, _, _, hn⟩ := hE.norepl hr
  rw [hs] at hp hE'
  refine ⟨_, E, bss, hp, ?_, h2, hn, ?_⟩
  · rw [hE']; exact List.take_prefix _ _
  · rw [hn', hn, List.length_append]; push_cast; ring

/-- **C110.** In particular no item comes twice in a set of documents, neither in one field nor in two. -/
theorem C110_never_twice (V : Ref → Val → Prop) (str : Val → List Char) {fields : Dict Ref}
    (hk : fields.keys.Nodup) {e : Ref} {w w' : World R}
    {ds : List (Except Err (Dict Val) × (Ref → Val))} (hb : Built V str w)
    (hu : Sharers w fields e) {k : ItemsKind} (hc : (w.obj e).node = some (.choice k))
    (hr : (w.obj e).choice.replace = false) (h : SharedHist str fields e w ds w')
    (hi : (w.obj e).choice.items.Nodup) (hp : ∀ x ∈ (w.obj e).choice.items, x.Plain) :
    let all := madeBy (fields.filter fun kf => w.draws e kf.2) ds
    all.Nodup ∧ (∀ x ∈ all, x ∈ (w.obj e).choice.items) ∧
      (all.length : Int) ≤ (w.obj e).choice.numUniqueItems ∧
      (NoneFailed ds → (all.length : Int) =
        (w.obj e).choice.numUniqueItems - (w'.obj e).choice.numUniqueItems) := by
  dsimp only
  obtain ⟨p, E, bss, h1, h2, h3, h4, h5⟩ := C110_permutation V str hk hb hu hc hr h
  have hsub : bss.flatten.flatten.Sublist p := (List.sublist_append_right _ _).trans h2.sublist
  have hmem : ∀ x ∈ bss.flatten.flatten, x ∈ (w.obj e).choice.items :=
    fun x hx => h1.mem_iff.1 (hsub.subset hx)
  obtain ⟨hm, hm'⟩ := madeBy_sublist h3 fun x hx => hp x (hmem x hx)
  refine ⟨(hm.trans hsub).nodup (h1.nodup_iff.2 hi), fun x hx => hmem x (hm.subset hx), ?_, fun ha => ?_⟩
  · have := h2.length_le
    rw [List.length_append, h1.length_eq] at this
    have := hm.length_le
    rw [h4]; omega
  · have := congrArg List.length (hm' ha)
    rw [h5]
    omega

/-! ### Round robin -/

theorem single_blocks {users : Dict Ref} {vals : Ref → Val} {bs : List (List Val)}
    {P : String × Ref → Prop} (h : List.Forall₂ (fun (kf : String × Ref) b => Block (vals kf.2) b ∧ P kf)
      users bs) (hp : ∀ kf ∈ users, (vals kf.2).Plain) :
    bs.flatten = users.map fun kf => vals kf.2 := by
  induction h with
  | nil => rfl
  | @cons kf b users bs h1 _ ih =>
    rw [List.flatten_cons, List.map_cons, ih fun x hx => hp x (List.mem_cons_of_mem _ hx)]
    have hb : b = [vals kf.2] := by
      have h2 := h1.1
      have h3 := hp kf List.mem_cons_self
      generalize vals kf.2 = v at h2 h3
      cases h2 with
      | closed => exact h3.elim
      | one => rfl
      | many => exact h3.elim
    rw [hb]
    rfl

theorem single_documents {users : Dict Ref} {hide : Ref → Bool}
    {ds : List (Except Err (Dict Val) × (Ref → Val))} {bss : List (List (List Val))}
    (h : List.Forall₂ (ShowsEach users hide) ds bss) (ha : NoneFailed ds)
    (hp : ∀ d ∈ ds, ∀ kf ∈ users, (d.2 kf.2).Plain) :
    bss.flatten.flatten = ds.flatMap fun d => users.map fun kf => d.2 kf.2 := by
  induction h with
  | nil => rfl
  | @cons d bs ds bss h1 _ ih =>
    obtain ⟨doc, hd⟩ := ha d List.mem_cons_self
    rw [List.flatten_cons, List.flatten_append, List.flatMap_cons,
      ih (fun d hd => ha d (List.mem_cons_of_mem _ hd)) (fun d hd => hp d (List.mem_cons_of_mem _ hd)),
      single_blocks (h1 doc hd) (hp d List.mem_cons_self)]

theorem flatMap_rows {α β : Type} (g : α → List β) (m : Nat) (l : List α)
    (hg : ∀ a ∈ l, (g a).length = m) (j i : Nat) (hi : i < m) (a : α) (ha : l[j]? = some a) :
    j * m + i < (l.flatMap g).length ∧ (l.flatMap g)[j * m + i]? = (g a)[i]? := by
  induction l generalizing j with
  | nil => simp at ha
  | cons b l ih =>
    have hb := hg b List.mem_cons_self
    rw [List.flatMap_cons]
    cases j with
    | zero =>
      simp only [List.getElem?_cons_zero, Option.some.injEq] at ha
      subst ha
      rw [Nat.zero_mul, Nat.zero_add, List.length_append, List.getElem?_append_left (by omega)]
      exact ⟨by omega, rfl⟩
    | succ j =>
      rw [List.getElem?_cons_succ] at ha
      obtain ⟨h1, h2⟩ := ih (fun a h => hg a (List.mem_cons_of_mem _ h)) j ha
      have : (j + 1) * m + i = m + (j * m + i) := by ring
      rw [this, List.length_append, List.getElem?_append_right (by omega), hb,
        Nat.add_sub_cancel_left]
      exact ⟨by omega, h2⟩

theorem roundRobin {src : Src Val} {k : Nat} {users : Dict Ref} {hide : Ref → Bool}
    {ds : List (Except Err (Dict Val) × (Ref → Val))} {bss : List (List (List Val))}
    (h : List.Forall₂ (ShowsEach users hide) ds bss) (hc : IsCyclicFrom src k bss.flatten.flatten) :
    RoundRobin src k users hide ds := by
  refine ⟨⟨bss, h, hc⟩, fun ha hp j hj i hi => ?_⟩
  obtain ⟨h1, h2⟩ := flatMap_rows (fun d : Except Err (Dict Val) × (Ref → Val) =>
    users.map fun kf => d.2 kf.2) users.length ds (fun _ _ => List.length_map _) j i hi _
    (List.getElem?_eq_getElem hj)
  rw [single_documents h ha hp] at hc
  have h3 := hc _ h1
  rw [h2, List.getElem?_map, List.getElem?_eq_getElem hi, Option.map_some] at h3
  refine ⟨h3, fun hh => ?_⟩
  obtain ⟨doc, hd⟩ := ha ds[j] (List.getElem_mem hj)
  refine ⟨doc, hd, ?_⟩
  have hl := h.length_eq
  have h4 := h.get hj (by omega) doc hd
  have h5 := h4.get hi (by rw [← h4.length_eq]; exact hi)
  rw [← h3]
  exact h5.2 hh

/-- **C110.** If an `Iterative` (without `reset_after_call`) is the data emitter of any number of
fields, they take its values in turn: in the order of the fields in a document, and document after
document.  If every document is made and each of `m` fields has a single value in each, the value of
the `i`-th field in the `j`-th document is the item `j * m + i` from where the emitter was. -/
theorem C110_iterative (V : Ref → Val → Prop) (str : Val → List Char) {fields : Dict Ref}
    (hk : fields.keys.Nodup) {e : Ref} {w w' : World R}
    {ds : List (Except Err (Dict Val) × (Ref → Val))} (hb : Built V str w)
    (hu : Sharers w fields e) (hc : (w.obj e).node = some .iterative)
    {src : Src Val} {E : List Val} (hit : IterRun (w.obj e).iter src E)
    (hr : (w.obj e).iter.resetAfterCall = false) (h : SharedHist str fields e w ds w') :
    RoundRobin src E.length (fields.filter fun kf => w.draws e kf.2) (fun r => (w.obj r).hide) ds := by
  have hl : (w.obj e).children = [] := by unfold Attrs.children; rw [hc]; rfl
  obtain ⟨bss, ⟨_, h1⟩, h2⟩ := sharedHist_streams (streams_iterative str e src E.length) fields hk h hl
    hu hb [] ⟨hc, hr, iterRun_atPos hit, fun i hi => by cases hi⟩
  exact roundRobin h2 h1.2.2

/-- **C110.** The same for a `Sequential`. -/
theorem C110_sequential (V : Ref → Val → Prop) (str : Val → List Char) {fields : Dict Ref}
    (hk : fields.keys.Nodup) {e : Ref} {w w' : World R}
    {ds : List (Except Err (Dict Val) × (Ref → Val))} (hb : Built V str w)
    (hu : Sharers w fields e) {k : ItemsKind} (hc : (w.obj e).node = some (.sequential k))
    {src : Src Val} {E : List Val} (hit : SeqRun (w.obj e).seq src E)
    (hr : (w.obj e).seq.it.resetAfterCall = false) (h : SharedHist str fields e w ds w') :
    RoundRobin src E.length (fields.filter fun kf => w.draws e kf.2) (fun r => (w.obj r).hide) ds := by
  have hl : (w.obj e).children = [] := by unfold Attrs.children; rw [hc]; rfl
  obtain ⟨bss, ⟨_, h1⟩, h2⟩ := sharedHist_streams (streams_sequential str e k src E.length) fields hk h hl
    hu hb [] ⟨hc, hr, (seqRun_atPos hit).1, fun i hi => by cases hi⟩
  exact roundRobin h2 h1.2.2

/-! ### Example: two pairs of fields -/

/-- The fields: `Field('first', codes, rng_seed=3)` and `Field('others', codes, repeat=Sequential([1, 2]),
rng_seed=4)` with `codes = Choice(['a', 'b', 'c', 'd', 'e'], replace=False, rng_seed=1)`, and
`Field('from', numbers)` and `Field('to', numbers)` with
`numbers = Iterative(lambda: itertools.count(1))`. -/
def dealtFields : Dict Ref := [("from", 8), ("first", 3), ("others", 6), ("to", 9)]

/-- The store after each constructor. -/
def dealtW1 : World demoRng := (World.newChoice .list [.str ['a'], .str ['b'], .str ['c'], .str ['d'],
  .str ['e']] none false false (some 1) none emptyWorld).2
def dealtW2 : World demoRng := (World.newStatic (.bool true) (World.newStatic .none dealtW1).2).2
def dealtW3 : World demoRng := (World.newField 5 "first" 0 (some 1) (some 2) false (some 3) dealtW2).2
def dealtW4 : World demoRng := (World.newSequential .list [.int 1, .int 2] false dealtW3).2
def dealtW5 : World demoRng := (World.newStatic (.bool true) dealtW4).2
def dealtW6 : World demoRng := (World.newField 5 "others" 0 (some 4) (some 5) false (some 4) dealtW5).2
def dealtW7 : World demoRng := (World.newIterative ⟨.inf fun k => .int (k + 1), false⟩ false dealtW6).2
def dealtW8 : World demoRng := (World.newField 5 "from" 7 (some 1) (some 2) false (some 5) dealtW7).2
def dealtWorld : World demoRng := (World.newField 5 "to" 7 (some 1) (some 2) false (some 6) dealtW8).2

/-- The declared values. -/
def dealtV (r : Ref) (v : Val) : Prop :=
  match r with
  | 1 => v = .none
  | 4 => v = .int 1 ∨ v = .int 2
  | _ => True

theorem dealt_built : Built dealtV demoStr dealtWorld := by
  have h1 : Built dealtV demoStr dealtW1 := .newChoice (.empty emptyWorld fun _ => rfl) _ _ _ _ _ _ _ (by
    rw [show emptyWorld.next = 0 from rfl]; intro _ x _; trivial)
  have h2 : Built dealtV demoStr dealtW2 := .newStatic (.newStatic h1 _ (by
    rw [show dealtW1.next = 1 by decide +kernel]; rfl)) _ (by
    rw [show (World.newStatic .none dealtW1).2.next = 2 by decide +kernel]; trivial)
  have h3 : Built dealtV demoStr dealtW3 := .newField h2 _ _ _ _ _ _ _ (by
    rintro v (rfl : v = .none) i hi; cases hi) (by
    rw [show dealtW2.next = 3 by decide +kernel]; intro v; trivial)
  have h4 : Built dealtV demoStr dealtW4 := .newSequential h3 _ _ _ (by
    rw [show dealtW3.next = 4 by decide +kernel]
    intro x hx
    simpa [dealtV] using hx)
  have h5 : Built dealtV demoStr dealtW5 := .newStatic h4 _ (by
    rw [show dealtW4.next = 5 by decide +kernel]; trivial)
  have h6 : Built dealtV demoStr dealtW6 := .newField h5 _ _ _ _ _ _ _ (by
    rintro v (rfl | rfl) i hi <;> cases hi <;> decide) (by
    rw [show dealtW5.next = 6 by decide +kernel]; intro v; trivial)
  have h7 : Built dealtV demoStr dealtW7 := .newIterative h6 _ _ (by
    rw [show dealtW6.next = 7 by decide +kernel]; intro k; trivial)
  have h8 : Built dealtV demoStr dealtW8 := .newField h7 _ _ _ _ _ _ _ (by
    rintro v (rfl : v = .none) i hi; cases hi) (by
    rw [show dealtW7.next = 8 by decide +kernel]; intro v; trivial)
  exact .newField h8 _ _ _ _ _ _ _ (by
    rintro v (rfl : v = .none) i hi; cases hi) (by
    rw [show dealtW8.next = 9 by decide +kernel]; intro v; trivial)

theorem dealt_leaf {r x : Ref} (hr : (dealtWorld.obj r).children = []) (h : Below dealtWorld r x) :
    x = r := below_leaf hr h

theorem dealt_codes : Sharers dealtWorld dealtFields 0 where
  refs := by decide
  each kf hm := by
    simp only [dealtFields, List.mem_cons, List.not_mem_nil, or_false] at hm
    rcases hm with rfl | rfl | rfl | rfl
    · exact .inr fun h => absurd (h.mem [7, 1, 2, 8] (by decide +kernel) (by decide)) (by decide)
    · exact .inl ⟨"first", 1, 2, false, by decide +kernel,
        fun h => absurd (dealt_leaf (by decide +kernel) h) (by decide),
        fun h => absurd (dealt_leaf (by decide +kernel) h) (by decide)⟩
    · exact .inl ⟨"others", 4, 5, false, by decide +kernel,
        fun h => absurd (dealt_leaf (by decide +kernel) h) (by decide),
        fun h => absurd (dealt_leaf (by decide +kernel) h) (by decide)⟩
    · exact .inr fun h => absurd (h.mem [7, 1, 2, 9] (by decide +kernel) (by decide)) (by decide)

theorem dealt_numbers : Sharers dealtWorld dealtFields 7 where
  refs := by decide
  each kf hm := by
    simp only [dealtFields, List.mem_cons, List.not_mem_nil, or_false] at hm
    rcases hm with rfl | rfl | rfl | rfl
    · exact .inl ⟨"from", 1, 2, false, by decide +kernel,
        fun h => absurd (dealt_leaf (by decide +kernel) h) (by decide),
        fun h => absurd (dealt_leaf (by decide +kernel) h) (by decide)⟩
    · exact .inr fun h => absurd (h.mem [0, 1, 2, 3] (by decide +kernel) (by decide)) (by decide)
    · exact .inr fun h => absurd (h.mem [0, 4, 5, 6] (by decide +kernel) (by decide)) (by decide)
    · exact .inl ⟨"to", 1, 2, false, by decide +kernel,
        fun h => absurd (dealt_leaf (by decide +kernel) h) (by decide),
        fun h => absurd (dealt_leaf (by decide +kernel) h) (by decide)⟩

def dealtDoc1 := World.document demoStr 5 dealtFields dealtWorld
def dealtDoc2 := World.document demoStr 5 dealtFields dealtDoc1.2

def dealtDoc3 := World.document demoStr 5 dealtFields dealtDoc2.2
def dealtReset := World.reset 5 6 dealtDoc1.2
def dealtDoc4 := World.document demoStr 5 dealtFields dealtReset.2

/-- The codes and the numbers are dealt out, and the third document cannot be made. -/
example : dealtDoc1.1 = .ok [("from", .int 1), ("first", .str ['a']), ("others", .list [.str ['d']]),
      ("to", .int 2)] ∧
    dealtDoc2.1 = .ok [("from", .int 3), ("first", .str ['b']),
      ("others", .list [.str ['e'], .str ['c']]), ("to", .int 4)] ∧
    dealtDoc3.1 = .error .valueError := by decide +kernel

theorem dealt_hist (e : Ref) : SharedHist demoStr dealtFields e dealtWorld
    [(dealtDoc1.1, dealtDoc1.2.lastValues), (dealtDoc2.1, dealtDoc2.2.lastValues)] dealtDoc2.2 :=
  .doc 5 <| .doc 5 <| .nil _

/-- The codes in `first` and `others` are all different, in any set of documents. -/
theorem dealt_codes_once (w' : World demoRng) (ds : List (Except Err (Dict Val) × (Ref → Val)))
    (h : SharedHist demoStr dealtFields 0 dealtWorld ds w') :
    (madeBy [("first", 3), ("others", 6)] ds).Nodup ∧
      (madeBy [("first", 3), ("others", 6)] ds).length ≤ 5 := by
  have := C110_never_twice dealtV demoStr (by decide) dealt_built dealt_codes
    (k := .list) (by decide +kernel) (by decide +kernel) h (by decide +kernel) (by
      rw [show (dealtWorld.obj 0).choice.items = [.str ['a'], .str ['b'], .str ['c'], .str ['d'],
        .str ['e']] by decide +kernel]
      intro x hx
      simp only [List.mem_cons, List.not_mem_nil, or_false] at hx
      rcases hx with rfl | rfl | rfl | rfl | rfl <;> trivial)
  rw [show dealtFields.filter (fun kf => dealtWorld.draws 0 kf.2) = [("first", 3), ("others", 6)] by
    decide +kernel, show (dealtWorld.obj 0).choice.numUniqueItems = 5 by decide +kernel] at this
  exact ⟨this.1, by have := this.2.2.1; omega⟩

example : madeBy [("first", 3), ("others", 6)]
    [(dealtDoc1.1, dealtDoc1.2.lastValues), (dealtDoc2.1, dealtDoc2.2.lastValues)] =
    [.str ['a'], .str ['d'], .str ['b'], .str ['e'], .str ['c']] := by decide +kernel

/-- If none fails and both have numbers, `from` has the odd ones and `to` the even ones. -/
theorem dealt_odd_even (w' : World demoRng) (ds : List (Except Err (Dict Val) × (Ref → Val)))
    (h : SharedHist demoStr dealtFields 7 dealtWorld ds w') (ha : NoneFailed ds)
    (hp : ∀ d ∈ ds, (d.2 8).Plain ∧ (d.2 9).Plain) (j : Nat) (hj : j < ds.length) :
    ∃ doc, ds[j].1 = .ok doc ∧ doc.get? "from" = some (.int (2 * j + 1)) ∧
      doc.get? "to" = some (.int (2 * j + 2)) := by
  have hit : IterRun (dealtWorld.obj 7).iter (.inf fun k => Val.int (k + 1)) [] := .init
    ⟨.inf fun k => Val.int (k + 1), false⟩ false _ (by with_unfolding_all rfl)
  have := (C110_iterative dealtV demoStr (by decide) dealt_built dealt_numbers (by decide +kernel) hit
    (by decide +kernel) h).2
  rw [show dealtFields.filter (fun kf => dealtWorld.draws 7 kf.2) = [("from", 8), ("to", 9)] by
    decide +kernel] at this
  have h1 := this ha (fun d hd kf hm => by
    simp only [List.mem_cons, List.not_mem_nil, or_false] at hm
    rcases hm with rfl | rfl
    · exact (hp d hd).1
    · exact (hp d hd).2) j hj
  obtain ⟨doc, g1, g2⟩ := (h1 0 (by decide)).2 (by decide +kernel)
  obtain ⟨doc', g3, g4⟩ := (h1 1 (by decide)).2 (by decide +kernel)
  rw [g1] at g3
  cases g3
  refine ⟨doc, g1, ?_, ?_⟩
  · rw [show doc.get? "from" = _ from g2]
    simp [Src.cycle, mul_comm]
  · rw [show doc.get? "to" = _ from g4]
    simp [Src.cycle, mul_comm]
    ring

/-- **C110 (the condition is needed).** Resetting one of the fields resets the shared emitter, and codes
that were used come again, also in the other field. -/
theorem C110_reset_violated :
    dealtDoc1.1 = .ok [("from", .int 1), ("first", .str ['a']), ("others", .list [.str ['d']]),
      ("to", .int 2)] ∧
    dealtDoc4.1 = .ok [("from", .int 3), ("first", .str ['a']), ("others", .list [.str ['d']]),
      ("to", .int 4)] := by decide +kernel

/-- Two fields over `Sequential([10, 20, 30])`: they have 10 and 20, then 30 and 10, ... -/
def turnsWorld : World demoRng :=
  (World.newField 5 "b" 0 (some 1) (some 2) false (some 6)
    (World.newField 5 "a" 0 (some 1) (some 2) false (some 5)
      (World.newStatic (.bool true) (World.newStatic .none
        (World.newSequential .list [.int 10, .int 20, .int 30] false emptyWorld).2).2).2).2).2
def turnsDoc1 := World.document demoStr 5 [("a", 3), ("b", 4)] turnsWorld
def turnsDoc2 := World.document demoStr 5 [("a", 3), ("b", 4)] turnsDoc1.2

theorem turns_built : Built (fun r v => r = 1 → v = .none) demoStr turnsWorld := by
  have h1 : Built (fun r v => r = 1 → v = .none) demoStr _ :=
    .newSequential (.empty emptyWorld fun _ => rfl) .list [.int 10, .int 20, .int 30] false (by
      intro x _ h; cases h)
  have h3 := Built.newStatic (.newStatic h1 .none (by intro _; rfl)) (.bool true) (by
    intro h; exact absurd h (by decide +kernel))
  have h4 := Built.newField h3 5 "a" 0 1 2 false (some 5) (by
    intro v hv i hi; cases hv rfl; cases hi) (by
    intro v h; exact absurd h (by decide +kernel))
  exact .newField h4 5 "b" 0 1 2 false (some 6) (by
    intro v hv i hi; cases hv rfl; cases hi) (by
    intro v h; exact absurd h (by decide +kernel))

example : turnsDoc1.1 = .ok [("a", .int 10), ("b", .int 20)] ∧
    turnsDoc2.1 = .ok [("a", .int 30), ("b", .int 10)] := by decide +kernel

example (w' : World demoRng) (ds : List (Except Err (Dict Val) × (Ref → Val)))
    (h : SharedHist demoStr [("a", 3), ("b", 4)] 0 turnsWorld ds w') :
    RoundRobin (.fin [.int 10, .int 20, .int 30]) 0 [("a", 3), ("b", 4)] (fun r => (turnsWorld.obj r).hide)
      ds := by
  have hs : Sharers turnsWorld [("a", 3), ("b", 4)] 0 := by
    refine ⟨by decide, fun kf hm => .inl ?_⟩
    simp only [List.mem_cons, List.not_mem_nil, or_false] at hm
    rcases hm with rfl | rfl
    · exact ⟨"a", 1, 2, false, by decide +kernel,
        fun h => absurd (below_leaf (by decide +kernel) h) (by decide),
        fun h => absurd (below_leaf (by decide +kernel) h) (by decide)⟩
    · exact ⟨"b", 1, 2, false, by decide +kernel,
        fun h => absurd (below_leaf (by decide +kernel) h) (by decide),
        fun h => absurd (below_leaf (by decide +kernel) h) (by decide)⟩
  have := C110_sequential _ demoStr (by decide) turns_built hs (k := .list) (by decide +kernel)
    (src := .fin [.int 10, .int 20, .int 30]) (E := []) (.init _ _ _ (by with_unfolding_all rfl))
    (by decide +kernel) h
  rwa [show ([("a", 3), ("b", 4)] : Dict Ref).filter (fun kf => turnsWorld.draws 0 kf.2) =
    [("a", 3), ("b", 4)] by decide +kernel] at this

end Fauxdoc
