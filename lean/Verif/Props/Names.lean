import Verif.Model.Names
import Verif.Props.Group
/-
C94: the names of modules that have deprecated names.
-/
namespace Fauxdoc.PyModule
variable {β : Type}

/-- The names that only the table of deprecated names has. -/
def Old (m : PyModule β) (n : String) : Prop :=
  n ∉ m.globals.map Prod.fst ∧ n ∈ m.deprecated.map Prod.fst

instance (m : PyModule β) (n : String) : Decidable (m.Old n) := by unfold Old; infer_instance

/-- How often the names in a list warn when each is got once. -/
def oldCount (m : PyModule β) (ns : List String) : Nat := ns.countP fun n => decide (m.Old n)

theorem lookup_none_iff {γ : Type} (l : List (String × γ)) (n : String) :
    l.lookup n = none ↔ n ∉ l.map Prod.fst := by
  induction l with
  | nil => simp
  | cons p l ih =>
    obtain ⟨k, v⟩ := p
    by_cases h : n = k
    · subst h; simp
    · rw [List.lookup_cons, show (n == k) = false by simpa using h]
      simp [ih, h]

theorem lookup_mem {γ : Type} (l : List (String × γ)) (n : String) (h : n ∈ l.map Prod.fst) :
    ∃ v, l.lookup n = some v := by
  rcases hl : l.lookup n with _ | v
  · exact absurd h ((lookup_none_iff l n).1 hl)
  · exact ⟨v, rfl⟩

theorem mem_dir {m : PyModule β} {n : String} :
    n ∈ m.dir ↔ n ∈ m.globals.map Prod.fst ∨ n ∈ m.deprecated.map Prod.fst := by
  unfold dir; rw [List.mem_mergeSort, List.mem_append]

/-- **C94 (current names).** A global variable is what its name gives, without a warning, even if
the table of deprecated names lists it. -/
theorem C94_current (m : PyModule β) (n : String) (v : β) (h : m.globals.lookup n = some v)
    (ws : List String) : m.getattr n ws = (.ok v, ws) := by
  unfold getattr; rw [h]; rfl

/-- **C94 (deprecated names).** Every use of a deprecated name gives the object listed and issues
one warning, which begins with the names of the module and the attribute. -/
theorem C94_old (m : PyModule β) (n : String) (r : Option String) (v : β)
    (h : m.globals.lookup n = none) (hd : m.deprecated.lookup n = some (r, v)) (ws : List String) :
    ∃ w, m.getattr n ws = (.ok v, ws ++ [w]) ∧ (m.name ++ "." ++ n).toList <+: w.toList ∧
      ∀ k, r = some k → k.toList <:+: w.toList := by
  unfold getattr; rw [h]
  exact C59_listed n m.name m.deprecated r v hd ws

/-- **C94 (dir).** `dir` lists a name exactly if it can be got; all other names raise
`AttributeError` without a warning. -/
theorem C94_dir (m : PyModule β) (n : String) (ws : List String) :
    (n ∈ m.dir → ∃ v, (m.getattr n ws).1 = .ok v) ∧
      (n ∉ m.dir → m.getattr n ws = (.error .attributeError, ws)) := by
  rw [mem_dir]
  constructor
  · rintro h
    rcases hg : m.globals.lookup n with _ | v
    · have hn := (lookup_none_iff _ _).1 hg
      obtain ⟨⟨r, v⟩, hv⟩ := lookup_mem _ _ (h.resolve_left hn)
      obtain ⟨w, hw, _⟩ := C94_old m n r v hg hv ws
      exact ⟨v, by rw [hw]⟩
    · exact ⟨v, by rw [C94_current m n v hg ws]⟩
  · intro h
    rw [not_or] at h
    unfold getattr
    rw [(lookup_none_iff _ _).2 h.1]
    exact C59_unlisted n m.name m.deprecated ((lookup_none_iff _ _).2 h.2) ws

/-- **C94 (dir, order).** `dir` is in alphabetical order, and lists no name twice if the module has
no name that is both current and deprecated. -/
theorem C94_dir_sorted (m : PyModule β) :
    m.dir.Pairwise (· ≤ ·) ∧ ((m.globals.map Prod.fst).Nodup → (m.deprecated.map Prod.fst).Nodup →
      (∀ n ∈ m.globals.map Prod.fst, n ∉ m.deprecated.map Prod.fst) → m.dir.Nodup) := by
  constructor
  · have := List.pairwise_mergeSort (le := fun a b : String => decide (a ≤ b))
      (fun a b c h1 h2 => by simp only [decide_eq_true_eq] at *; exact String.le_trans h1 h2)
      (fun a b => by simp only [Bool.or_eq_true, decide_eq_true_eq]; exact String.le_total a b)
      (m.globals.map Prod.fst ++ m.deprecated.map Prod.fst)
    exact this.imp fun h => by simpa using h
  · intro h1 h2 h3
    unfold dir
    rw [(List.mergeSort_perm _ _).nodup_iff]
    exact List.nodup_append.2 ⟨h1, h2, fun a ha b hb hab => h3 a ha (hab ▸ hb)⟩

theorem getattr_count (m : PyModule β) (n : String) (hn : n ∈ m.dir) (ws : List String) :
    ∃ v vs, m.getattr n ws = (.ok v, ws ++ vs) ∧ vs.length = m.oldCount [n] ∧
      ∀ w ∈ vs, (m.name ++ "." ++ n).toList <+: w.toList := by
  rcases hg : m.globals.lookup n with _ | v
  · have hn' := (lookup_none_iff _ _).1 hg
    have hd := (mem_dir.1 hn).resolve_left hn'
    obtain ⟨⟨r, v⟩, hv⟩ := lookup_mem _ _ hd
    obtain ⟨w, hw, hp, _⟩ := C94_old m n r v hg hv ws
    refine ⟨v, [w], hw, ?_, fun u hu => by rw [List.mem_singleton.1 hu]; exact hp⟩
    have : m.Old n := ⟨hn', hd⟩
    simp [oldCount, this]
  · have hn' : ¬ m.Old n := fun h => by
      rw [(lookup_none_iff _ _).2 h.1] at hg; cases hg
    exact ⟨v, [], by rw [C94_current m n v hg ws]; simp, by simp [oldCount, hn'], by simp⟩

theorem oldCount_cons (m : PyModule β) (n : String) (ns : List String) :
    m.oldCount (n :: ns) = m.oldCount [n] + m.oldCount ns := by
  unfold oldCount; simp only [List.countP_cons, List.countP_nil]; omega

theorem getattrs_count (m : PyModule β) (ns : List String) (h : ∀ n ∈ ns, n ∈ m.dir)
    (ws : List String) : ∃ vs us, m.getattrs ns ws = (.ok vs, ws ++ us) ∧ vs.length = ns.length ∧
      us.length = m.oldCount ns ∧ ∀ i (hi : i < ns.length), ∃ t, (m.getattr ns[i] t).1.toOption = vs[i]? := by
  induction ns generalizing ws with
  | nil => exact ⟨[], [], by simp [getattrs], rfl, rfl, fun i hi => absurd hi (by simp)⟩
  | cons n ns ih =>
    obtain ⟨v, us, h1, h2, _⟩ := m.getattr_count n (h n (List.mem_cons_self ..)) ws
    obtain ⟨vs, us', h3, h4, h5, h6⟩ := ih (fun k hk => h k (List.mem_cons_of_mem _ hk)) (ws ++ us)
    refine ⟨v :: vs, us ++ us', ?_, by simp [h4], ?_, ?_⟩
    · unfold getattrs
      rw [PyM.bind_ok h1, PyM.bind_ok h3, List.append_assoc]; rfl
    · rw [oldCount_cons, List.length_append, h2, h5]
    · intro i hi
      cases i with
      | zero => exact ⟨ws, by simp [h1, Except.toOption]⟩
      | succ i =>
        obtain ⟨t, ht⟩ := h6 i (by simpa using hi)
        exact ⟨t, by simpa using ht⟩

theorem hasattrs_count (m : PyModule β) (ns : List String) (h : ∀ n ∈ ns, n ∈ m.dir)
    (ws : List String) : ∃ us, m.hasattrs ns ws = (.ok ⟨⟩, ws ++ us) ∧
      us.length = m.oldCount ns := by
  induction ns generalizing ws with
  | nil => exact ⟨[], by simp [hasattrs], rfl⟩
  | cons n ns ih =>
    obtain ⟨v, us, h1, h2, _⟩ := m.getattr_count n (h n (List.mem_cons_self ..)) ws
    obtain ⟨us', h3, h5⟩ := ih (fun k hk => h k (List.mem_cons_of_mem _ hk)) (ws ++ us)
    refine ⟨us ++ us', ?_, ?_⟩
    · have h4 : m.hasattr n ws = (.ok ⟨⟩, ws ++ us) := by
        unfold hasattr PyM.ignoring
        rw [PyM.bind_ok h1]; rfl
      unfold hasattrs
      rw [PyM.bind_ok h4, h3, List.append_assoc]
    · rw [oldCount_cons, List.length_append, h2, h5]

/-- **C94 (imports).** `from module import a, b, ...` succeeds if `dir` lists the names, and gives
what each name gives.  Every deprecated name among them warns once, or twice if the module is a
package; the others do not warn. -/
theorem C94_import (m : PyModule β) (ns : List String) (h : ∀ n ∈ ns, n ∈ m.dir)
    (ws : List String) : ∃ vs us, m.importFrom ns ws = (.ok vs, ws ++ us) ∧
      us.length = (if m.package then 2 else 1) * m.oldCount ns ∧ vs.length = ns.length ∧
      ∀ i (hi : i < ns.length), ∃ t, (m.getattr ns[i] t).1.toOption = vs[i]? := by
  unfold importFrom
  cases m.package with
  | false =>
    obtain ⟨vs, us, h1, h2, h3, h4⟩ := m.getattrs_count ns h ws
    exact ⟨vs, us, by simpa using h1, by simpa using h3, h2, h4⟩
  | true =>
    obtain ⟨us, h1, h2⟩ := m.hasattrs_count ns h ws
    obtain ⟨vs, us', h3, h4, h5, h6⟩ := m.getattrs_count ns h (ws ++ us)
    refine ⟨vs, us ++ us', ?_, ?_, h4, h6⟩
    · rw [if_pos rfl, PyM.bind_ok h1]
      exact h3.trans (by rw [List.append_assoc])
    · rw [List.length_append, h2, h5, if_pos rfl]; omega

/-- **C94 (imports, missing names).** An import of a name that `dir` does not list fails. -/
theorem C94_import_missing (m : PyModule β) (ns : List String) (n : String) (hn : n ∈ ns)
    (h : n ∉ m.dir) (ws : List String) : (m.importFrom ns ws).1 = .error .attributeError := by
  have hget : ∀ (ks : List String) ws, n ∈ ks → (m.getattrs ks ws).1 = .error .attributeError := by
    intro ks
    induction ks with
    | nil => exact fun _ hk => absurd hk (by simp)
    | cons k ks ih =>
      intro ws hk
      unfold getattrs
      rw [PyM.bind_apply]
      by_cases hkd : k ∈ m.dir
      · obtain ⟨v, us, h1, _⟩ := m.getattr_count k hkd ws
        rw [h1]
        dsimp only
        have hk' : n ∈ ks := (List.mem_cons.1 hk).resolve_left fun e => h (e ▸ hkd)
        have := ih (ws ++ us) hk'
        rw [PyM.bind_apply]
        generalize m.getattrs ks (ws ++ us) = p at this
        obtain ⟨e | a, t⟩ := p <;> cases this
        rfl
      · rw [(C94_dir m k ws).2 hkd]
  have hhas : ∀ (ks : List String) ws, ∃ us, m.hasattrs ks ws = (.ok ⟨⟩, us) := by
    intro ks
    induction ks with
    | nil => exact fun ws => ⟨ws, rfl⟩
    | cons k ks ih =>
      intro ws
      have h4 : ∃ us, m.hasattr k ws = (.ok ⟨⟩, us) := by
        unfold hasattr PyM.ignoring
        by_cases hkd : k ∈ m.dir
        · obtain ⟨v, us, h1, _⟩ := m.getattr_count k hkd ws
          exact ⟨ws ++ us, by rw [PyM.bind_ok h1]; rfl⟩
        · exact ⟨ws, by rw [PyM.bind_err ((C94_dir m k ws).2 hkd)]; rfl⟩
      obtain ⟨us, hu⟩ := h4
      obtain ⟨us', hu'⟩ := ih us
      exact ⟨us', by unfold hasattrs; rw [PyM.bind_ok hu, hu']⟩
  unfold importFrom
  cases m.package with
  | false => exact hget ns ws hn
  | true =>
    obtain ⟨us, hu⟩ := hhas ns ws
    rw [if_pos rfl, PyM.bind_ok hu]
    exact hget ns us hn

/-! ### The modules of the package -/

/-- What emitters/__init__.py 8-40 binds (`__getattr__` and `__dir__` besides, and the variables
every module has). -/
def emittersBound : List String :=
  ["Any", "List", "get_deprecated_attr", "choice", "chance", "Choice", "gaussian_choice",
    "poisson_choice", "fixed", "Iterative", "Sequential", "Static", "fromfields", "BasedOnFields",
    "CopyFields", "text", "make_alphabet", "Text", "Word", "wrappers", "WrapOne", "WrapMany",
    "WRAPPERS_DEPRECATED", "__all__", "DEPRECATED"]

/-- `__all__`, emitters/__init__.py 28-35. -/
def emittersAll : List String :=
  ["choice", "chance", "Choice", "gaussian_choice", "poisson_choice", "fixed", "Iterative",
    "Sequential", "Static", "fromfields", "BasedOnFields", "CopyFields", "text", "make_alphabet",
    "Text", "Word", "wrappers", "Wrap", "WrapOne", "WrapMany"]

/-- **C94 (`from fauxdoc.emitters import *`).** Every name of `__all__` is imported, and only `Wrap`
warns (twice). -/
theorem C94_emitters_star (m : PyModule β) (wrap : β) (hp : m.package = true)
    (ha : m.all = emittersAll)
    (hd : m.deprecated = [("Wrap", (some "WrapOne or WrapMany", wrap))])
    (hg : ∀ n ∈ emittersBound, n ∈ m.globals.map Prod.fst) (hw : "Wrap" ∉ m.globals.map Prod.fst)
    (ws : List String) : ∃ vs us, m.importStar ws = (.ok vs, ws ++ us) ∧ us.length = 2 ∧
      vs.length = 20 ∧ vs[17]? = some wrap := by
  have hin : ∀ n ∈ emittersAll, n = "Wrap" ∨ n ∈ emittersBound := by decide
  have hdir : ∀ n ∈ m.all, n ∈ m.dir := by
    intro n hn
    rw [ha] at hn
    rw [mem_dir, hd]
    rcases hin n hn with rfl | h
    · exact .inr (by simp)
    · exact .inl (hg n h)
  obtain ⟨vs, us, h1, h2, h3, h4⟩ := C94_import m m.all hdir ws
  have hold : ∀ n ∈ emittersAll, m.Old n ↔ n = "Wrap" := by
    intro n hn
    constructor
    · intro h
      rcases hin n hn with k | k
      · exact k
      · exact absurd (hg n k) h.1
    · rintro rfl
      exact ⟨hw, by rw [hd]; simp⟩
  have hcount : m.oldCount m.all = 1 := by
    unfold oldCount
    rw [ha, List.countP_congr (q := fun n => decide (n = "Wrap"))
      (fun n hn => by simp only [decide_eq_true_eq]; exact hold n hn)]
    decide
  refine ⟨vs, us, h1, by rw [h2, hcount, hp]; rfl, by rw [h3, ha]; rfl, ?_⟩
  obtain ⟨t, ht⟩ := h4 17 (by rw [ha]; decide)
  rw [← ht]
  have hn : m.all[17]'(by rw [ha]; decide) = "Wrap" := by simp only [ha]; rfl
  rw [hn]
  obtain ⟨w, hw', _⟩ := C94_old m "Wrap" (some "WrapOne or WrapMany") wrap
    ((lookup_none_iff _ _).2 hw) (by rw [hd]; simp) t
  rw [hw']; rfl

/-- `fauxdoc.emitters`, with objects that are their own names. -/
def emittersDemo : PyModule String where
  name := "fauxdoc.emitters"
  package := true
  globals := emittersBound.map fun n => (n, n)
  deprecated := [("Wrap", (some "WrapOne or WrapMany", "_deprecated_Wrap"))]
  all := emittersAll

example : ∃ vs us, emittersDemo.importStar [] = (.ok vs, [] ++ us) ∧ us.length = 2 ∧
    vs.length = 20 ∧ vs[17]? = some "_deprecated_Wrap" :=
  C94_emitters_star emittersDemo _ rfl rfl rfl (by decide) (by decide) []
example : (emittersDemo.getattr "Wrapp" ["w"]) = (.error .attributeError, ["w"]) :=
  (C94_dir emittersDemo "Wrapp" ["w"]).2 (by rw [mem_dir]; decide)
example : emittersDemo.dir.Nodup :=
  (C94_dir_sorted emittersDemo).2 (by decide) (by decide) (by decide)
example : (emittersDemo.importFrom ["Word", "Wrapp"] []).1 = .error .attributeError :=
  C94_import_missing emittersDemo _ "Wrapp" (by decide) (by rw [mem_dir]; decide) []

end Fauxdoc.PyModule
