import Verif.Py.Random
import Mathlib.Data.List.Perm.Basic
import Mathlib.Tactic.Linarith
import Mathlib.Tactic.Positivity
/-
`random.Random` of CPython itself, as an instance of the abstract generator `Rng`: the Mersenne
Twister MT19937 (CPython `Modules/_randommodule.c`), seeding by an integer, `random()`,
`getrandbits`, `_randbelow` and `sample` (`Lib/random.py`, version 3.11).

No theorem rests on this file, except that it shows that the laws which the theorems assume of a
generator are laws of Python's. Its use is in `Verif/Conform`: there the model is run with the very
draws with which the project's own tests run the code.

Simplifications: loops that draw again until the draw is in range are given up after 1000 draws
(CPython would go on); `math.log` is approximated with an error below `2 ^ -60`.
-/
namespace Fauxdoc
namespace Twister

/-- `k x`, in a form that makes the kernel compute `x` first. -/
def force {β : Type} (x : Nat) (k : Nat → β) : β :=
  match x with
  | 0 => k 0
  | n + 1 => k (n + 1)

theorem force_eq {β : Type} (x : Nat) (k : Nat → β) : force x k = k x := by cases x <;> rfl

/-- Reduction to `uint32_t`. -/
def u32 (x : Nat) : Nat := x % 4294967296

/-- The words after the first of `init_genrand`. -/
def genrand : Nat → Nat → Nat → List Nat
  | 0, _, _ => []
  | n + 1, i, prev =>
    force (u32 (1812433253 * (prev ^^^ (prev >>> 30)) + i)) fun x => x :: genrand n (i + 1) x

/-- The state array during `init_by_array`: `mt[i-1]`, the words before `mt[i]` from `mt[1]` on in
reverse order, the words from `mt[i]` on, and the index into the key. -/
structure Init where
  prev : Nat
  done : List Nat
  todo : List Nat
  j : Nat

/-- After the last word, `mt[0] = mt[N-1]` and `i = 1`. -/
def Init.wrap (s : Init) : Init :=
  match s.todo with
  | [] => { s with done := [], todo := s.done.reverse }
  | _ => s

/-- One step of the first loop of `init_by_array`. -/
def Init.step1 (key : List Nat) (s : Init) : Init :=
  match s.todo with
  | [] => s
  | x :: rest =>
    force (u32 ((x ^^^ ((s.prev ^^^ (s.prev >>> 30)) * 1664525)) + key.getD s.j 0 + s.j)) fun y =>
      Init.wrap ⟨y, y :: s.done, rest, if s.j + 1 < key.length then s.j + 1 else 0⟩

/-- One step of the second loop; `i` is the index of the word. -/
def Init.step2 (s : Init) : Init :=
  match s.todo with
  | [] => s
  | x :: rest =>
    force (u32 ((x ^^^ ((s.prev ^^^ (s.prev >>> 30)) * 1566083941)) + 4294967296 -
      (s.done.length + 1))) fun y => Init.wrap ⟨y, y :: s.done, rest, s.j⟩

/-- `k` times. -/
def times (f : Init → Init) : Nat → Init → Init
  | 0, s => s
  | n + 1, s => times f n (f s)

/-- `init_by_array(key)`. -/
def initByArray (key : List Nat) : List Nat :=
  let s := times (Init.step1 key) (max 624 key.length) ⟨19650218, [], genrand 623 1 19650218, 0⟩
  let t := times Init.step2 623 s
  2147483648 :: (t.done.reverse ++ t.todo)

/-- The 32-bit words of a number, the lowest first. -/
def words : Nat → Nat → List Nat
  | 0, _ => []
  | fuel + 1, n => if n = 0 then [] else u32 n :: words fuel (n / 4294967296)

/-- The key for an integer seed: its absolute value. -/
def key (s : Int) : List Nat := if s = 0 then [0] else words (s.natAbs.log2 + 1) s.natAbs

/-- The state: the present array of 624 words, and those of it that were not used yet. -/
structure G where
  block : List Nat
  rest : List Nat

/-- `random.seed(s)`. -/
def ofSeed (s : Int) : G := ⟨initByArray (key s), []⟩

/-- The word for `mt[k]`, `mt[k+1]` and `mt[k+397]` in `genrand_uint32`. -/
def mix (a b c : Nat) : Nat :=
  let y := (a &&& 0x80000000) ||| (b &&& 0x7fffffff)
  c ^^^ (y >>> 1) ^^^ (if y % 2 = 0 then 0 else 0x9908b0df)

/-- `mix` on successive words. -/
def mixes : List Nat → List Nat → List Nat → List Nat
  | a :: as, b :: bs, c :: cs => force (mix a b c) fun x => x :: mixes as bs cs
  | _, _, _ => []

/-- The next array of 624 words. -/
def twist (l : List Nat) : List Nat :=
  let p := mixes l l.tail (l.drop 397)
  let q := mixes (l.drop 227) (l.drop 228) p
  let r := mixes (l.drop 454) (l.drop 455) q
  let front := p ++ (q ++ r)
  front ++ [mix (l.getLastD 0) (front.headD 0) (front.getD 396 0)]

/-- The tempering of `genrand_uint32`. -/
def temper (y : Nat) : Nat :=
  let y := y ^^^ (y >>> 11)
  let y := y ^^^ ((y <<< 7) &&& 0x9d2c5680)
  let y := y ^^^ ((y <<< 15) &&& 0xefc60000)
  u32 (y ^^^ (y >>> 18))

/-- `genrand_uint32`. -/
def next : G → Nat × G
  | ⟨b, y :: r⟩ => (temper y, ⟨b, r⟩)
  | ⟨b, []⟩ =>
    match twist b with
    | [] => (0, ⟨b, []⟩)
    | y :: r => (temper y, ⟨y :: r, r⟩)

/-- `random()`: 53 bits. -/
def random (g : G) : ℚ × G :=
  match next g with
  | (a, g1) =>
    match next g1 with
    | (b, g2) => ((((a >>> 5) * 67108864 + (b >>> 6) : Nat) : ℚ) / 9007199254740992, g2)

/-- `getrandbits(k)`. -/
def getrandbits : Nat → Nat → G → Nat × G
  | 0, _, g => (0, g)
  | fuel + 1, k, g =>
    if k = 0 then (0, g)
    else if k ≤ 32 then ((next g).1 >>> (32 - k), (next g).2)
    else
      let r := getrandbits fuel (k - 32) (next g).2
      ((next g).1 + 4294967296 * r.1, r.2)

/-- The loop of `_randbelow_with_getrandbits`. -/
def randbelowGo (n k : Nat) : Nat → G → Nat × G
  | 0, g => (0, g)
  | fuel + 1, g =>
    let r := getrandbits k k g
    if r.1 < n then r else randbelowGo n k fuel r.2

/-- `_randbelow(n)`. -/
def randbelow (n : Nat) (g : G) : Nat × G := randbelowGo n (if n = 0 then 0 else n.log2 + 1) 1000 g

/-- The loop of `sample` over a pool. -/
def samplePool : Nat → List Nat → G → List Nat × G
  | 0, _, g => ([], g)
  | k + 1, pool, g =>
    let r := randbelow pool.length g
    let s := samplePool k ((pool.set r.1 (pool.getLastD 0)).dropLast) r.2
    (pool.getD r.1 0 :: s.1, s.2)

/-- The inner loop of `sample` with a set of those selected. -/
def sampleNew (n : Nat) (selected : List Nat) : Nat → G → Nat × G
  | 0, g => (((List.range n).find? fun i => !selected.contains i).getD 0, g)
  | fuel + 1, g =>
    let r := randbelow n g
    if selected.contains r.1 then sampleNew n selected fuel r.2 else r

/-- The outer loop; those selected are in reverse order. -/
def sampleSet (n : Nat) : Nat → List Nat → G → List Nat × G
  | 0, selected, g => (selected.reverse, g)
  | k + 1, selected, g =>
    let r := sampleNew n selected 1000 g
    sampleSet n k (r.1 :: selected) r.2

/-- The least power of 4 that is at least `m`, from `p` on. -/
def pow4 : Nat → Nat → Nat → Nat
  | 0, _, p => p
  | fuel + 1, m, p => if m ≤ p then p else pow4 fuel m (4 * p)

/-- `setsize` in `sample`. -/
def setsize (k : Nat) : Nat := 21 + if 5 < k then pow4 (3 * k) (3 * k) 1 else 0

/-- `sample(population of size n, k)` as positions. -/
def sample (n k : Nat) (g : G) : List Nat × G :=
  if n ≤ setsize k then samplePool k (List.range n) g else sampleSet n k [] g

/-- The series of `2 * artanh(t)` in fixed point with 80 bits: `p` is the power of `t`. -/
def artanh2 (t2 : Nat) : Nat → Nat → Nat → Nat
  | 0, _, _ => 0
  | n + 1, d, p => 2 * p / d + artanh2 t2 n (d + 2) (p * t2 / 2 ^ 80)

/-- `-math.log(x)` for `0 < x < 1` in fixed point with 80 bits: `x = m / 2 ^ e` with `m` between 1
and 2, and the logarithm of `m` is `2 * artanh((m-1)/(m+1))`. -/
def neglog (x : ℚ) : Nat :=
  let e := (x.den / x.num.natAbs).log2 + 1
  let m := x.num.natAbs * 2 ^ (80 + e) / x.den
  let t := (m - 2 ^ 80) * 2 ^ 80 / (m + 2 ^ 80)
  e * 837963523372001241319907 - artanh2 (t * t / 2 ^ 80) 30 1 t

/-- `math.log`. -/
def log (x : ℚ) : ℚ := if x < 1 then -((neglog x + 1 : Nat) : ℚ) / 2 ^ 80 else neglog x⁻¹ / 2 ^ 80

/-! ### The laws -/

theorem next_lt (g : G) : (next g).1 < 4294967296 := by
  have h : ∀ y, temper y < 4294967296 := fun y => Nat.mod_lt _ (by norm_num)
  obtain ⟨b, r⟩ := g
  cases r with
  | cons y r => exact h y
  | nil =>
    unfold next
    dsimp only
    split
    · norm_num
    · exact h _

theorem random_eq (g : G) : (random g).1 =
    ((((next g).1 >>> 5) * 67108864 + ((next (next g).2).1 >>> 6) : Nat) : ℚ) / 9007199254740992 :=
  rfl

theorem random_nonneg (g : G) : 0 ≤ (random g).1 := by rw [random_eq]; positivity

theorem random_lt_one (g : G) : (random g).1 < 1 := by
  rw [random_eq, div_lt_one (by norm_num)]
  have h1 := next_lt g
  have h2 := next_lt (next g).2
  have : ((next g).1 >>> 5) * 67108864 + ((next (next g).2).1 >>> 6) < 9007199254740992 := by
    rw [Nat.shiftRight_eq_div_pow, Nat.shiftRight_eq_div_pow]; omega
  exact_mod_cast this

theorem randbelowGo_lt (n k fuel : Nat) (g : G) (hn : 0 < n) : (randbelowGo n k fuel g).1 < n := by
  induction fuel generalizing g with
  | zero => exact hn
  | succ fuel ih =>
    unfold randbelowGo
    dsimp only
    split
    · assumption
    · exact ih _

theorem randbelow_lt (n : Nat) (g : G) (hn : 0 < n) : (randbelow n g).1 < n :=
  randbelowGo_lt n _ _ g hn

/-- Taking an element out of the pool. -/
theorem pool_perm (pool : List Nat) (j : Nat) (hj : j < pool.length) :
    (pool.getD j 0 :: (pool.set j (pool.getLastD 0)).dropLast).Perm pool := by
  obtain ⟨init, z, rfl⟩ : ∃ init z, pool = init ++ [z] :=
    ⟨pool.dropLast, pool.getLast (by intro h; simp [h] at hj),
      (List.dropLast_append_getLast _).symm⟩
  have hl : (init ++ [z]).getLastD 0 = z := by simp
  rw [hl]
  by_cases h : j < init.length
  · have h1 : (init ++ [z]).getD j 0 = init[j] := by
      rw [List.getD_eq_getElem?_getD, List.getElem?_append_left h, List.getElem?_eq_getElem h]; rfl
    rw [h1, List.set_append_left _ _ h, List.dropLast_concat]
    have hs : init = init.take j ++ init[j] :: init.drop (j + 1) := by
      rw [← List.drop_eq_getElem_cons h, List.take_append_drop]
    have h2 : init.set j z = init.take j ++ z :: init.drop (j + 1) := by
      rw [List.set_eq_take_append_cons_drop, if_pos h]
    rw [h2]
    conv_rhs => rw [hs]
    rw [List.append_assoc]
    have p1 : (init[j] :: (init.take j ++ z :: init.drop (j + 1))).Perm
        (init[j] :: (z :: (init.take j ++ init.drop (j + 1)))) :=
      List.Perm.cons _ List.perm_middle
    have p2 : (init.take j ++ (init[j] :: init.drop (j + 1) ++ [z])).Perm
        (init[j] :: (init.take j ++ (init.drop (j + 1) ++ [z]))) := by
      rw [List.cons_append]; exact List.perm_middle
    refine p1.trans (List.Perm.trans (List.Perm.cons _ ?_) p2.symm)
    rw [← List.append_assoc]
    exact (List.perm_append_singleton z _).symm
  · have hj' : j = init.length := by simp at hj; omega
    subst hj'
    have h1 : (init ++ [z]).getD init.length 0 = z := by
      rw [List.getD_eq_getElem?_getD]; simp
    rw [h1, List.set_append_right _ _ (le_refl _), Nat.sub_self]
    simp only [List.set_cons_zero, List.dropLast_concat]
    exact (List.perm_append_singleton z _).symm

theorem samplePool_spec (k : Nat) (pool : List Nat) (g : G) (hk : k ≤ pool.length) :
    (samplePool k pool g).1.length = k ∧ (samplePool k pool g).1.Subperm pool := by
  induction k generalizing pool g with
  | zero => exact ⟨rfl, List.nil_subperm⟩
  | succ k ih =>
    unfold samplePool
    dsimp only
    have hj := randbelow_lt pool.length g (by omega)
    generalize randbelow pool.length g = r at hj
    have hp := pool_perm pool r.1 hj
    have hl := hp.length_eq
    rw [List.length_cons] at hl
    obtain ⟨h1, h2⟩ := ih ((pool.set r.1 (pool.getLastD 0)).dropLast) r.2 (by omega)
    exact ⟨by rw [List.length_cons, h1], ((List.subperm_cons _).2 h2).trans hp.subperm⟩

theorem sampleNew_spec (n : Nat) (selected : List Nat) (fuel : Nat) (g : G)
    (hs : selected.length < n) :
    (sampleNew n selected fuel g).1 < n ∧ (sampleNew n selected fuel g).1 ∉ selected := by
  induction fuel generalizing g with
  | zero =>
    unfold sampleNew
    dsimp only
    have hex : ∃ i ∈ List.range n, (fun i => !selected.contains i) i := by
      by_contra hno
      have hsub : List.range n ⊆ selected := by
        intro i hi
        by_contra hni
        exact hno ⟨i, hi, by simp [hni]⟩
      have := (List.nodup_range (n := n)).subperm hsub |>.length_le
      rw [List.length_range] at this
      omega
    obtain ⟨x, hx⟩ : ∃ x, (List.range n).find? (fun i => !selected.contains i) = some x := by
      rw [← Option.isSome_iff_exists, List.find?_isSome]; exact hex
    rw [hx]
    have h1 := List.mem_of_find?_eq_some hx
    have h2 := List.find?_some hx
    exact ⟨List.mem_range.1 h1, by simpa using h2⟩
  | succ fuel ih =>
    unfold sampleNew
    dsimp only
    split
    · exact ih _
    · rename_i h
      exact ⟨randbelow_lt n g (by omega), by simpa using h⟩

theorem sampleSet_spec (n k : Nat) (selected : List Nat) (g : G) (hk : selected.length + k ≤ n)
    (hd : selected.Nodup) (hs : ∀ i ∈ selected, i < n) :
    (sampleSet n k selected g).1.length = selected.length + k ∧ (sampleSet n k selected g).1.Nodup ∧
      ∀ i ∈ (sampleSet n k selected g).1, i < n := by
  induction k generalizing selected g with
  | zero =>
    exact ⟨List.length_reverse, List.nodup_reverse.2 hd, fun i hi => hs i (List.mem_reverse.1 hi)⟩
  | succ k ih =>
    unfold sampleSet
    dsimp only
    obtain ⟨h1, h2⟩ := sampleNew_spec n selected 1000 g (by omega)
    generalize sampleNew n selected 1000 g = r at h1 h2
    have := ih (r.1 :: selected) r.2 (by rw [List.length_cons]; omega) (List.nodup_cons.2 ⟨h2, hd⟩)
      (by intro i hi; rcases List.mem_cons.1 hi with rfl | hi; exact h1; exact hs i hi)
    rw [List.length_cons] at this
    exact ⟨by omega, this.2⟩

theorem sample_spec (n k : Nat) (g : G) (hk : k ≤ n) :
    (sample n k g).1.length = k ∧ (sample n k g).1.Nodup ∧ ∀ i ∈ (sample n k g).1, i < n := by
  unfold sample
  split
  · obtain ⟨h1, h2⟩ := samplePool_spec k (List.range n) g (by rw [List.length_range]; exact hk)
    refine ⟨h1, ?_, fun i hi => List.mem_range.1 (h2.subset hi)⟩
    obtain ⟨l, hp, hs⟩ := h2
    exact hp.nodup_iff.1 (hs.nodup List.nodup_range)
  · have := sampleSet_spec n k [] g (by simpa using hk) List.nodup_nil (by simp)
    simpa using this

theorem log_neg (x : ℚ) (h1 : x < 1) : log x < 0 := by
  unfold log
  rw [if_pos h1]
  apply div_neg_of_neg_of_pos
  · have : (0 : ℚ) < ((neglog x + 1 : Nat) : ℚ) := by exact_mod_cast Nat.succ_pos _
    linarith
  · positivity

end Twister

/-- CPython's generator satisfies the laws that the theorems assume. -/
def pyRng : Rng ℚ where
  G := Twister.G
  ofSeed := Twister.ofSeed
  ofEntropy i := Twister.ofSeed i
  random := Twister.random
  randbelow := Twister.randbelow
  sample := Twister.sample
  log := Twister.log
  random_nonneg := Twister.random_nonneg
  random_lt_one := Twister.random_lt_one
  randbelow_lt := Twister.randbelow_lt
  sample_length n k g h := (Twister.sample_spec n k g h).1
  sample_nodup n k g h := (Twister.sample_spec n k g h).2.1
  sample_lt n k g h := (Twister.sample_spec n k g h).2.2
  log_neg x _ h := Twister.log_neg x h

end Fauxdoc
