import Verif.Model.MathTools
import Verif.Py.Val
/-
Model of `/repo/src/fauxdoc/emitters/text.py`.

The classes are written over an arbitrary state `σ` (the rest of the world) and arbitrary child
emitters: a child is the computation that happens when it is called, `none` standing for a call
without argument.  Attribute reads of children are passed in as computations as well.
-/
namespace Fauxdoc

/-- Calling an emitter-like object: the argument is absent or a value. -/
abbrev Child (σ : Type) := Option Val → PyM σ Val

/-- `Emitter.__call__`, emitter.py 74-102, for a class with the given `emit` and `emit_many`.
`bad` is what `emit_many` does with a number that is neither `None` nor an integer. -/
def emitterCallOr {σ : Type} (bad : Val → PyM σ Val) (emit : PyM σ Val)
    (emitMany : Int → PyM σ (List Val)) : Child σ
  | none => emit
  | some .none => emit
  | some v =>
    match v.asInt with
    | none => bad v
    | some n =>
      if n = 1 then do return .list [← emit]
      else do return .list (← emitMany n)

/-- `Emitter.__call__` of a class whose `emit_many` answers a number that is not an integer with a
`TypeError` and no effect (`Static`, fixed.py 55). -/
abbrev emitterCall {σ : Type} (emit : PyM σ Val) (emitMany : Int → PyM σ (List Val)) : Child σ :=
  emitterCallOr (fun _ => PyM.raise .typeError) emit emitMany

/-! ### make_alphabet -/

/-- The default ranges, text.py 31-34. -/
def defaultRanges : List (Int × Int) :=
  [(0x0021, 0x0021), (0x0023, 0x0026), (0x0028, 0x007E), (0x00A1, 0x00AC), (0x00AE, 0x00FF)]

/-- `range(start, end + 1)`. -/
def codesOf (start stop : Int) : List Int :=
  (List.range (stop + 1 - start).toNat).map fun (k : Nat) => start + (k : Int)

/-- `chr(code)` as a code point: `ValueError` outside Unicode. -/
def pyChr (code : Int) : Py Int :=
  if 0 ≤ code ∧ code ≤ 0x10FFFF then .ok code else .error .valueError

/-- `make_alphabet`, text.py 11-38; characters are their code points. -/
def makeAlphabet (ranges : Option (List (Int × Int))) : Py (List Int) :=
  let rs := match ranges with
    | none => defaultRanges
    | some [] => defaultRanges
    | some (r :: rs) => r :: rs
  mapPy pyChr (rs.flatMap fun r => codesOf r.1 r.2)

/-! ### Word -/

namespace Word
variable {σ : Type}

/-- The loop of `emit_many`, text.py 145-149, from character position `ci`. -/
def partition (chars : List Val) : Int → List Int → Py (List Val)
  | _, [] => .ok []
  | ci, n :: ns => do
    let w ← joinEmpty (pyListSlice1 chars ci (ci + n))
    let ws ← partition chars (ci + n) ns
    return .str w :: ws

/-- `emit`, text.py 132-134. -/
def emit (length alphabet : Child σ) : PyM σ Val := do
  let n ← length none
  let cs ← alphabet (some n)
  let l ← PyM.lift cs.elems
  return .str (← PyM.lift (joinEmpty l))

/-- `emit_many`, text.py 136-150. -/
def emitMany (length alphabet : Child σ) (number : Int) : PyM σ (List Val) := do
  let lengths ← length (some (.int number))
  let ls ← PyM.lift lengths.elems
  let (ns, total) ← PyM.lift (sumInts ls)
  let cs ← alphabet (some (.int total))
  let chars ← PyM.lift cs.elems
  PyM.lift (partition chars 0 ns)

/-- `emit_many` with a number that is not an integer: the length emitter gets it first (text.py
143).  No emitter answers such a call (`call_bad`), so nothing after that is reached. -/
def emitBad (length : Child σ) (v : Val) : PyM σ Val := do
  let _ ← length (some v)
  PyM.raise .typeError

/-- `word()` and `word(n)`. -/
def call (length alphabet : Child σ) : Child σ :=
  emitterCallOr (emitBad length) (emit length alphabet) (emitMany length alphabet)

end Word

/-- `base ** exponent` for an exponent that is an integer value (exact; Python gives a float for
negative exponents). -/
def pyPow (base : ℚ) (exponent : Val) : Py ℚ :=
  match exponent.asInt with
  | none => .error .typeError
  | some (.ofNat n) => .ok (base ^ n)
  | some (.negSucc n) => if base = 0 then .error .zeroDivision else .ok (1 / base ^ (n + 1))

/-- `_update_num_unique_vals` of `Word`, text.py 108-114, from the alphabet's `num_unique_values`
and the length emitter's `items` (`none`: no such attribute). -/
def wordNumUnique (nchars : Option ℚ) (items : Option (List Val)) : Py (Option ℚ) :=
  match nchars, items with
  | some q, some is => do return some (← mapPy (pyPow q) is).sum
  | _, _ => .ok none

/-- `_update_num_unique_vals` of `Text`, text.py 212-224. -/
def textNumUnique (nwords nseps : Option ℚ) (items : Option (List Val)) : Py (Option ℚ) :=
  match nwords, nseps, items with
  | some w, some s, some is => do
    let nums ← mapPy (fun v => do
      let a ← pyPow w v
      let i ← v.toInt
      let b ← pyPow s (.int (i - 1))
      return a * b) is
    return some nums.sum
  | _, _, _ => .ok none

/-! ### Text -/

namespace Text
variable {σ : Type}

/-- State of the word iterator of `_get_words_iterator` (text.py 242-274): either an iterator over
an already drawn list, or the generator: inside a block of `needed` words with `remainder` still to
produce (counting this block), `buf` being the unread rest of the block; `needed = 0` before the
first block. -/
inductive WordsIter where
  | drawn (l : List Val)
  | blocks (numUnique remainder needed : Int) (buf : List Val)

/-- What `Text` can do with its word emitter: call it, reset it, and find out whether it has
`replace_only_after_call` set, in which case `roac` gives `num_unique_values or 0`. -/
structure WordChild (σ : Type) where
  call : Child σ
  reset : PyM σ Unit
  roac : PyM σ (Option Int)

/-- `_get_words_iterator(total)`, text.py 242-274. -/
def getWordsIterator (word : WordChild σ) (total : Int) : PyM σ WordsIter := do
  let drawAll : PyM σ WordsIter := do
    let ws ← word.call (some (.int total))
    return .drawn (← PyM.lift ws.elems)
  match ← word.roac with
  | none => drawAll
  | some numUnique =>
    if numUnique ≠ 0 ∧ total > numUnique then return .blocks numUnique total 0 []
    else drawAll

/-- One turn of the `while remainder > 0` loop (text.py 265-272): draw the next block.  `fuel`
bounds the number of empty blocks skipped. -/
def nextBlock (word : WordChild σ) (numUnique : Int) : Nat → Int → PyM σ (Val × WordsIter)
  | 0, _ => PyM.raise .diverges
  | fuel + 1, remainder => do
    if remainder > 0 then do
      let needed := clamp numUnique none (some remainder)
      let ws ← word.call (some (.int needed))
      match ← PyM.lift ws.elems with
      | v :: rest => return (v, .blocks numUnique remainder needed rest)
      | [] => do
        word.reset
        nextBlock word numUnique fuel (remainder - needed)
    else PyM.raise .stopIteration

/-- `next(words)`.  At the end of a block the generator resets the word emitter (text.py 270) before
it goes on. -/
def nextWord (word : WordChild σ) : WordsIter → PyM σ (Val × WordsIter)
  | .drawn [] => PyM.raise .stopIteration
  | .drawn (v :: l) => return (v, .drawn l)
  | .blocks nu rem needed (v :: buf) => return (v, .blocks nu rem needed buf)
  | .blocks nu rem needed [] => do
    if needed = 0 then nextBlock word nu (rem.toNat + 1) rem
    else do
      word.reset
      nextBlock word nu ((rem - needed).toNat + 1) (rem - needed)

/-- `next(seps, ' ')`. -/
def nextSep : List Val → Val × List Val
  | [] => (.str [' '], [])
  | s :: l => (s, l)

/-- The loop over `range(1, length)`, text.py 294-295: `k` more separator/word pairs. -/
def renderRest (word : WordChild σ) : Nat → WordsIter → List Val → PyM σ (List Val × WordsIter × List Val)
  | 0, wi, seps => return ([], wi, seps)
  | k + 1, wi, seps => do
    let (s, seps) := nextSep seps
    let (w, wi) ← nextWord word wi
    let (r, wi, seps) ← renderRest word k wi seps
    return (s :: w :: r, wi, seps)

/-- The loop over `lengths`, text.py 291-296: a length of zero is skipped; the first word is drawn
for every other length. -/
def renderAll (word : WordChild σ) : List Int → WordsIter → List Val → PyM σ (List Val)
  | [], _, _ => return []
  | n :: ns, wi, seps => do
    if n = 0 then renderAll word ns wi seps
    else do
      let (w, wi) ← nextWord word wi
      let (r, wi, seps) ← renderRest word (n - 1).toNat wi seps
      let t ← PyM.lift (joinEmpty (w :: r))
      let ts ← renderAll word ns wi seps
      return .str t :: ts

/-- `emit_many`, text.py 280-297. -/
def emitMany (numwords : Child σ) (word : WordChild σ) (sep : Child σ) (number : Int) :
    PyM σ (List Val) := do
  let lengths ← numwords (some (.int number))
  let ls ← PyM.lift lengths.elems
  let (ns, total) ← PyM.lift (sumInts ls)
  let wi ← getWordsIterator word total
  let ss ← sep (some (.int (total - number)))
  let seps ← PyM.lift ss.elems
  renderAll word ns wi seps

/-- `emit`, text.py 276-278. -/
def emit (numwords : Child σ) (word : WordChild σ) (sep : Child σ) : PyM σ Val := do
  let ts ← emitMany numwords word sep 1
  PyM.lift (pyListGet ts 0)

/-- `text()` and `text(n)`.  A number that is not an integer goes to the emitter of word counts
first (text.py 287), as in `Word`. -/
def call (numwords : Child σ) (word : WordChild σ) (sep : Child σ) : Child σ :=
  emitterCallOr (Word.emitBad numwords) (emit numwords word sep) (emitMany numwords word sep)

end Text
end Fauxdoc
