# Formal model of fauxdoc in Lean 4 — design

`/repo` (Python, `src/fauxdoc`) is read as text and never executed.  `lean/Verif` contains a
model of it, specifications that do not use the model's helpers, and proofs.

## 1. Layout

| directory | content |
|---|---|
| `Verif/Py/*` | the Python substrate: exceptions as values, state+exception monad, values, slices, ordered dicts, `random.Random` as an abstract interface with laws |
| `Verif/Model/*` | the fauxdoc functions, one definition per Python function, each citing file and lines |
| `Verif/Spec/*` | small specifications written without the model's helper functions |
| `Verif/Proofs/*` | lemmas |
| `Verif/Props/*` | the property theorems (named `Cnn_...`), one file per area, with non-vacuity `example`s |
| `Verif/Conform/*` | the project's own tests, run on the model (tests, not proofs; section 8) |

`properties.jsonl` is generated by `tools/gen_properties.py`, `MANIFEST.json` by
`tools/gen_manifest.py`.

## 2. Method

* Shallow model: each Python function is a Lean function mirroring it branch by branch.
  Python exceptions are values (`Err`); mutable state is threaded explicitly and *kept* when an
  exception is raised (`PyM σ α := σ → Except Err α × σ`), so exception safety can be stated.
* Non-termination of a Python loop is a special error value `Err.diverges`; theorems show that it
  is not produced.  Recursion through user-built object graphs is driven by fuel (= Python's
  recursion limit); theorems hold for every fuel and running out is `RecursionError`.
* `random.Random` is an arbitrary state type `G` with operations (`random`, `randbelow`, `sample`,
  construction from a seed or from OS entropy) and laws (`0 <= random() < 1`, `randbelow n < n`,
  `sample` returns distinct positions).  All theorems quantify over every such generator, i.e. over
  every stream.  A concrete generator is exhibited to show the laws are satisfiable.
* Numbers: weights are elements of an arbitrary ordered field (rationals, reals).  Floating point
  is a second layer on top, see "Floating point" below.
* If the code violates a property, the negation is proved on a concrete witness (name
  `..._violated`) and the true part is proved under a `..._partial` name.

## 3. What is modelled / not modelled

Modelled: everything in `src/fauxdoc` that computes: `mathtools`, `dtrange`, `emitter`, `mixins`,
`group`, all `emitters/*`, `profile`, `warn`.

| module | models | remarks |
|---|---|---|
| `Py/Core`, `Py/Rel` | exceptions, the state monad `PyM`, `finally`, relational and Hoare-style combinators | the state survives an exception |
| `Py/Val` | dynamic values: `None`, bool, int, str (list of characters), list, tuple, opaque | equality is structural (`True == 1` is not) |
| `Py/Dict` | insertion-ordered dicts with string keys | |
| `Py/Slice` | `range` objects, slice normalisation, list indexing and slicing | |
| `Py/Random` | `random.Random` as an interface with laws; CPython's `choices`, `choice`, `bisect` on top | see section 2 |
| `Py/Twister` | CPython's own generator (MT19937, seeding, `random`, `getrandbits`, `_randbelow`, `sample`) as an instance of that interface | no theorem rests on it; `log` approximated with error below 2^-60 |
| `Model/MathTools` | `mathtools.py` | densities over the reals; everything else over any ordered field |
| `Model/DtRange` | `dtrange.py` and the used part of `datetime` | naive values; a time is microseconds since midnight, a date its ordinal |
| `Model/Choice`, `ChoiceVal` | `emitters/choice.py` with the mixins it inherits | as a state machine over attribute assignments |
| `Model/Fixed` | `emitters/fixed.py` | an iterator factory gives the same stream on every call |
| `Model/IterFactory` | `emitters/fixed.py`, `Iterative` | factories and iterators are arbitrary computations on a state, but do not use the emitter; refines `Model/Fixed` (`C84_constant`) |
| `Model/Alias` | `profile.py`, `emitters/fromfields.py`, `emitters/wrappers.py`, `emitter.py` | lists are objects with an address; what emitters without children emit is arbitrary; callbacks see the value of their arguments, return them, atoms, or a new list of these, and change nothing; other mutable objects are left out |
| `Model/Text` | `emitters/text.py`, `Emitter.__call__` | over arbitrary child emitters and an arbitrary state |
| `Model/Wrappers` | `emitters/wrappers.py`; `inspect.Signature.bind` and Python's own argument binding | the two are modelled separately and proved to agree |
| `Model/FromFields` | `emitters/fromfields.py` | over arbitrary source fields |
| `Model/Profile` | `profile.py` | |
| `Model/Group`, `Model/Warn` | `group.py`, `warn.py` | |
| `Model/TotalSeconds` | `timedelta.total_seconds()` | the nearest double, ties to even, as a multiple of 2^-72 (exact; `totalSeconds_nearest`) |
| `Py/Double`, `Model/ChoiceFloat`, `Model/ShuffleFloat`, `Model/Pdf` | doubles; `weighted_shuffle`, weighted picks, `chance`, `poisson`, `gaussian` and the choices built on them, with rounding | see Floating point |
| `Model/DtAware` | `dtrange.py` for aware and naive values | a `tzinfo` is a fixed offset of whole seconds; no daylight saving time, no `fold` |
| `Model/DtZone` | `dtrange.py` for datetimes in zones whose offset changes, with `fold` | datetimes only; a `tzinfo` object is a number; `utcoffset()` is any function of the clock reading and `fold` |
| `Model/DtRangeObj` | `DateOrTimeRange` as a mutable object: setters, constructor, caches, `reversed` | arguments by what `int()`, `isinstance` and `range()` do with them |
| `Model/Rebind` | `BoundWrapper.__init__`, `set_wrapper_function` | any callable with an attribute `function` counts as a wrapper |
| `Model/GroupList` | the operations `ObjectGroup` inherits from `UserList` | from CPython 3.11's source; sorting, comparison and removal are left out |
| `Model/BadSeed` | `mixins.py`, `seed` and `reset` of `choice.py`, `text.py`, `profile.py` | only what the classes do with seeds; the rest of an object is arbitrary, and so is what it does last in `reset` and `seed` |
| `Model/Names` | `emitters/__init__.py` 38-54, `emitters/wrappers.py` 416-429, `typing.py` 117-132 | module attributes, `dir` and from-imports; objects are arbitrary |
| `Model/LiveSeq` | `emitters/fixed.py` 201-319 | `Sequential` with lists in a heap that the user may change, and list iterators as an index; factories are the constructor's or `lambda: iter(x)` |
| `Model/DtText` | `dtrange.py` `__repr__`; `str` of dates, times, datetimes, timedeltas (`Lib/datetime.py`) | naive values |
| `Model/DtIso` | `fromisoformat` as called in `dtrange.py` `_parse_user_date` | forms documented for Python 3.7 to 3.10, naive values |
| `Model/DtStep` | `dtrange.py` `dtrange` with a float as `step`; `timedelta` of a float (`_datetimemodule.c`) | rounding to doubles is a parameter (`Py/Double`) |
| `Model/GroupMap` | `group.py` `ObjectMap` with the operations it has from `OrderedDict`; `do_method` of `ObjectMap` and of an `ObjectGroup` that changes meanwhile | keys are strings; members are opaque; live iteration with fuel, `none` = still running |
| `Model/Classes` | `mixins.py`, `emitter.py` `reset`: `__init__`, `reset` and `seed` as chains of `super()` calls; class statements and C3 (`typeobject.c`) | an instance is its four attributes and a part of the user; children are opaque; methods of the user change only their own part |
| `Model/Interrupt` | `Model/World` with a clock: `KeyboardInterrupt` during calls, `reset` and `seed` (`emitter.py`, `mixins.py`, `group.py`, `profile.py`, `fixed.py`) | the clock is looked at before and after each step (method of an object, assignment of a seed or generator); what an interrupt within a step leaves behind is an arbitrary function on the object struck that keeps its configuration and last value; a generator an exception passes through is finished, as in CPython; constructors and assignments by the user are not interrupted |
| `Model/PySet` | mixins.py 92-95, choice.py 268-294 | `len(set(items))` with Python's equality and hashes of values; `Model/Choice` compares structurally, which is the same where no values of different types are equal (C109_structural) |
| `Model/WrapObj` | wrappers.py 64-122 | `BoundWrapper` objects with their attributes, which can be assigned and shared; `Model/Wrappers` has a wrapper whose function never changes |
| `Model/OverAsk` | emitter.py 52-64 | text of the message; `raise_complaint` shows that `Model/Choice` raises accordingly |
| `Model/LiveSchema` | profile.py 201-318 (`Schema` as an object), group.py 87-111 | maps in a heap, with the change counter of CPython 3.11 `OrderedDict` iterators; fields are any behaviour that acts on the heap |
| `Model/Abstract` | emitter.py 8, 111-117, wrappers.py 157-204; `_abc__abc_init` and `object.__new__` of CPython | `source` of `Wrap.__init__` is the argument `children`; its wrapper is a part of the user |
| `Model/World` | all classes together: a store of objects referring to each other | instantiates the class models with "the whole store" as state |

Classes are modelled twice on purpose: once alone, over *arbitrary* children and an *arbitrary*
state (`Text`, `Wrappers`, `FromFields`, `Profile`), and once tied together in the object store
(`World`), where children are library objects nested to any depth, shared, or even cyclic.

Simplifications, each also noted at the definition:

* iterator factories are constant and their iterators do not raise (except in `Model/IterFactory`);
* every value other than a list (or a tuple containing one) is hashable;
* `pyPow` with a negative exponent is exact;
* characters of `make_alphabet` are code points;
* a callback is a function of its arguments and, if it declares `rng`, of the generator it is given;
* a wrapper function is bound to the emitter it was given to (as the library itself always does);
* child emitters are instances of the library classes, not user-defined emitters (in the store
  model; the class models allow anything);
* Python's `str()` is a parameter;
* seeds are integers or None; other valid seeds (strings, floats, bytes) can be read as numbers for them,
  since what generator a seed gives is a parameter (`Rng.ofSeed` is any function);
* warning filters are not modelled; `len()` above `sys.maxsize` is not modelled;
* the loop of `_faster_for_low_k` gets as many rounds as it can need when weights are non-negative
  (proved); with negative weights running out of rounds is reported as divergence.

Modelled separately, not in the main object graph: zones with daylight saving time and `fold` (C90),
equality across types such as `True == 1` (`Model/PySet`, C109), lists changed by the user (`Model/Alias`,
`Model/LiveSeq`, C86, C91, C93, C95), seeds that are refused (`Model/BadSeed`, C92), interrupts
(`Model/Interrupt`, C105).

Not modelled: static typing (`typing.py` protocols), docstrings, infinities, NaN as a weight, user
callbacks with hidden global state, memory limits, multi-threading.

### Floating point

The state machines (`Model/Choice` and everything built on it) compute with exact weights.  Rounding
is modelled where it decides something:

* `Py/Double`: `IsDouble` (multiples `m * 2^e` with `|m| <= 2^53`, `e >= -1074`; the exponent has no
  upper bound) and `Rounding`, *any* function that gives a nearest double, is odd and breaks ties to
  even.  Theorems quantify over every such function; `rounding K` is one (computable), so the laws
  can be satisfied.
* `Model/ChoiceFloat`: `accumulate`, `de_cumulate`, `random.choices` and `chance` with every
  operation followed by a rounding function `fl`.  With `fl = id` they are the exact definitions
  (`accumulateFl_id`, `choicesCumFl_id`, ...).
* `Model/Pdf`: `poisson`, `gaussian`, `poisson_choice`, `gaussian_choice` with rounding, underflow and
  `OverflowError`.  `math.exp`, `math.sqrt` and float `**` are assumed to be correctly rounded (C
  libraries promise a little less).
* `Model/ShuffleFloat`: `weighted_shuffle`; the sums, products and quotients are rounded, `math.log` is
  a parameter.  `C21_float_monotone` holds for every monotone `fl`, so also for one that maps
  everything beyond the largest double to the same value.
* `Model/TotalSeconds`: `timedelta.total_seconds()`.

Infinities do not arise in the rounding model: a sum or product beyond the largest double simply
stays finite.  Only the operations Python raises `OverflowError` for are checked (`toFloat`).

### Frameworks for whole programs

* `Spec/World`: `Below` (child reachability), configuration/shape/freshness of objects, histories of
  uses (`History`, `LongHistory`).  The proofs go by induction on the recursion budget, with step
  relations for `reset`, `seed` and `call` (`Proofs/World*`).
* `Spec/Contract`: what an emitter must answer (`Answers`), and what each object contributes to
  emitting only values of a declared set (`Attrs.Typed`, with `Spelled` and `Rendered` for the exact
  sets of `Word` and `Text`).
* `Spec/Build`: `Built`, the stores any program can bring about, with constructors, calls and
  assignments in any order and exceptions on the way.  C29 and C60 are inductions over it.
* `Spec/Program`: `Steps`, programs without attribute assignments, and `Emits`, the values an object
  can emit read off the object graph alone.  C61 counts them.
* `Spec/Halt`: conditions under which nothing can go on forever (`EndsOn`: no object is below itself,
  weights are not negative, callbacks end).  C62 and C63 (`Props/Halt`, `Props/Halt2`) use them; C63
  also justifies the recursion budget of the model, which is not in the Python code.

* `Model/Assign`, `Spec/Assign`: assignments that replace references between objects (child emitters,
  source fields) or plain attributes of fields.  They are steps of `Built`, so C29 and C60 hold for
  programs that use them; C64, C65 and C66 say what they do.  `reset_source` and `seed_source` are
  sequences of steps all programs may take (`C69_history`).

The Python standard library facts relied on (`random.choices`, `bisect`, `islice`, `Signature.bind`,
`datetime` arithmetic) were compared with CPython 3.11 by running the *library functions* on samples
(`tools/sigtest.py` for signatures); the repository itself was never run.

## 4. Trusted base

The Lean 4.33 kernel; Mathlib; the axioms `propext`, `Classical.choice`, `Quot.sound` (and no
other, see section 6); the reading of Python semantics recorded in comments beside each
definition; the RNG laws (`random` in [0,1), `_randbelow n` below n, `sample` gives distinct
positions, `log` negative below 1 — satisfiable, see `Py/RngDemo`, and met by CPython's generator,
see `Py/Twister`).

## 5. Property by property

| id | what is modelled | how proved |
|---|---|---|
| C01 | `dtrange` for dates/datetimes as bounded integers (ordinals/microseconds), `timedelta` with its overflow | closed form of the ceiling division gives list = filter of progression; induction on length |
| C02 | same | violated: universal negation theorem + partial (iteration yields nothing) |
| C03 | times modulo 24h | arithmetic modulo; violated for full clock + negative step; partial for the rest |
| C04 | `__getitem__` on integers | case analysis |
| C05 | `index`/`__contains__`/`count` with bounds | floor-division arithmetic; violated witnesses for > 24h hand-made ranges and for date steps that are no whole days |
| C06 | Python slice normalisation, slices of ranges and of lists | arithmetic on slice indices; witnesses for the overflow and >= 24h cases and for date steps that are no whole days |
| C07 | `__eq__`, `__hash__` | list extensionality; witness for the converse |
| C08 | step setter with `total_seconds()` as a rounded double (`Model/TotalSeconds`) | error bounds of rounding; exact below 2^34 s; violated beyond (witness, and exact condition `C08_rounded_iff`) |
| C09 | `random.choices`/`random.choice` as in CPython incl. `bisect` | binary search specification |
| C10 | same over the reals; with doubles (`Props/ChoiceFloat`) | interval characterisation; Lebesgue measure of the selecting set; rounding of a product with `u <= 1 - 2^-53` stays below the total; witnesses for subnormal and absorbed weights |
| C11 | `chance`, exact and with doubles | specialisation of C10; `p + (1 - p)` rounds to 1 for all `p` of size up to 2^53 - 1; violated from 2^54 on; ties in between (`C11_float_iff`) |
| C16 (floats) | `de_cumulate` with rounding | induction if differences are doubles; witness otherwise |
| C12 | Choice as a state machine over arbitrary operation histories | invariant by induction over histories |
| C13, C17 | same | decision logic; items that cannot be hashed break the message and the counters (`Props/Unhashable.lean`) |
| C14 | `sample` contract, `weighted_shuffle` | C20 + case analysis |
| C15–C17 | Choice state machine | invariants by induction over histories |
| C18 | two runs of the state machine | relational induction over histories |
| C19 | same | witness + partial |
| C20 | both algorithms of `weighted_shuffle` | termination measure; permutation of the sort |
| C14, C19, C20, C43 | same | exact conditions of the violations (`Props/Exact.lean`): which draws and weights fail, what a failed `replace = False` leaves, which values are not copied |
| C21 | score-based algorithm, two runs | coupling; rank counting |
| C22 | `clamp` | order reasoning |
| C23 | real-valued densities; computed floats (`Props/PdfFloat`) | analysis with Mathlib; composition of relative errors; exact overflow condition; underflow witnesses |
| C24 | weight construction of `poisson_choice`/`gaussian_choice` with floats | order reasoning; exact conditions |
| C25 | Static | direct, histories; `Props/StoreCounts` for programs |
| C26–C28 | generator state of Iterative/Sequential | simulation by a position in the cyclic stream; invariants over histories |
| C29 | heap of objects of all classes, arbitrary nesting and sharing | induction on fuel |
| C30 | Word over arbitrary child emitters | list partition |
| C31 | counting of words | cardinality of finite sets |
| C32 | Text over arbitrary child emitters, including its lazy word generator | list partition |
| C33 | same | witness + partial |
| C34 | counting of texts | cardinality |
| C35 | word generator over a Choice | C14 per block |
| C36 | make_alphabet | list membership |
| C37, C38 | wrappers over arbitrary sources and callbacks | equational |
| C39 | wrapper construction in the heap model | relational (reset determinism) |
| C40, C41 | Python signature binding | case analysis, witness |
| C42, C43 | CopyFields | independent flattening spec; witness |
| C44, C45 | BasedOnFields | equational; witness |
| C46–C48 | Field | case analysis, invariants over histories; witness |
| C49–C51 | Schema | induction over field list |
| C52 | two schemas in the heap model | frame + relational induction |
| C53 | seeding in the heap model | induction on fuel/graph |
| C54, C55 | reset/seed in the heap model | relational induction; witnesses for C55 |
| C56, C57 | heap model | Hoare-style preservation by induction on fuel |
| C58 | GroupMixin | induction over members |
| C59 | get_deprecated_attr | case analysis |
| C60 | all programs (`Built`) | invariant by induction over programs, with `Attrs.Typed` for every object |
| C61 | programs without assignments (`Steps`) | values read off the graph (`Emits`) are counted; induction over construction order; `Props/StoreCounts`: `Sequential` exactly |
| C62 | recursion budget and endless loops are outcomes of their own (`Err.recursion`, `Err.diverges`) | `Halts` beside the contracts of C60, induction on the budget with a depth function |
| C63 | same | relational induction for two budgets (`Proofs/Fuel`) |
| C64 | assignments of references (`Model/Assign`) | frames of C57 and reset/seed; reachability before and after |
| C65 | `set_source_fields`, `separator` | one-object update plus C42, C44 in the new store |
| C66 | `name`, `hide` of fields | relational induction between a store and its relabelling (`Proofs/Relabel`) |
| C67 | argument handling of `dtrange`; ISO parsers are parameters | case analysis, integer arithmetic |
| C68 | `stop` attribute | progression arithmetic of C01; violated at the calendar's end and for times |
| C69 | `reset_source`, `seed_source` on the heap (`Model/Assign`) | the sweep of C58 with the frames and the freshness of C53 as invariants |
| C70 | `weighted_shuffle`, `Choice` over the reals | large numbers: volume of the chains `v0^(1/w0) > v1^(1/w1) > ...` by iterated integration, up to ties; small numbers: the loop as a tree of single weighted picks (`Proofs/DrawTree`), whose probabilities are sums over branches; `(w(B)/T) S(r) + (w_x/T) S(r') = S(r)` for a pick that may repeat |
| C71 | `Choice` without weights | C70 with equal weights; intervals of length 1/n |
| C72 | `ObjectGroup` as a list (`Model/GroupList`) | equational; violated by every operation that builds a new group |
| C73 | `DateOrTimeRange` objects (`Model/DtRangeObj`) | invariant over histories of attribute accesses |
| C74 | `DateOrTimeRange.__init__` with any arguments | case analysis; violated for lengths that are castable but no ints, and for long date steps (C08) |
| C75 | `BoundWrapper` of a `BoundWrapper` (`Model/Rebind`) | induction over rebindings; frame |
| C76 | calls with a number that is neither `None` nor an int, any object graph (`Props/BadNumber`) | case analysis; induction over who is asked first |
| C77 | `random.choices` and the 42% test with doubles (`Props/ChoiceFloat`) | gap between neighbouring doubles; error of one rounding against distance from an integer |
| C78 | `poisson_choice`, `gaussian_choice` with `replace=False` | C20 (exact) + underflow of the density |
| C79 | picks and `chance` with doubles, over the `2^53` values of `random()` (`Props/FloatProb`) | draws below a bound are an initial segment up to one draw; error of a running sum, one rounding per step, each at most `total / 2^53` |
| C80 | date/time ranges with `tzinfo` (`Model/DtAware`, `Props/DtAware`) | the naive model tagged with an offset: every operation commutes with tagging, lookups with a shift of the clock; times lose the tag |
| C81 | negative numbers of values (`Props/Negative`, `Props/NegativeStore`) | `Choice` at every state of a run (the slice and the index computed exactly); the store by induction on who is asked first |
| C82 | batches against single calls (`Spec/Batch`, `Proofs/Batch`–`Batch4`, `Props/Batch`) | calls of objects that have nothing in common can be exchanged (`Acts.swap`); with that, `SplitsAt` by induction over the graph |
| C83 | `Choice` over two item types (`Props/Natural`) | each operation commutes with mapping the items (`Same`), by composition; positions are one more item type |
| C84 | `Iterative` with a record of what its factory and iterators are asked (`Props/IterFactory`) | `Orderly` events for one step, a batch, many calls; the record changes nothing (`SameBut`); relation with `Model/Fixed` for constant factories (`SameConst`) |
| C85 | fields over a history of documents (`Spec/DocSet`, `Props/DocSet`) | `Streams`: calls of an emitter continue one list; lifted through field, document and history with the frame theorems of C57; then `Choice.Good`, `AtPos` |
| C86 | list objects in a memory (`Model/Alias`, `Spec/Alias`, `Props/Alias`) | frame (`Untouched`) through all emitters; two runs related by `Same` (values that look alike and consist of new lists), for any changes by the user in between |
| C87 | two stores, or one, with a map of references (`Spec/Copies`, `Proofs/Copies`, `Props/Copies`) | `Twin`: objects equal up to the map, kept by every call; freshly seeded copies are twins; for two fields of one schema, frame theorems of C57 on either side |
| C88 | store (`Spec/Gate`, `Props/Gate`) | one field inside a run of the schema (`document_split`), the draw of the gate before it and after it; induction over documents gives `filled_iff`: document `i` has the field exactly if draw `i` of its gate is below `p`; equal seeds give equal draws, independent generator states a product measure |
| C89 | store (`Spec/WordDraw`, `Props/WordDraw`) | `word_call`: the word as a function of one draw of the length emitter and `n` draws of the alphabet emitter; equal seeds make the first draws equal; product measure otherwise |
| C90 | datetimes in zones with daylight saving time (`Model/DtZone`, `Spec/DtZone`, `Props/DtZone`) | elements, slices and lookups reduce to the naive range by the difference Python computes (`sub`): readings of the clock for one `tzinfo` object, moments for two; the clock of New York in 2021 for the violations; refinement to `Model/DtAware` for fixed offsets |
| C91 | list objects against values (`Spec/AliasValues`, `Props/AliasValues`) | refinement: `Tally` relates a run of `Model/Alias` to a run of `Model/Wrappers`, `FromFields` and `Profile` from states that show the same, by induction over the nesting of emitters and over the fields |
| C92 | seeds that `random.seed` refuses (`Model/BadSeed`, `Spec/BadSeed`, `Props/BadSeed`) | exact result by following the first part that has a generator (`First`); two runs that differ in one `rng_seed` (`AlikeBut`), which `reset` and `seed` overwrite |
| C93 | changing the list given to a `Choice` (`Spec/LiveItems`, `Props/LiveItems`) | without replacement calls never read `items`; with replacement two emitters that agree in list, weights and generator (`Twin`) draw alike; `reset` by the invariant `WF` for the new list and `init_like_reset` of C18 |
| C94 | names of modules with deprecated names (`Model/Names`, `Props/Names`) | exact result of one attribute access, induction over the names imported; the `__all__` of `fauxdoc.emitters` |
| C95 | a `Sequential` over a changing list (`Model/LiveSeq`, `Spec/LiveSeq`, `Props/LiveSeq`) | invariant: the list iterator in use is over the source and its index is the place that the history gives; closed form of `n` values; `Props/LiveSeq2` shows that without changes the model agrees with `Model/Fixed` |
| C96 | a saved `iterator_factory` (`Props/LiveSeq2`) | states that stand for the same state of `Model/Fixed` give the same results |
| C97 | the text of a range (`Model/DtText`, `Spec/DtText`, `Proofs/DtText`, `Proofs/DtText2`, `Props/DtText`) | `_ord2ymd` counts the days of the Gregorian calendar (by a bijection with ordinals); texts are split at characters that cannot occur in the parts; exact condition for equal texts |
| C98 | texts as arguments (`Model/DtIso`, `Spec/DtIso`, `Proofs/DtIso`, `Props/DtIso`) | digits and numbers in bijection, then each `fromisoformat` against the grammar; disjointness by a dash and by length; ranges from their texts with C67 and C97 |
| C99 | float steps (`Model/DtStep`, `Props/DtStep`) | the end of `delta_new` is rounding to even of the exact sum; the error of the one product of doubles by `Rounding.rel_error`; uniqueness of an integer within distance 1 |
| C100 | fields derived from a hidden field (`Spec/Derived`, `Proofs/Derived`, `Props/Derived`) | invariant `Ready`: the hidden field with its emitters at position `k`, and derived fields whose objects lie above it; a call of the hidden field moves `k` on by the number of items, a call of a derived field leaves all objects up to the hidden field alone, construction of a `BasedOnFields` is one call of the hidden field |
| C101 | `ObjectMap` as an ordered dict (`Model/GroupMap`, `Spec/GroupMap`, `Props/GroupMap`) | abstraction of a list of entries to a function and an order of keys; each operation commutes with it (`op_abs`), induction over histories; equality by a permutation argument |
| C102 | members that change the group (`Model/GroupMap`, `Props/GroupMap`) | `ObjectMap` is C58 on the snapshot; the live iteration of `ObjectGroup` with its position and a fuel, induction over the remaining members (group unchanged) or over the fuel (group grows) |
| C103 | classes built from the mixins (`Model/Classes`, `Spec/Classes`, `Proofs/Classes`, `Props/Classes`) | C3 merge keeps the order of each list, loses nothing and repeats nothing (induction over the steps), so the order of a class contains that of each ancestor; `reset`, `seed` and `__init__` by induction over the rest of the order; `Conform/Classes` compares the merge with CPython on 60 hierarchies |
| C104 | fields based on each other in circles (`Spec/Recur`, `Proofs/Recur`, `Props/Recur`) | a call of one field is one step (from C44, C46); the loop of the schema solves the equations one after the other, which by induction over the fields is the simultaneous system `Follows`; sequences of documents by induction; counter and Fibonacci numbers as instances |
| C105 | interrupts (`Model/Interrupt`, `Spec/Interrupt`, `Proofs/ClassSim`, `Proofs/Interrupt`, `Proofs/Interrupt2`, `Props/Interrupt`) | a simulation that may end early (`PyM.Sim`: same outcome and related states, or the interrupt and an invariant), proved for every class once and composed by induction over the fuel; the invariant is that of C56/C57 for calls and that shapes and the seeds of root fields stay for resets; a reset without interrupt revives all generators below (induction), after which C54 applies |
| C106 | laws of seeding and resetting (`Proofs/SeedLaws`, `Props/SeedLaws`) | `seed` leaves positions and last values (induction over the fuel); after success everything below is determined by shape, seed, position and last value (C53 and `seeded_ext`), and everything else is framed, so both sides of each law are the same objects |
| C107 | independent programs (`Spec/Interleave`, `Proofs/Interleave`, `Props/Interleave`) | every constructor, use and assignment outside the set keeps an invariant (objects in the set unchanged, no outsider has an emitter in it), composed through the constructors with `Keeps.bind`; uses inside see no difference between stores that agree on the set (`agree_steps`, `same_steps`); induction over the interleaving |
| C108 | order of fields (`Spec/Reorder`, `Proofs/Reorder`, `Props/Reorder`) | two calls of fields that are apart commute (what a call changes: C57; what it looks at: `same_steps`); a permutation that keeps the order of the others is made of such exchanges of neighbours; documents as runs of all fields (C49) |
| C109 | uniqueness and `==` (`Model/PySet`, `Spec/PySet`, `Props/PySet`) | a set built by repeated `add` holds one value of each class of equal values (invariant of the fold), so its length is the number of classes; combined with what is left of a shuffle (`run_good`); equality of built-in values is equality of a normal form in which all numbers are rationals |
| C110 | fields that share an emitter (`Spec/Shared`, `Props/Shared`) | induction over the fields of a document and over histories with C85's invariant of the emitter (what it has given out so far); a field's value is still its `previous` at the end of the document because no later field is above it |
| C111 | wrapper objects (`Model/WrapObj`, `Spec/WrapObj`, `Props/WrapObj`) | invariant over all histories of constructions, assignments and calls; calls are followed along the chain of wrappers by induction and end in `Callback.call`, the call that the other wrapper theorems are about |
| C112 | seeds of parts (`Spec/LostSeed`, `Proofs/LostSeed`, `Props/LostSeed`) | two stores side by side that use the same random bits; by induction on the structure a successful `reset` makes everything below the same, with or without a seed, so the stores become equal |
| C113 | generators go onward (`Spec/Onward`, `Proofs/Onward`, `Proofs/Recycle`, `Props/Onward`) | "reached by draws" is an inductive relation on generator states, kept by every step of a call; for the violation two runs of a `Text` are followed block by block, after the first reset both are in the same state |
| C114 | random texts (`Spec/TextDraw`, `Props/TextDraw`) | as C89, with three emitters: the draws decide the words and separators (`text_drawn`), unique readability turns this into a statement about texts; product measure of three generators |
| C115 | message of over-asking (`Model/OverAsk`, `Props/OverAsk`) | the f-strings as a list of characters; read back by cutting at spaces; the rest from C12, C13 and C17 |
| C116 | fields against each other (`Spec/FieldDraw`, `Props/FieldDraw`) | the stream invariant of C85 for a choice with replacement: what was emitted so far and the generator after so many draws; then as for C88 and C114 |
| C117 | wrappers of random choices (`Spec/WrapDraw`, `Props/WrapDraw`) | induction over the calls with the exact forms of C37 and C38 in the store; the generators after so many draws as for C116 |
| C118 | random repeats (`Spec/RepeatDraw`, `Props/RepeatDraw`) | induction over the calls with the exact form of C46 in the store; draws as for C117 |
| C119 | fields that change schemas while called (`Model/LiveSchema`, `Spec/LiveSchema`, `Props/LiveSchema`) | relation `MakesDoc` for the course of a call, equivalent to the loop by an invariant on the iterator (its counter and size are those of the map iff no key was added, removed or moved) |
| C120 | several schemas and maps in one heap (`Spec/SchemaApart`, `Props/SchemaApart`) | induction over the actions; a map that only one schema has stays so |
| C121 | sequences of calls of a Choice (`Spec/CallDraw`, `Props/CallDraw`, `Proofs/Markov`, `Proofs/Markov2`) | strong Markov property for programs that stop after a number of draws they decide by their draws (`Stops.indep`), shown for `choices` and both algorithms of `weighted_shuffle`; induction over the calls |
| C122 | classes that can be instantiated (`Model/Abstract`, `Spec/Abstract`, `Props/Abstract`) | induction over the class statements: the order of a base is part of the order of the class (C103), so the first class that defines a method is also the first one for some base |
| C123 | endless sequences of calls of a Choice (`Spec/LongRun`, `Props/LongRun`) | each value is decided by one draw (`callAll_run`), the draws that lead to an item are a union of disjoint intervals of the right length (`hits_volume`), and the indicators are independent and alike, so the strong law of large numbers applies |
| C124 | endless sequences of documents of a schema (`Spec/DocRun`, `Props/DocRun`) | each value of the field is decided by one draw of its Choice (`C116_values`), each document by one draw of the gate (`filled_iff`); then as for C123 |
| C125 | texts as interleavings (`Spec/TextRead`, `Props/TextRead`) | a string of letters followed by something else splits in one way (`split_unique`); induction over the text; then the sets of texts with `k` words are disjoint images of products |
| C126 | endless sequences of calls of a field with a repeat (`Spec/MeanRun`, `Props/MeanRun`) | numbers and values are picked by the draws of two generators (`C118_values`); the strong law for each of the two, composed: the number of values grows without end if its average is positive |
| C127 | sequences of calls of a `Word` or a `Text` (`Spec/TextRun`, `Props/TextRun`) | induction on the number of calls (each leaves the generators just past the draws it used), then the lemma of C126 for lists whose lengths and members are picked by two generators; legible texts can be taken apart in one way only |
| C128 | endless sequences of documents with two random fields (`Props/PairRun`) | which document has `x` and `y` is decided by a pair of draws (`drawn_iff`); strong law for the events, which are independent under a product of two laws; after seeding the two draws are the same one (C116) |
| C129 | histories of `Sequential` and `Iterative` (`Spec/Turns`, `Props/Turns`) | consecutive values of the endless repetition (C26, C85) are rotations of the items, one after the other, and the beginning of one; induction on the number of rounds |
| C130 | two gates, or a gate and a choice, in the long run (`Props/GateRun`) | document `i` is decided by draw `i` of each generator (C88, C128); the strong law for pairs of independent draws; after seeding both draws are the same number |
| C131 | sequences of calls of a `Text` (`Props/TextSeq`) | a sequence of legible texts is returned exactly if the draws of the three generators pick its numbers, words and separators (C127); the law of these draws gives the product; after seeding there is one sequence of draws for all three |
| C132 | sequences of calls of a `Word` (`Props/WordSeq`) | as C131, with lengths and letters; strings of known lengths are told by their letters |
| C133 | the first document with a value or with a field filled (`Props/Waiting`) | document `i` is decided by draw `i` (C88, C116); the first draw in a set is number `k` with the product of the probabilities; a share with a positive limit (C124) is not always zero |
| C134 | how many documents have a value or a field filled (`Spec/HowMany`, `Props/Binomial`) | document `i` is decided by draw `i` (C88, C116); the sets of `k` of `n` numbers are disjoint events with the same probability |
| C135 | how near the shares are after `n` documents (`Props/NearShare`) | document `i` is decided by draw `i` (C88, C116); the variance of a sum of independent draws and Chebyshev's inequality |
| C136 | how rare shares far away are (`Props/FarShare`) | as C135, with Hoeffding's inequality |
| C137 | two documents with the same value (`Props/Same`) | document `i` is decided by draw `i`; the events for the items are disjoint, and two draws are independent |
| C138 | values missing from a run (`Props/Cover`) | C134 for no document, and the sum over the items |

## 6. Axiom audit

`tools/axioms.sh` prints the axioms of every property theorem; only `propext`, `Classical.choice` and
`Quot.sound` occur.

## 7. Testing the theorems

`tools/mutate.py` applies edits to model definitions in a scratch copy, rebuilds, and reports which
theorems fail; `seeded/LOG.jsonl` records every attempt.  A surviving edit either is equivalent (said
so in the log) or led to a stronger theorem.

## 8. Testing the model

That the model says what the Python code does is not a theorem.  As evidence, `Verif/Conform` replays
the project's tests on the model: `Py/Twister` is CPython's random generator, so with the same seeds
the model has to give the very values that the tests expect of the code.  It does, for every test that
is translated: all tables of expected values in `test_emitters_choice`, `test_emitters_text`,
`test_emitters_fromfields`, `test_emitters_fixed`, `test_emitters_wrappers`, `test_dtrange`,
`test_mathtools` and `test_profile`, among them the ten documents of
`test_schema_generates_record_dict`.  The test files are read as text; `tools/conform_*.py` parse them
and write the Lean files with large tables, the others were written by hand.  What is left out is said
at the head of each file: tests with mock objects, of error messages, of read-only attributes, and
very long inputs.  The kernel evaluates each test (`decide +kernel`).  `Conform/Datetime` compares the model
of `str` and `fromisoformat` with samples from CPython's `datetime` (`tools/conform_datetime.py`), and
`Conform/FloatStep` that of `timedelta` with floats.
