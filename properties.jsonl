{"id": "C01", "title": "dtrange enumerates exactly the half-open progression (date, datetime)", "statement": "For date or datetime start/stop and a non-zero step pointing from start towards stop (or start == stop), list(dtrange(start, stop, step)) succeeds and is exactly the values start, start+step, start+2*step, ... that lie strictly before stop (strictly after stop for a negative step), in that order; no overflow can occur.", "quantifier": "all dates/datetimes in the supported calendar, all non-zero (whole-day for dates) steps, both directions", "why_tests_cant": "unbounded ranges and steps; boundary behaviour (stop excluded, exact vs inexact division) must hold for every combination", "anchors": ["src/fauxdoc/dtrange.py:dtrange", "src/fauxdoc/dtrange.py:_value_to_index", "src/fauxdoc/dtrange.py:_index_to_value", "src/fauxdoc/dtrange.py:DateOrTimeRange"]}
{"id": "C02", "title": "dtrange against its direction is an empty range, as with range()", "statement": "A dtrange whose step points away from stop behaves like range(5, 0): it is empty, len() == 0 and list() == []. (False of the code: such a range gets a negative length and len()/bool()/list() raise ValueError; iterating with for yields nothing.)", "quantifier": "all date/datetime pairs and steps pointing the wrong way", "why_tests_cant": "needs every pair; the violation is universal, not an isolated example", "anchors": ["src/fauxdoc/dtrange.py:dtrange", "src/fauxdoc/dtrange.py:DateOrTimeRange.__len__"]}
{"id": "C03", "title": "time dtranges wrap at midnight and cover the clock once", "statement": "For time start/stop and a non-zero step shorter than a day, list(dtrange(start, stop, step)) is start, start+step, ... modulo 24h, continuing strictly until the clock first reaches stop in the direction of step, where start == stop means one full 24h turn. (False of the code for start == stop with a negative step.)", "quantifier": "all clock times at microsecond resolution, all steps with |step| < 24h", "why_tests_cant": "all pairs of times, including wrap-around", "anchors": ["src/fauxdoc/dtrange.py:dtrange", "src/fauxdoc/dtrange.py:_value_to_index", "src/fauxdoc/dtrange.py:_index_to_value"]}
{"id": "C04", "title": "integer indexing follows Python sequence rules", "statement": "r[i] for -len(r) <= i < len(r) is the (i mod len)-th value of the progression; every other i raises IndexError.", "quantifier": "all constructed ranges and all integers i", "why_tests_cant": "negative and out-of-range indexes over unbounded lengths", "anchors": ["src/fauxdoc/dtrange.py:DateOrTimeRange.__getitem__", "src/fauxdoc/dtrange.py:_index_to_value"]}
{"id": "C05", "title": "index, membership and count agree with the listed values", "statement": "v in r iff v is in list(r); r.index(v) is a position holding v; r.index(r[i]) == i; r.count(v) == list(r).count(v). (False of the code for hand-made or unfactored time ranges that span more than 24h.)", "quantifier": "all ranges with non-zero step (time ranges spanning at most 24h), all values of the same type, all index bounds", "why_tests_cant": "membership is arithmetic, listing is enumeration; agreement needs proof over all values", "anchors": ["src/fauxdoc/dtrange.py:DateOrTimeRange.index", "src/fauxdoc/dtrange.py:DateOrTimeRange.__contains__", "src/fauxdoc/dtrange.py:DateOrTimeRange.count", "src/fauxdoc/dtrange.py:_value_to_index"]}
{"id": "C06", "title": "slicing a range equals slicing its list", "statement": "list(r[a:b:c]) == list(r)[a:b:c] for every slice, and the result is again a range of the same kind. (False of the code when the slice step makes a time step reach 24h, or when the computed endpoint leaves the calendar.)", "quantifier": "all ranges, all optional/negative/oversized slice bounds, all non-zero slice steps", "why_tests_cant": "slice normalisation has many interacting cases; unbounded bounds", "anchors": ["src/fauxdoc/dtrange.py:DateOrTimeRange.__getitem__"]}
{"id": "C07", "title": "range equality and hash agree with the listed values", "statement": "r == s iff list(r) == list(s), and r == s implies hash(r) == hash(s). (The left-to-right direction always holds; the converse is false of the code for some pairs of time ranges.)", "quantifier": "all pairs of constructed ranges", "why_tests_cant": "quantifies over pairs of unbounded ranges", "anchors": ["src/fauxdoc/dtrange.py:DateOrTimeRange.__eq__", "src/fauxdoc/dtrange.py:DateOrTimeRange.__hash__"]}
{"id": "C08", "title": "range construction validates the step for its type", "statement": "A date range can only be built with a whole-day step and a time range only with |step| < 24h; every other combination raises ValueError, so date arithmetic in a built range never silently truncates. (False of the code for date steps of 544 years and more, because the step is checked in floating point.)", "quantifier": "all starts, lengths and steps", "why_tests_cant": "quantifies over all steps", "anchors": ["src/fauxdoc/dtrange.py:DateOrTimeRange.step"]}
{"id": "C09", "title": "Choice with replacement emits only its items, the requested number of times", "statement": "With replacement (and not replace-only-after-call), em(n) for n >= 0 returns exactly n values, each an element of items, and changes nothing but the RNG.", "quantifier": "all item lists, positive-total weights or none, all n, all RNG streams and prior states", "why_tests_cant": "a test sees a handful of RNG streams and histories; the claim covers every stream and every earlier state", "anchors": ["src/fauxdoc/emitters/choice.py:Choice._choice_with_replacement", "src/fauxdoc/emitters/choice.py:Choice.emit", "src/fauxdoc/emitters/choice.py:Choice.emit_many"]}
{"id": "C10", "title": "Weights control selection probability exactly; zero-weight items are never chosen", "statement": "A weighted with-replacement pick returns item i precisely when the uniform draw falls in the i-th weight interval, so a uniform draw selects item i with probability weights[i]/sum(weights) and an item of weight 0 is never emitted (when there is more than one item).", "quantifier": "all non-negative weight vectors with positive sum, all draws in [0,1)", "why_tests_cant": "a statistical test can neither exclude rare zero-weight picks nor settle the exact probability", "anchors": ["src/fauxdoc/emitters/choice.py:Choice._choice_with_replacement", "src/fauxdoc/emitters/choice.py:Choice._set_all_weights"]}
{"id": "C11", "title": "chance(p) is False for p <= 0, True for p >= 1, and True with probability p between", "statement": "chance(p)() is always False when p <= 0, always True when p >= 1, and for 0 <= p <= 1 emits True exactly when the uniform draw is below p.", "quantifier": "all p and all draws in [0,1)", "why_tests_cant": "always/never over all RNG outputs", "anchors": ["src/fauxdoc/emitters/choice.py:chance"]}
{"id": "C12", "title": "Choice without replacement never reuses an item before a reshuffle", "statement": "With replace=False, the concatenation of everything emitted since the last reset/seed/weight change/replace change is a prefix of a permutation of items: no item is emitted more often than it occurs, and after len(items) emissions every item has been emitted exactly once.", "quantifier": "all histories of em(), em(n >= 0), and every attribute assignment, reset and seed, all RNG streams", "why_tests_cant": "quantifies over all interleavings of calls and state changes", "anchors": ["src/fauxdoc/emitters/choice.py:Choice._choice_without_replacement", "src/fauxdoc/emitters/choice.py:Choice._global_shuffle", "src/fauxdoc/emitters/choice.py:Choice.emit", "src/fauxdoc/emitters/choice.py:Choice.emit_many"]}
{"id": "C13", "title": "Over-asking raises ValueError and consumes nothing", "statement": "If a no-replacement (or replace-only-after-call with n > 1) Choice is asked for more items than remain, it raises ValueError and its observable state is unchanged, so a smaller request afterwards still succeeds.", "quantifier": "all reachable states and all n", "why_tests_cant": "all histories leading to exhaustion", "anchors": ["src/fauxdoc/emitters/choice.py:Choice._choice_without_replacement", "src/fauxdoc/emitter.py:Emitter.raise_uniqueness_violation"]}
{"id": "C14", "title": "replace_only_after_call: items within one call are distinct positions of items", "statement": "With replace_only_after_call, each em(n) with n <= len(items) returns n items taken from n distinct positions of items (so distinct values if items are distinct), and the same number of items is available on the next call.", "quantifier": "all items, positive weights or none, all n, all RNG streams", "why_tests_cant": "all RNG outputs, both sampling algorithms", "anchors": ["src/fauxdoc/emitters/choice.py:Choice._choice_without_replacement", "src/fauxdoc/mathtools.py:weighted_shuffle"]}
{"id": "C15", "title": "replace_only_after_call implies replace in every reachable state", "statement": "After construction and after any sequence of assignments, replace_only_after_call == True implies replace == True, and setting replace=False clears replace_only_after_call.", "quantifier": "all sequences of operations", "why_tests_cant": "the invariant must survive every order of setter calls, of which there are infinitely many", "anchors": ["src/fauxdoc/emitters/choice.py:Choice.replace", "src/fauxdoc/emitters/choice.py:Choice.replace_only_after_call"]}
{"id": "C16", "title": "weights and cum_weights always describe the same distribution", "statement": "In every reachable state weights and cum_weights are both None or both have one entry per item and cum_weights is the running sum of weights; a rejected (wrong-length) assignment leaves both unchanged.", "quantifier": "all sequences of weights/cum_weights assignments and other operations", "why_tests_cant": "weights and cum_weights are derived from each other; drift may show only after a particular order of assignments", "anchors": ["src/fauxdoc/emitters/choice.py:Choice._set_all_weights", "src/fauxdoc/emitters/choice.py:Choice.weights", "src/fauxdoc/emitters/choice.py:Choice.cum_weights"]}
{"id": "C17", "title": "num_unique_items, num_unique_values and emits_unique_values tell the truth", "statement": "In every reachable state without replacement, num_unique_items is the number of items still emittable before ValueError, num_unique_values the number of distinct values among them, and emits_unique_values is True iff no value can be emitted twice before a reshuffle; with replacement they are len(items), the number of distinct items, and False.", "quantifier": "all reachable states", "why_tests_cant": "counters must stay in sync with the hidden shuffle over every history", "anchors": ["src/fauxdoc/emitters/choice.py:Choice.num_unique_items", "src/fauxdoc/emitters/choice.py:Choice.num_unique_values", "src/fauxdoc/emitters/choice.py:Choice.emits_unique_values"]}
{"id": "C18", "title": "Choice reset and seed erase history", "statement": "After reset() with a fixed rng_seed, or after seed(s), all later outputs are determined by the configuration and the seed alone, independent of everything emitted before; two equally configured emitters with the same seed emit identical sequences.", "quantifier": "all pairs of histories, all subsequent call sequences", "why_tests_cant": "compares two arbitrary histories that end in the same reset; tests can only compare chosen pairs", "anchors": ["src/fauxdoc/emitters/choice.py:Choice.reset", "src/fauxdoc/emitters/choice.py:Choice.seed", "src/fauxdoc/mixins.py:RandomMixin"]}
{"id": "C19", "title": "A failed operation leaves a Choice usable", "statement": "An operation that raises leaves the emitter in a usable state. (Holds for wrong-length weights and over-asking; false of the code for replace = False with a zero weight, which raises ZeroDivisionError half way and leaves the emitter failing on every call.)", "quantifier": "all reachable states and operations", "why_tests_cant": "exception safety across all states", "anchors": ["src/fauxdoc/emitters/choice.py:Choice.replace", "src/fauxdoc/emitters/choice.py:Choice._global_shuffle", "src/fauxdoc/mathtools.py:weighted_shuffle"]}
{"id": "C20", "title": "weighted_shuffle samples without replacement and terminates", "statement": "weighted_shuffle(items, weights, rng, k) with k <= len(items) positive weights returns k items from k distinct positions for every RNG stream and always terminates; with k omitted it returns a permutation of items; mismatched lengths raise ValueError; in the small-k regime zero-weight items are never returned.", "quantifier": "all items, non-negative weights, k, RNG streams", "why_tests_cant": "termination of a rejection loop and distinctness for all streams", "anchors": ["src/fauxdoc/mathtools.py:weighted_shuffle"]}
{"id": "C21", "title": "Raising one weight never demotes that item in a shuffle", "statement": "For the same random stream, increasing one item's weight (all else equal) never removes it from the first k results of the score-based weighted shuffle.", "quantifier": "all weights, streams, positions, k", "why_tests_cant": "relational property of two runs", "anchors": ["src/fauxdoc/mathtools.py:weighted_shuffle"]}
{"id": "C22", "title": "clamp returns the nearest number within the limits", "statement": "clamp(x, mn, mx) is x if x is within the given limits, otherwise the violated limit; with mn <= mx the result always lies within [mn, mx] and no number within the limits is closer to x.", "quantifier": "all numbers and optional limits", "why_tests_cant": "the limits may be absent, equal, crossed or of either sign; a test samples a few numbers", "anchors": ["src/fauxdoc/mathtools.py:clamp"]}
{"id": "C23", "title": "poisson and gaussian weights have the documented shape", "statement": "poisson(x, mu) is positive for mu > 0 and is maximal at x = floor(mu), rising before and falling after; the poisson values over all x sum to 1; gaussian is positive for sigma > 0, symmetric about mu and maximal at mu.", "quantifier": "all x, mu, sigma (as real numbers)", "why_tests_cant": "a statement about a real function for all arguments, with degenerate sigma", "anchors": ["src/fauxdoc/mathtools.py:poisson", "src/fauxdoc/mathtools.py:gaussian"]}
{"id": "C24", "title": "poisson_choice/gaussian_choice never give a weight below the floor", "statement": "Every item of poisson_choice/gaussian_choice gets weight max(floor, pdf(position)), one per item, so with weight_floor > 0 every item remains selectable and construction without replacement cannot divide by zero.", "quantifier": "all items, mu, sigma, floors", "why_tests_cant": "the shape of the weights must hold for every list length, mean, deviation and floor", "anchors": ["src/fauxdoc/emitters/choice.py:poisson_choice", "src/fauxdoc/emitters/choice.py:gaussian_choice"]}
{"id": "C25", "title": "Static always emits its current value", "statement": "Static(v)() == v and Static(v)(n) == [v]*n for every n; after assigning value = w the same holds for w and items == [w].", "quantifier": "all values, n and histories", "why_tests_cant": "covers every history of assignments and calls", "anchors": ["src/fauxdoc/emitters/fixed.py:Static"]}
{"id": "C26", "title": "Iterative and Sequential emit the cyclic repetition of their source across any call pattern", "statement": "The concatenation of all values emitted by any sequence of em()/em(n) calls since the last reset is the prefix of the endless repetition of the source (the source itself if infinite); splitting the same number of values over different calls does not change them.", "quantifier": "all finite non-empty or infinite sources, all sequences of calls", "why_tests_cant": "all partitions of the stream into calls", "anchors": ["src/fauxdoc/emitters/fixed.py:Iterative", "src/fauxdoc/emitters/fixed.py:Sequential"]}
{"id": "C27", "title": "reset_after_call makes every call start over", "statement": "With reset_after_call, every call em(n) returns the first n values of the endless repetition, whatever was called before.", "quantifier": "all sources, histories and n", "why_tests_cant": "the reset must work from every position reached by any history of calls", "anchors": ["src/fauxdoc/emitters/fixed.py:Iterative.emit", "src/fauxdoc/emitters/fixed.py:Iterative.emit_many", "src/fauxdoc/emitters/fixed.py:Sequential.emit_many"]}
{"id": "C28", "title": "Empty sources are rejected and a rejected source changes nothing", "statement": "Constructing or re-targeting an Iterative/Sequential with an empty source (or, for Sequential, a non-sequence iterator) raises ValueError and leaves an existing emitter emitting as before; hence no reachable emitter can loop forever on emit.", "quantifier": "all sources and operation histories", "why_tests_cant": "non-termination is excluded only by an invariant over all histories", "anchors": ["src/fauxdoc/emitters/fixed.py:Iterative.check_iter_factory", "src/fauxdoc/emitters/fixed.py:Sequential.check_seq_iter_factory"]}
{"id": "C29", "title": "em(n) yields a list of exactly n values for every emitter the library can build", "statement": "For every emitter built from the library classes (to any nesting depth, sharing allowed), if em(n) with n >= 0 returns, it returns a list of exactly n values. (False of the code when a Text may draw a word count of zero.)", "quantifier": "all emitter graphs, states, n >= 0", "why_tests_cant": "unbounded nesting", "anchors": ["src/fauxdoc/emitter.py:Emitter.__call__", "src/fauxdoc/emitters/text.py:Text.emit_many", "src/fauxdoc/emitters/wrappers.py:WrapMany.emit_many", "src/fauxdoc/emitters/wrappers.py:WrapOne.emit_many"]}
{"id": "C30", "title": "Word builds words of the drawn lengths from the drawn characters, in order", "statement": "Word()(n) returns n strings; the i-th consists of the next length_i characters drawn from the alphabet emitter, where length_1..n are the values drawn from the length emitter; every drawn character is used exactly once and in order.", "quantifier": "all child emitters and states, all n, all non-negative lengths", "why_tests_cant": "partition arithmetic over unbounded batches", "anchors": ["src/fauxdoc/emitters/text.py:Word.emit_many", "src/fauxdoc/emitters/text.py:Word.emit"]}
{"id": "C31", "title": "Word.num_unique_values bounds the number of distinct words", "statement": "If the length emitter has items L (non-negative) and the alphabet has N distinct characters, at most num_unique_values distinct strings can be emitted; it is exactly the number of possible words when L has no repeats and the alphabet consists of single characters.", "quantifier": "all alphabets and length lists", "why_tests_cant": "counting over an exponentially large set", "anchors": ["src/fauxdoc/emitters/text.py:Word._update_num_unique_vals"]}
{"id": "C32", "title": "Text joins the drawn words with the drawn separators, using each exactly once in order", "statement": "When every drawn word count is at least 1, Text()(n) returns n strings; text i is word, sep, word, ..., word with the drawn number of words; all drawn words and all drawn separators are used exactly once, in order.", "quantifier": "all child emitters and states, all n, all word counts >= 1", "why_tests_cant": "unbounded batches and arbitrary child emitters", "anchors": ["src/fauxdoc/emitters/text.py:Text.emit_many", "src/fauxdoc/emitters/text.py:Text._get_words_iterator"]}
{"id": "C33", "title": "Text copes with a word count of zero", "statement": "Text()(n) returns n texts, separators always come from sep_emitter, and Text() returns a string, also when the word count can be 0. (False of the code: zero-word texts are dropped, Text() raises IndexError, and separators fall back to a space.)", "quantifier": "all word-count sequences containing zeros", "why_tests_cant": "the defect is universal over such sequences", "anchors": ["src/fauxdoc/emitters/text.py:Text.emit_many", "src/fauxdoc/emitters/text.py:Text.emit"]}
{"id": "C34", "title": "Text.num_unique_values bounds the number of distinct texts", "statement": "With word counts C (all >= 1), W distinct words and S distinct separators, at most num_unique_values = sum W^c * S^(c-1) distinct texts can be emitted.", "quantifier": "all count lists, vocabularies and separators", "why_tests_cant": "counting over an exponentially large set", "anchors": ["src/fauxdoc/emitters/text.py:Text._update_num_unique_vals"]}
{"id": "C35", "title": "Text over a replace_only_after_call word list reuses a word only after the list is exhausted", "statement": "If the word emitter is a Choice with replace_only_after_call over D distinct words (one item per word), the words drawn for a batch split into consecutive blocks of D words (the last possibly shorter), each block free of repeats; in particular a batch of at most D words has no repeats.", "quantifier": "all word lists, batch sizes, RNG streams", "why_tests_cant": "all RNG streams and batch sizes", "anchors": ["src/fauxdoc/emitters/text.py:Text._get_words_iterator"]}
{"id": "C36", "title": "make_alphabet contains exactly the characters of its inclusive ranges", "statement": "c is in make_alphabet(ranges) iff some range has start <= ord(c) <= end; characters appear in range order; with no ranges the documented default is used, which contains no quotes, whitespace or control characters.", "quantifier": "all range lists within Unicode", "why_tests_cant": "all range lists over more than a million code points, including reversed and touching ranges", "anchors": ["src/fauxdoc/emitters/text.py:make_alphabet"]}
{"id": "C37", "title": "WrapOne is map over its source", "statement": "For a wrapper without rng, WrapOne(src, f)(n) equals [f(v) for v in src(n)] and WrapOne(src, f)() equals f(src()), with src advanced exactly as if it had been called directly; with an rng wrapper the calls happen left to right on the emitter's own rng.", "quantifier": "all sources, functions, states, n", "why_tests_cant": "the wrapped function is arbitrary and may raise or want the RNG; tests fix a few functions", "anchors": ["src/fauxdoc/emitters/wrappers.py:WrapOne"]}
{"id": "C38", "title": "WrapMany is zip-with over its sources", "statement": "WrapMany(srcs, f)(n)[i] equals f(**{k: src_k(n)[i]}) for every i < n, each source being called once with n; WrapMany(srcs, f)() calls each source once.", "quantifier": "all source maps, functions, n", "why_tests_cant": "the number and names of the sources and the function are arbitrary", "anchors": ["src/fauxdoc/emitters/wrappers.py:WrapMany"]}
{"id": "C39", "title": "Creating or re-targeting a wrapper does not consume source values", "statement": "After WrapOne/WrapMany construction or set_wrapper_function, the sources are in their freshly reset state, so the trial value drawn to check the signature is not missing from the output, whether or not the check fails.", "quantifier": "all sources (seeded) and functions", "why_tests_cant": "compares the emitter after construction with a source that was never tried, for every source and seed", "anchors": ["src/fauxdoc/emitters/wrappers.py:WrapOne.wrapper", "src/fauxdoc/emitters/wrappers.py:WrapMany.wrapper"]}
{"id": "C40", "title": "An accepted callback never fails with a signature error later", "statement": "If construction accepts a callback with an inspectable signature, no later emission raises a TypeError for wrong arguments. (False of the code when a source/field is itself named rng and the callback wants rng.)", "quantifier": "all signatures, source labels", "why_tests_cant": "signatures combine positional, keyword, default, variadic and rng parameters without bound", "anchors": ["src/fauxdoc/emitters/wrappers.py:BoundWrapper.try_mock_call", "src/fauxdoc/emitters/wrappers.py:BoundWrapper.__call__"]}
{"id": "C41", "title": "rng is forwarded to a callback iff it declares a parameter named rng", "statement": "The callback receives the owning emitter's rng exactly when its signature has a parameter named rng; therefore reseeding or resetting the emitter reproduces the callback's random behaviour.", "quantifier": "all callbacks, histories", "why_tests_cant": "signatures are unbounded, and reproducibility compares all histories before a reseed", "anchors": ["src/fauxdoc/emitters/wrappers.py:BoundWrapper"]}
{"id": "C42", "title": "CopyFields copies the current values of its source fields", "statement": "For a single single-valued source, CopyFields()() is that field's last value; otherwise it is the in-order concatenation of all non-None source values (lists flattened one level), None if there are none, or the separator-joined string if a separator is given; it never changes any field.", "quantifier": "all field groups and field values", "why_tests_cant": "source fields may be empty, single or multi-valued in every combination, and change between calls", "anchors": ["src/fauxdoc/emitters/fromfields.py:CopyFields.emit", "src/fauxdoc/emitters/fromfields.py:SourceFieldGroup.single_valued"]}
{"id": "C43", "title": "CopyFields of one field is an exact duplicate", "statement": "Without separator, CopyFields(f) emits exactly f's last value for every field f. (False of the code for an empty list, which becomes None.)", "quantifier": "all fields and last values", "why_tests_cant": "every kind of last value, including None, lists and lists with None", "anchors": ["src/fauxdoc/emitters/fromfields.py:CopyFields.emit"]}
{"id": "C44", "title": "BasedOnFields applies the action to the source fields' last values", "statement": "BasedOnFields(f, act)() == act(f.previous); with several sources it is act(**{name: previous}); em(n) evaluates the action once and repeats it n times; sources are not advanced by emitting.", "quantifier": "all groups, actions, states, n", "why_tests_cant": "the action is arbitrary, the group may have any number of fields", "anchors": ["src/fauxdoc/emitters/fromfields.py:BasedOnFields.emit", "src/fauxdoc/emitters/fromfields.py:BasedOnFields.emit_many"]}
{"id": "C45", "title": "Building a BasedOnFields emitter does not consume values of its source fields", "statement": "Constructing BasedOnFields(field, action) leaves the sequence of values the source field will produce unchanged. (False of the code: construction calls every source field once and does not reset it, contrary to the README example.)", "quantifier": "all source fields and actions", "why_tests_cant": "needs comparison of two futures", "anchors": ["src/fauxdoc/emitters/fromfields.py:BasedOnFields.action"]}
{"id": "C46", "title": "Field gate and repeat semantics", "statement": "field() first draws the gate; if falsy it returns None and neither the repeat emitter nor the data emitter is advanced; otherwise it returns emitter(repeat()), i.e. a single value if repeat emits None and the list emitter(k) if it emits k.", "quantifier": "all child emitters and states", "why_tests_cant": "gate, repeat and emitter are arbitrary emitters in arbitrary states", "anchors": ["src/fauxdoc/profile.py:Field.__call__"]}
{"id": "C47", "title": "Field.previous is the last value returned", "statement": "previous is None initially and after reset, and otherwise equals the value returned by the last successful call; a call that raises leaves it unchanged; reading it never changes anything.", "quantifier": "all histories of calls and resets", "why_tests_cant": "all histories incl. failing calls", "anchors": ["src/fauxdoc/profile.py:Field.previous", "src/fauxdoc/profile.py:Field.reset", "src/fauxdoc/profile.py:Field.__call__"]}
{"id": "C48", "title": "multi_valued predicts the shape of a field's output", "statement": "If multi_valued is False then field() is None or one value emitter(); if it is True and repeat emits integers then field() is None or a list. (False of the code for a repeat emitter over the tuple (None,), reported as multi-valued.)", "quantifier": "all repeat emitters", "why_tests_cant": "repeat may emit any number or None at any call; tests fix short scripts", "anchors": ["src/fauxdoc/profile.py:Field.multi_valued"]}
{"id": "C49", "title": "A schema document has exactly the public fields, in order, each evaluated once", "statement": "schema() calls every field (hidden ones too) exactly once in insertion order and returns a dict whose keys are exactly the names of the non-hidden fields in that order, each mapped to the value its field just produced.", "quantifier": "all schemas and states", "why_tests_cant": "any number of fields with any mix of hidden ones, in every state", "anchors": ["src/fauxdoc/profile.py:Schema.__call__"]}
{"id": "C50", "title": "add_fields/set_fields behave like ordered-dict update", "statement": "After any sequence of set_fields/add_fields, fields maps each name to the last field added under it, ordered by first addition since the last set_fields; public_fields and hidden_fields partition fields by hide and keep its order.", "quantifier": "all sequences of operations", "why_tests_cant": "any sequence of additions and replacements, with repeated names", "anchors": ["src/fauxdoc/profile.py:Schema.add_fields", "src/fauxdoc/profile.py:Schema.set_fields", "src/fauxdoc/profile.py:Schema.public_fields", "src/fauxdoc/profile.py:Schema.hidden_fields"]}
{"id": "C51", "title": "Derived fields see the values of the same document", "statement": "In a document, a field whose emitter copies or is based on fields placed earlier in the schema gets exactly the values those fields have in that same document; one placed before its source gets the source's value of the preceding document (None for the first).", "quantifier": "all schemas, states, documents", "why_tests_cant": "all schema shapes and histories", "anchors": ["src/fauxdoc/profile.py:Schema.__call__", "src/fauxdoc/emitters/fromfields.py:CopyFields", "src/fauxdoc/emitters/fromfields.py:BasedOnFields"]}
{"id": "C52", "title": "A field's values do not depend on unrelated fields", "statement": "If a field's emitters (and sources) are not shared with other fields, the sequence of values it takes over successive documents is the same in any schema that contains it, whatever other fields are added, removed or reordered.", "quantifier": "all pairs of schemas over a common set of fields", "why_tests_cant": "relational over all schemas", "anchors": ["src/fauxdoc/profile.py:Schema.__call__", "src/fauxdoc/profile.py:Field.__call__"]}
{"id": "C53", "title": "Seeds propagate to every nested emitter", "statement": "After constructing or resetting a Field/Word/Text/WrapOne/WrapMany with rng_seed s, or calling seed(s) on it, every random emitter below it has rng_seed s and an RNG freshly seeded with s, replacing any seed given to it individually.", "quantifier": "all emitter graphs", "why_tests_cant": "emitters nest to any depth and may be shared; a test fixes one tree", "anchors": ["src/fauxdoc/mixins.py:RandomWithChildrenMixin", "src/fauxdoc/mixins.py:RandomMixin", "src/fauxdoc/mixins.py:ChildrenMixin", "src/fauxdoc/group.py:GroupMixin"]}
{"id": "C54", "title": "reset_fields makes a seeded schema reproduce its documents", "statement": "If all fields have a seed, then after schema.reset_fields() the documents produced are the same whatever was generated before: the k-th document after any reset is the same.", "quantifier": "all schemas with seeded fields, all histories, all k", "why_tests_cant": "all histories and nesting", "anchors": ["src/fauxdoc/profile.py:Schema.reset_fields", "src/fauxdoc/mixins.py:RandomWithChildrenMixin.reset"]}
{"id": "C55", "title": "seed_fields makes a schema reproduce its documents", "statement": "After schema.seed_fields(s) the documents are determined by s. (False of the code for Iterative/Sequential emitters, which keep their position, and for fields read before being generated, whose previous value is kept.)", "quantifier": "all schemas, histories, seeds", "why_tests_cant": "the state before seeding is the result of an arbitrary history", "anchors": ["src/fauxdoc/profile.py:Schema.seed_fields", "src/fauxdoc/mixins.py:RandomWithChildrenMixin.seed"]}
{"id": "C56", "title": "Generating data never changes configuration", "statement": "No call of any emitter, field or schema changes items, weights, flags, names, child structure, callbacks or seeds of any object.", "quantifier": "all object graphs, all calls", "why_tests_cant": "frame property over all graphs", "anchors": ["src/fauxdoc/emitter.py:Emitter.__call__", "src/fauxdoc/profile.py:Field.__call__", "src/fauxdoc/profile.py:Schema.__call__"]}
{"id": "C57", "title": "Generating data touches only the emitters below the called object", "statement": "Calling an emitter or field changes the state of no object other than itself and the emitters below it; in particular source fields of CopyFields/BasedOnFields are only read.", "quantifier": "all object graphs with sharing", "why_tests_cant": "a frame property: that nothing else changes can be observed in a test only for the objects it looks at", "anchors": ["src/fauxdoc/mixins.py:ChildrenMixin", "src/fauxdoc/emitters/fromfields.py:CopyFields.emit", "src/fauxdoc/emitters/fromfields.py:BasedOnFields.emit"]}
{"id": "C58", "title": "Group operations reach exactly the members that support them", "statement": "ObjectGroup/ObjectMap.setattr sets the attribute on exactly the non-None members that already have it; do_method runs the method on every member in order, skipping those raising AttributeError; other exceptions propagate and stop the sweep.", "quantifier": "all groups", "why_tests_cant": "groups of any size with members that lack the attribute, are None, or raise", "anchors": ["src/fauxdoc/group.py:GroupMixin.setattr", "src/fauxdoc/group.py:GroupMixin.do_method"]}
{"id": "C59", "title": "Deprecated attributes still resolve and always warn", "statement": "Looking up a name listed as deprecated returns the listed object with exactly one DeprecationWarning mentioning the replacement; any other unknown name raises AttributeError without warning.", "quantifier": "all deprecation tables and names", "why_tests_cant": "all tables and names, including unknown ones", "anchors": ["src/fauxdoc/warn.py:get_deprecated_attr", "src/fauxdoc/emitters/wrappers.py:DEPRECATED", "src/fauxdoc/typing.py:DEPRECATED"]}
{"id": "C60", "title": "Emitters only emit values their configuration allows", "statement": "Declare for every object a set of values such that items, static values and iterators given to it lie in the set, the set of a Word contains every string that can be spelled with lengths and characters from the sets of its children, that of a Text every text of words and separators from the sets of its children, and wrapper functions map values of their sources into the set. Then however objects are created, called, reset, seeded and reassigned, every value an emitter emits lies in its set, and the items, weights, shuffled list and position of every Choice stay consistent. (Programs must not let an assignment replace=False fail, see C19, give word lengths or repeats below 0 or word counts below 1, or ask for a negative number of values.)", "quantifier": "all programs using the library, all declared sets, all nesting", "why_tests_cant": "quantifies over all programs using the library; a test runs one", "anchors": ["src/fauxdoc/emitter.py:Emitter.__call__", "src/fauxdoc/emitters/choice.py:Choice", "src/fauxdoc/emitters/text.py:Text", "src/fauxdoc/emitters/wrappers.py:WrapMany", "src/fauxdoc/emitters/fixed.py:Iterative"]}
{"id": "C61", "title": "num_unique_values bounds what a tree of emitters can emit", "statement": "If num_unique_values of an emitter is the number q, there is a set of at most q values that contains every value the emitter emits from then on, whatever else the program creates, calls, resets or seeds. For Word and Text q is computed from the counts of the children (sum of n^k over the lengths k; sum of m^k * p^(k-1) over the word counts k), which may be Word or Text emitters themselves, and is None if some child cannot be counted. (A Choice without replacement counts what is left, so it is asked before anything is handed out. Attributes are not assigned after construction: Word and Text do not notice that a child changes.)", "quantifier": "all programs that assign no attributes, all nesting of emitters, all later histories", "why_tests_cant": "the number of possible texts is exponential, and the claim covers all programs that run afterwards", "anchors": ["src/fauxdoc/emitters/text.py:Word._update_num_unique_vals", "src/fauxdoc/emitters/text.py:Text._update_num_unique_vals", "src/fauxdoc/emitters/choice.py:Choice.num_unique_values", "src/fauxdoc/mixins.py:ItemsMixin.num_unique_values"]}
{"id": "C62", "title": "Using emitters, fields and schemas always ends", "statement": "Calling an emitter or field, reset, seed, making documents, resetting and seeding schemas, assigning wrappers and actions, and constructing emitters and fields never loops forever and never raises RecursionError if the recursion limit exceeds the nesting depth: the outcome is a value or another exception. (No emitter is below itself, weights are not negative, wrapper functions end, iterators are not empty, and the number arguments are as in C60.) In programs that only construct and use objects no emitter can be below itself, and iterators cannot be empty.", "quantifier": "all object graphs without cycles, all states, all arguments", "why_tests_cant": "a test that does not end says nothing, and one that does covers one graph and one state", "anchors": ["src/fauxdoc/emitter.py:Emitter.__call__", "src/fauxdoc/emitters/text.py:Text._get_words_iterator", "src/fauxdoc/mathtools.py:weighted_shuffle", "src/fauxdoc/emitters/fixed.py:Iterative.emit_many", "src/fauxdoc/mixins.py:RandomWithChildrenMixin.reset", "src/fauxdoc/profile.py:Schema.__call__"]}
{"id": "C63", "title": "The recursion limit does not influence results", "statement": "Calls, reset, seed, documents, assigning wrappers and actions, and constructors give the same outcome and leave the same state for all recursion limits above the nesting depth; neither do they depend on how deep in other calls they are made. (No emitter is below itself.)", "quantifier": "all object graphs without cycles, all states, all limits", "why_tests_cant": "quantifies over all recursion limits and all graphs; do_method swallows exceptions, so a limit could change results silently", "anchors": ["src/fauxdoc/emitter.py:Emitter.__call__", "src/fauxdoc/mixins.py:RandomWithChildrenMixin", "src/fauxdoc/profile.py:Schema.__call__", "src/fauxdoc/group.py:GroupMixin.do_method"]}
{"id": "C64", "title": "Assigning a child emitter replaces that reference and nothing else", "statement": "field.emitter = x, field.repeat_emitter = x, field.gate_emitter = x and obj.emitters[label] = x replace exactly the reference with that label: no attribute, seed, generator, position or last value of any object changes, and labels and order of the children stay. The next call draws from x. From then on calling, resetting and seeding the owner leaves the replaced emitter alone unless it is still below the owner. x keeps its own seed until the owner is reset or seeded. The graph of emitters stays free of cycles iff the owner is not below x, so C62 continues to hold.", "quantifier": "all object graphs, all owners, labels and emitters", "why_tests_cant": "says for every graph that no other object changes, and what all later resets and calls reach", "anchors": ["src/fauxdoc/profile.py:Field.emitter", "src/fauxdoc/profile.py:Field.repeat_emitter", "src/fauxdoc/profile.py:Field.gate_emitter", "src/fauxdoc/mixins.py:ChildrenMixin.emitters"]}
{"id": "C65", "title": "Retargeting CopyFields and BasedOnFields changes only what they read", "statement": "set_source_fields replaces the source fields: nothing is called, reset or seeded, the separator or action stays, no other object changes. From then on CopyFields copies the last values of the new fields and BasedOnFields applies the same action to them. Assigning CopyFields.separator replaces the separator and nothing else.", "quantifier": "all object graphs, all source fields, all states", "why_tests_cant": "quantifies over all graphs and source fields, and denies any effect on all other objects", "anchors": ["src/fauxdoc/emitters/fromfields.py:CopyFields.set_source_fields", "src/fauxdoc/emitters/fromfields.py:BasedOnFields.set_source_fields", "src/fauxdoc/emitters/fromfields.py:SourceFieldGroup"]}
{"id": "C66", "title": "name and hide of a field do not influence what is generated", "statement": "After assigning field.hide, every emitter and field emits the same as without the assignment; a document holds the same values of those fields that are not hidden now; making documents and assigning hide commute. The same holds for field.name (the keys of a schema do not change), unless the field is one of several sources of a BasedOnFields emitter, whose action receives it under the new name.", "quantifier": "all object graphs, all schemas, all histories", "why_tests_cant": "compares all later behaviour of two programs that differ in one assignment", "anchors": ["src/fauxdoc/profile.py:Field", "src/fauxdoc/profile.py:Schema.__call__", "src/fauxdoc/emitters/fromfields.py:BasedOnFields.emit"]}
{"id": "C67", "title": "dtrange interprets its arguments as documented", "statement": "The units weeks, days, hours, minutes, seconds, milliseconds and microseconds are multiples of each other (7 days, 24 hours, 60, 60, 1000, 1000): a range in one unit is the range in the smaller unit with the step multiplied, exceptions included. Without a unit, dates are stepped in days, times and datetimes in seconds. A string stands for a date if date.fromisoformat accepts it, otherwise for a time, otherwise for a datetime, and gives the same range as that object. A string that is none of these, another object, start and stop of different types and an unknown unit raise ValueError. A step of zero raises ZeroDivisionError, a step that is no timedelta OverflowError.", "quantifier": "all starts, stops, steps, units and strings", "why_tests_cant": "relates results for all steps, units and parsers, including overflow at the ends of timedelta", "anchors": ["src/fauxdoc/dtrange.py:dtrange", "src/fauxdoc/dtrange.py:_parse_user_date"]}
{"id": "C68", "title": "stop of a dtrange is the first value after it", "statement": "The stop attribute of a range made by dtrange is the first value of its arithmetic progression that is not in the range: one step after the last element, not before the stop argument, less than a step behind it. If stop - start is a multiple of the step, it is the stop argument. Making a range from start, stop and step attributes gives the same range.", "quantifier": "all ranges made by dtrange", "why_tests_cant": "fails only for ranges that end at the last days of the calendar or wrap around midnight", "anchors": ["src/fauxdoc/dtrange.py:DateOrTimeRange.stop", "src/fauxdoc/dtrange.py:dtrange"]}
{"id": "C69", "title": "reset_source and seed_source reach the source fields, reset and seed do not", "statement": "reset_source (CopyFields, BasedOnFields) and seed_source (BasedOnFields) reset or seed every source field once and in order; only source fields and emitters below them change, and no configuration. After seed_source(s) everything below the source fields has the seed s and a freshly seeded generator; after reset_source everything below them starts over, with the seed of a source field above it, and the fields have no last value. Calling, resetting or seeding the emitter itself changes no other object.", "quantifier": "all object graphs, all source fields, all states", "why_tests_cant": "concerns everything reachable from the sources and everything that is not, in every state", "anchors": ["src/fauxdoc/emitters/fromfields.py:CopyFields.reset_source", "src/fauxdoc/emitters/fromfields.py:BasedOnFields.reset_source", "src/fauxdoc/emitters/fromfields.py:BasedOnFields.seed_source", "src/fauxdoc/group.py:GroupMixin.do_method"]}
{"id": "C70", "title": "Weighted draws without replacement follow the weights exactly", "statement": "If the draws of the generator are independent and uniform on [0, 1) and weights are positive, weighted_shuffle and a Choice that does not repeat items draw like successive draws, each in proportion to the weights of what is left: the probability of a sequence of different items is the product of weight / (total weight - weights drawn before). This holds for every requested number, for both algorithms (repeated sampling for small numbers, sorting by log(u)/w for large ones), after replace = False, after weights are assigned and for em(n) with replace_only_after_call. The call returns with probability 1.", "quantifier": "all positive weights, all numbers, all sequences of items", "why_tests_cant": "exact probabilities over a continuous space of generator states; sampling can only estimate them for a few weights", "anchors": ["src/fauxdoc/mathtools.py:weighted_shuffle", "src/fauxdoc/emitters/choice.py:Choice._global_shuffle", "src/fauxdoc/emitters/choice.py:Choice._choice_without_replacement"]}
{"id": "C71", "title": "Without weights all items are equally likely", "statement": "If the generator is fair, a Choice without weights has no bias: with replacement the n values of em(n) are independent and every item has probability 1/len(items); after replace = False every order of the items has probability 1/len(items)!, and every sequence of k different items comes first with the same probability; with replace_only_after_call every sequence of n different items is equally likely for em(n).", "quantifier": "all items, all numbers, all sequences of items", "why_tests_cant": "exact probabilities over a continuous space of generator states; sampling can only estimate them for a few lists", "anchors": ["src/fauxdoc/emitters/choice.py:Choice._choice_with_replacement", "src/fauxdoc/emitters/choice.py:Choice._choice_without_replacement", "src/fauxdoc/emitters/choice.py:Choice._global_shuffle"]}
{"id": "C72", "title": "An ObjectGroup is operated on like a list", "statement": "Indexing, slicing, +, *, +=, *=, append, insert, reverse and copying an ObjectGroup give the members that the same operation on a list gives, and do_method on the result visits these members in order.", "quantifier": "all groups of objects, all indexes, slices and numbers", "why_tests_cant": "operations inherited from the standard library, with members and slices in every combination; the failure is silent", "anchors": ["src/fauxdoc/group.py:ObjectGroup.__init__", "src/fauxdoc/group.py:ObjectGroup", "src/fauxdoc/group.py:GroupMixin.do_method"]}
{"id": "C73", "title": "A range never changes", "statement": "start, length, step and stop of a DateOrTimeRange are read-only: every assignment raises AttributeError and changes nothing. After any history of reads and attempted assignments the range has the attributes it was built with, and stop and repr give what they give on the new range (they are cached).", "quantifier": "all constructor arguments, all histories", "why_tests_cant": "quantifies over all histories of reads and attempted assignments, including after caught exceptions", "anchors": ["src/fauxdoc/dtrange.py:DateOrTimeRange", "src/fauxdoc/dtrange.py:DateOrTimeRange.stop", "src/fauxdoc/dtrange.py:DateOrTimeRange.__repr__"]}
{"id": "C74", "title": "DateOrTimeRange accepts the documented arguments and no others", "statement": "The constructor accepts a date, time or datetime as start, an int or something castable to an int as length and a timedelta as step, of whole days for dates and of less than a day for times. The object then has these attributes. Anything else raises ValueError, or the exception of int(length).", "quantifier": "all arguments", "why_tests_cant": "arguments of every type in every combination", "anchors": ["src/fauxdoc/dtrange.py:DateOrTimeRange.__init__", "src/fauxdoc/dtrange.py:DateOrTimeRange.length"]}
{"id": "C75", "title": "A wrapper function uses the generator of the emitter it is set on", "statement": "set_wrapper_function(f) binds the function to the emitter, even if f is the wrapper of other emitters: calls of the wrapper depend on the state of the generator of this emitter only and change nothing else. Assigning the wrapper object of another emitter to the attribute wrapper keeps it bound to the other emitter.", "quantifier": "all functions, all earlier bindings, all states", "why_tests_cant": "functions are arbitrary and may have been bound to any number of emitters before; that nothing else changes cannot be tested", "anchors": ["src/fauxdoc/emitters/wrappers.py:BoundWrapper.__init__", "src/fauxdoc/emitters/wrappers.py:WrapOne.set_wrapper_function", "src/fauxdoc/emitters/wrappers.py:WrapMany.set_wrapper_function"]}
{"id": "C76", "title": "Only None and integers are accepted as a number of values", "statement": "Calling an emitter with a number that is neither None nor an integer never returns: it raises. The exception is that of the emitter which is asked first (Word asks its length emitter, Text its numwords emitter, wrappers their first source): TypeError for Static, CopyFields and Choice (unless it has weights with a total that is not positive), ValueError for Iterative and Sequential. Nothing changes anywhere: no generator, position, cache or count. BasedOnFields alone applies its action before it raises TypeError.", "quantifier": "all object graphs, all states, all arguments that are no numbers", "why_tests_cant": "the number may be any object, and who refuses it depends on arbitrarily deep nesting; that nothing anywhere changes cannot be tested", "anchors": ["src/fauxdoc/emitter.py:Emitter.__call__", "src/fauxdoc/emitters/fixed.py:Static.emit_many", "src/fauxdoc/emitters/fixed.py:Iterative.emit_many", "src/fauxdoc/emitters/text.py:Word.emit_many", "src/fauxdoc/emitters/wrappers.py:WrapMany.emit_many", "src/fauxdoc/emitters/fromfields.py:BasedOnFields.emit_many"]}
{"id": "C77", "title": "Rounding cannot push a random pick out of range or onto an item of weight zero", "statement": "random() is a multiple of 2^-53 below 1, and products, sums and int-to-float conversions are rounded to the nearest double. In spite of this a pick of random.choices is always the position of an item: with weights, and without weights for lists of any length. If the float total of the weights is a normal number above the smallest one, the weight of the item picked is positive. The comparison number <= 0.42 * len(items) which selects the algorithm of weighted_shuffle has the outcome it has in exact arithmetic for lists of up to 2^47 items.", "quantifier": "all weights that are doubles, all draws, all list lengths", "why_tests_cant": "concerns rounding of every product over 2^53 draws, weights of every magnitude and lists of every length", "anchors": ["src/fauxdoc/emitters/choice.py:Choice._choice_with_replacement", "src/fauxdoc/mathtools.py:weighted_shuffle"]}
{"id": "C78", "title": "poisson_choice and gaussian_choice can be built without replacement", "statement": "poisson_choice(items, replace=False) and gaussian_choice(items, replace=False) return an emitter for every list of items with the default weight_floor, as they do with replacement.", "quantifier": "all lists of items, all mu and sigma, all seeds", "why_tests_cant": "depends on where densities underflow, for all lengths, means and deviations", "anchors": ["src/fauxdoc/emitters/choice.py:poisson_choice", "src/fauxdoc/emitters/choice.py:gaussian_choice", "src/fauxdoc/mathtools.py:weighted_shuffle"]}
{"id": "C79", "title": "Rounding distorts probabilities by less than anyone can notice", "statement": "random() takes each of the 2^53 values j/2^53 with the same probability. With all roundings of CPython, an item of a list of n items (n up to 2^53) is picked for a fraction of these values that differs from 1/n by at most 2^-52; with weights, none negative and with a normal total, for a fraction that differs from weights[i]/sum(weights) by at most (n+2)/2^53; chance(p) with 0 <= p <= 1 is True for exactly ceil(p * 2^53) of the 2^53 values.", "quantifier": "all weights that are doubles, all list lengths, all positions", "why_tests_cant": "counts all 2^53 draws, for weights of every magnitude; deviations of 2^-52 are far below what sampling can show", "anchors": ["src/fauxdoc/emitters/choice.py:Choice._choice_with_replacement", "src/fauxdoc/emitters/choice.py:chance"]}
{"id": "C80", "title": "Ranges work alike for values with a time zone", "statement": "With values that have a tzinfo (a fixed offset from UTC), dtrange gives the moments start + i*step strictly before stop, at the offset of start, whatever the offset of stop. in and index find a value by the moment it denotes, exactly as in the list of the elements, and never raise anything but ValueError (index). Ranges are equal exactly when their elements are pairwise equal, even at different offsets, and equal ranges have equal hashes. On naive values everything is as in C01-C08. Times keep their tzinfo.", "quantifier": "all values with and without a fixed offset, all steps, all lengths", "why_tests_cant": "all pairs of offsets and all moments; the disagreements show only when naive and aware values or times with a tzinfo are mixed", "anchors": ["src/fauxdoc/dtrange.py:_index_to_value", "src/fauxdoc/dtrange.py:_value_to_index", "src/fauxdoc/dtrange.py:dtrange", "src/fauxdoc/dtrange.py:DateOrTimeRange.__contains__"]}
{"id": "C81", "title": "Asking for a negative number of values gives nothing and changes nothing", "statement": "Calling an emitter with a negative number either raises ValueError (Iterative, Sequential and whatever asks one of them first) or returns an empty list. No state changes anywhere: later values are the ones that would have come without the call.", "quantifier": "all object graphs, all states, all negative numbers", "why_tests_cant": "no test asks for a negative number; the damage shows only in what the emitter gives later", "anchors": ["src/fauxdoc/emitter.py:Emitter.__call__", "src/fauxdoc/emitters/choice.py:Choice._choice_without_replacement", "src/fauxdoc/emitters/text.py:Text.emit_many", "src/fauxdoc/emitters/fixed.py:Iterative.emit_many", "src/fauxdoc/emitters/wrappers.py:WrapMany.emit_many"]}
{"id": "C82", "title": "Values do not depend on how many are asked for at a time", "statement": "Calling an emitter for n values returns the values that n calls for one value return, and leaves every object in the state these calls leave it in. The same holds for any way of splitting n into batches.", "quantifier": "all object graphs, all reachable states, all numbers and ways of splitting them", "why_tests_cant": "a batch draws from each child once and the values are distributed afterwards, single calls interleave the draws; that this is the same depends on the whole graph", "anchors": ["src/fauxdoc/emitter.py:Emitter.__call__", "src/fauxdoc/emitters/choice.py:Choice.emit_many", "src/fauxdoc/emitters/fixed.py:Iterative.emit_many", "src/fauxdoc/emitters/text.py:Word.emit_many", "src/fauxdoc/emitters/text.py:Text.emit_many", "src/fauxdoc/emitters/wrappers.py:WrapOne.emit_many", "src/fauxdoc/emitters/wrappers.py:WrapMany.emit_many", "src/fauxdoc/emitters/fromfields.py:BasedOnFields.emit_many"]}
{"id": "C83", "title": "What a Choice picks does not depend on what its items are", "statement": "Two Choice emitters with equally many items and equal settings, used by the same program (calls, assignments, resets, seeds, in any order, with or without exceptions), emit the items at the same positions at every step and fail at the same steps. Equal items are not merged. If all items are hashable, the exceptions are the same too.", "quantifier": "all item types and lists of items, all settings, all sequences of operations, all generators", "why_tests_cant": "items may be anything, and a dependence on them (sorting, comparing, grouping equal ones) would show only for particular items after particular operations", "anchors": ["src/fauxdoc/emitters/choice.py:Choice", "src/fauxdoc/emitters/choice.py:Choice._choice_without_replacement", "src/fauxdoc/emitters/choice.py:Choice._choice_with_replacement", "src/fauxdoc/mathtools.py:weighted_shuffle"]}
{"id": "C84", "title": "An Iterative emits what its iterators give, whatever they do", "statement": "The factory of an Iterative may return another iterator every time or the same one, and factory and iterators may raise exceptions. In calls that succeed, every value that an iterator gives is emitted once, in the order given, and no value is asked for before it is needed. The factory is called only after construction, after a reset and when the last iterator has ended; a reset leaves the rest of the current iterator alone. The constructor takes one value of an iterator of its own. With a factory for an equal iterator each time the items repeat in cycles. An exception reaches the caller, and afterwards the emitter goes on or raises it again.", "quantifier": "all iterator factories over any state, all sequences of operations", "why_tests_cant": "factories and iterators are arbitrary code with state of its own; tests use iterators over a few fixed sequences that never fail", "anchors": ["src/fauxdoc/emitters/fixed.py:Iterative.make_infinite_iter", "src/fauxdoc/emitters/fixed.py:Iterative.check_iter_factory", "src/fauxdoc/emitters/fixed.py:Iterative.emit", "src/fauxdoc/emitters/fixed.py:Iterative.emit_many", "src/fauxdoc/emitters/fixed.py:Iterative.reset"]}
{"id": "C85", "title": "Uniqueness and numbering hold across a whole set of documents", "statement": "If a Choice without replacement is the emitter of one field and is used nowhere else in the schema, then across any number of documents, with any use of other objects in between and whether or not documents fail, the values of the field are values of one permutation of the items, in order: no item comes twice, and if all documents succeed none is skipped. The counter of remaining values goes down by exactly the values used. The same field with an Iterative or Sequential (without reset_after_call) has consecutive values of its cycle, so that numbers 1, 2, 3, ... have no gaps or repeats as long as no document fails. This holds with any gate and repeat and for hidden fields.", "quantifier": "all schemas, all sequences of documents and other operations, all gates and repeats", "why_tests_cant": "uniqueness across a set depends on everything that happens between documents; tests make a few documents in a row with one schema", "anchors": ["src/fauxdoc/profile.py:Schema.__call__", "src/fauxdoc/profile.py:Field.__call__", "src/fauxdoc/emitters/choice.py:Choice._choice_without_replacement", "src/fauxdoc/emitters/fixed.py:Iterative.emit_many"]}
{"id": "C86", "title": "Changing a document affects no other document", "statement": "Lists in documents are objects that the user may change. Making documents changes no list that exists: neither one in an earlier document nor one that the user gave to an emitter. An emitter called with a number returns a new list. Every list in a document, at any depth, belongs to that document and to one field of it. So whatever a user does to lists in documents, the documents made later look as if they had done nothing.", "quantifier": "all schemas of emitters of the library, all callbacks that change none of their arguments, all changes by the user, all histories", "why_tests_cant": "tests look at documents but do not change them, and a shared list looks like a list of its own until somebody does", "anchors": ["src/fauxdoc/profile.py:Field.__call__", "src/fauxdoc/profile.py:Schema.__call__", "src/fauxdoc/emitters/fromfields.py:CopyFields.emit", "src/fauxdoc/emitters/fromfields.py:CopyFields.emit_many", "src/fauxdoc/emitters/fromfields.py:BasedOnFields.emit_many", "src/fauxdoc/emitters/wrappers.py:WrapMany.emit_many"]}
{"id": "C87", "title": "Emitters configured alike and seeded alike emit alike", "statement": "What an emitter or a field gives depends on its settings and its seed, not on which object it is. Two of them made of different objects with equal settings, in one program or in two, that are given the same seed (with seed, or with reset and equal rng_seed) return the same values and raise the same exceptions in the same calls. So after seed_fields, which gives all fields the same seed, two fields with equal settings have the same value in every document, as long as the schema gives documents.", "quantifier": "all emitters and fields without source fields, all histories before seeding, all sequences of calls, all generators", "why_tests_cant": "a test compares two emitters of one class; the emitters that can be nested in a field, and the states that they can be in before seeding, are without number", "anchors": ["src/fauxdoc/mixins.py:RandomWithChildrenMixin.seed", "src/fauxdoc/mixins.py:RandomWithChildrenMixin.reset", "src/fauxdoc/emitters/choice.py:Choice.seed", "src/fauxdoc/profile.py:Schema.seed_fields"]}
{"id": "C88", "title": "Gates and values are drawn independently", "statement": "Whether a field with gate chance(p) is filled in a document is independent of which value it gets and of whether another field with gate chance(q) is filled: both fields are filled with probability p times q, and the field has an item of its choice with probability p times the share of the weight of that item, in every document.", "quantifier": "all schemas with such fields, all probabilities and weights, all numbers of documents, all seeds and generators", "why_tests_cant": "independence is a statement about all seeds and all documents at once; a test sees frequencies for a few seeds, and the two fields of such a test usually differ in other ways", "anchors": ["src/fauxdoc/profile.py:Field.__call__", "src/fauxdoc/profile.py:Schema.seed_fields", "src/fauxdoc/mixins.py:RandomWithChildrenMixin.seed", "src/fauxdoc/emitters/choice.py:chance"]}
{"id": "C89", "title": "Words have the probabilities of their length and letters", "statement": "A Word with weighted lengths and a weighted alphabet, both with replacement, emits any given word with the probability of its length times the product of the probabilities of its letters. So every word that num_unique_values counts can come next, unless one of its weights is 0.", "quantifier": "all lengths, alphabets and weights, all words, all seeds and generators", "why_tests_cant": "that a word never comes, or comes too rarely, shows only over all seeds; a test looks at the words of a few", "anchors": ["src/fauxdoc/emitters/text.py:Word.emit", "src/fauxdoc/emitters/text.py:Word.seed", "src/fauxdoc/emitters/text.py:Word.reset", "src/fauxdoc/emitters/choice.py:Choice.emit_many"]}
{"id": "C90", "title": "Ranges of local times agree with the moments they stand for", "statement": "For datetimes in a time zone that has daylight saving time: a range starts with its start and steps along the local clock; in and index find exactly the values that equal an element, also when they are given in another zone; ranges are equal exactly if their elements are, and equal ranges have equal hashes; dtrange ends the range at the moment of stop, also when stop is in another zone.", "quantifier": "all zones with any changes of the clock, all starts, steps and lengths, all values and folds", "why_tests_cant": "the clock is changed on two days of the year, at hours that differ from zone to zone; a test has to hit one of them with a value from another zone", "anchors": ["src/fauxdoc/dtrange.py:_index_to_value", "src/fauxdoc/dtrange.py:_value_to_index", "src/fauxdoc/dtrange.py:DateOrTimeRange.__contains__", "src/fauxdoc/dtrange.py:DateOrTimeRange.__eq__", "src/fauxdoc/dtrange.py:DateOrTimeRange.__hash__", "src/fauxdoc/dtrange.py:dtrange"]}
{"id": "C91", "title": "Sharing of lists is invisible until a list is changed", "statement": "Emitters hand out lists that other emitters, fields and documents hold as well. As long as nobody changes a list, none of this can be seen: every emitter returns, and every document contains, what it would if each list were a fresh value, with the same exceptions in the same calls; and documents made before look the same for ever.", "quantifier": "all nestings of wrappers, copies and based-on emitters over any other emitters, all callbacks, all numbers of values, all fields, all numbers of documents", "why_tests_cant": "what is shared depends on how emitters are nested, and there is no bound on the nesting or on the documents made", "anchors": ["src/fauxdoc/emitters/fromfields.py:CopyFields.emit", "src/fauxdoc/emitters/fromfields.py:BasedOnFields.emit_many", "src/fauxdoc/emitters/wrappers.py:WrapOne.emit_many", "src/fauxdoc/emitters/wrappers.py:WrapMany.emit_many", "src/fauxdoc/profile.py:Field.__call__", "src/fauxdoc/profile.py:Schema.__call__"]}
{"id": "C92", "title": "A seed that is refused has no effect", "statement": "Seeding an emitter, a field or a schema with a value that random.seed does not accept (a list, say) raises TypeError and changes nothing: the values that follow are the same as without the call, and so is everything after a reset. A valid seed given later works as if the other had never been given.", "quantifier": "all objects nested in any way, with shared parts, all histories, all that Choice does when it is seeded", "why_tests_cant": "which object keeps the refused seed depends on how the emitter is nested, and what it spoils shows only in a later reset", "anchors": ["src/fauxdoc/mixins.py:RandomMixin.seed", "src/fauxdoc/mixins.py:RandomMixin.reset", "src/fauxdoc/mixins.py:RandomWithChildrenMixin.seed", "src/fauxdoc/mixins.py:RandomWithChildrenMixin.reset", "src/fauxdoc/emitters/choice.py:Choice.seed", "src/fauxdoc/emitters/text.py:Text.seed", "src/fauxdoc/profile.py:Schema.seed_fields"]}
{"id": "C93", "title": "A Choice follows its list", "statement": "The list given to a Choice is its items, also when it is changed later. With replacement the next call draws from the list as it is then. Without replacement the values still to come stay as they were settled, and reset or seed starts again with the list as it is then: the emitter does what one made with that list and the same settings does. If the number of weights no longer fits, ValueError is raised instead of wrong values.", "quantifier": "all histories, all changes of the list, all weights, settings and seeds, all sequences of calls afterwards", "why_tests_cant": "tests make an emitter and leave its list alone; that a later change of the list has the right effect after every history and setting is a statement about all states, and the stale count of replace_only_after_call needs growing, resetting and asking for more", "anchors": ["src/fauxdoc/mixins.py:ItemsMixin.items", "src/fauxdoc/emitters/choice.py:Choice.reset", "src/fauxdoc/emitters/choice.py:Choice.seed", "src/fauxdoc/emitters/choice.py:Choice._choice_with_replacement", "src/fauxdoc/emitters/choice.py:Choice._choice_without_replacement"]}
{"id": "C94", "title": "Module names: dir lists what can be got, only deprecated names warn", "statement": "For fauxdoc.emitters, fauxdoc.emitters.wrappers and fauxdoc.typing: dir lists a name exactly if the module gives something for it, in alphabetical order. A current name never warns. A deprecated name gives the old object and warns at every use, once for an attribute or for a from-import out of a module, twice for a from-import out of a package. Star imports give every name in __all__. Any other name raises AttributeError without a warning.", "quantifier": "all modules with such functions, all global variables and tables of deprecated names, all lists of names imported", "why_tests_cant": "tests look up a few names; that dir and attribute access agree on every name, and the count of warnings for every import, are statements about all names and tables", "anchors": ["src/fauxdoc/emitters/__init__.py:__getattr__", "src/fauxdoc/emitters/__init__.py:__dir__", "src/fauxdoc/emitters/wrappers.py:__getattr__", "src/fauxdoc/emitters/wrappers.py:__dir__", "src/fauxdoc/typing.py:__getattr__", "src/fauxdoc/typing.py:__dir__", "src/fauxdoc/warn.py:get_deprecated_attr"]}
{"id": "C95", "title": "A Sequential follows its list", "statement": "The list given to a Sequential is its items, also when it is changed later. Each value is the item that the list holds, at the time, at the place reached; when the list has no such place, the next round starts. So values are always in the list, appended items are emitted in the round that is under way, as many values as the list has items are its items once each, reset starts at the beginning of the list as it is, and num_unique_values counts the present items. Calls return, whatever is done to the list. The same holds for the list of a factory assigned later.", "quantifier": "all histories of calls, resets, assignments and changes of any lists, all numbers of values", "why_tests_cant": "the list can be changed in any way between any two calls; a test shows one change at one place", "anchors": ["src/fauxdoc/emitters/fixed.py:Sequential.__init__", "src/fauxdoc/emitters/fixed.py:Sequential.emit", "src/fauxdoc/emitters/fixed.py:Sequential.emit_many", "src/fauxdoc/emitters/fixed.py:Sequential.reset", "src/fauxdoc/emitters/fixed.py:Sequential.iterator_factory", "src/fauxdoc/emitters/fixed.py:Iterative.make_infinite_iter", "src/fauxdoc/mixins.py:ItemsMixin.num_unique_values"]}
{"id": "C96", "title": "Assigning a saved iterator_factory restores a Sequential", "statement": "Assigning em.iterator_factory to itself does no more than reset. Keeping em.iterator_factory, assigning another factory, and then assigning the one kept, brings the first sequence back.", "quantifier": "all states, all factories over lists, all histories afterwards", "why_tests_cant": "equal behaviour is meant for every history that can follow, with every factory", "anchors": ["src/fauxdoc/emitters/fixed.py:Sequential.iterator_factory", "src/fauxdoc/emitters/fixed.py:Sequential.__init__"]}
{"id": "C97", "title": "The text of a range says which range it is", "statement": "Every range has a text (repr, str), and two ranges with the same text have the same start, step and values. The text names start, stop and step in the format of the datetime module, dates as in the Gregorian calendar, and it never changes.", "quantifier": "all ranges of dates, times and datetimes of any length and step", "why_tests_cant": "that no two of infinitely many ranges share a text cannot be tried out; the ranges that do share one are found by proof", "anchors": ["src/fauxdoc/dtrange.py:DateOrTimeRange.__repr__", "src/fauxdoc/dtrange.py:DateOrTimeRange.stop"]}
{"id": "C98", "title": "A text given to dtrange stands for the value it writes", "statement": "A string argument of dtrange is taken for a date, time or datetime exactly if it is one of the documented ISO forms of that value, no string has two meanings, and any other string raises ValueError. str and isoformat of a value are such forms. Passing the texts of start and stop out of repr(r), with the step, to dtrange gives r again.", "quantifier": "all strings, all valid dates, times and datetimes, all ranges and steps", "why_tests_cant": "there are infinitely many strings; that no string outside the documented forms is accepted, or has two meanings, is beyond sampling", "anchors": ["src/fauxdoc/dtrange.py:_parse_user_date", "src/fauxdoc/dtrange.py:dtrange", "src/fauxdoc/dtrange.py:DateOrTimeRange.__repr__"]}
{"id": "C99", "title": "A fractional step of dtrange is a whole number of microseconds, as near as can be", "statement": "dtrange with a float as step is dtrange with a number of microseconds that differs from the float by at most half a microsecond (apart from 2^-13 microseconds for rounding to doubles). A whole float means the same as the int. A decimal number of seconds, hours or weeks that stands for m microseconds gives exactly m microseconds, up to 2^51. Larger steps never become smaller. Infinity, NaN and steps of less than half a microsecond are refused.", "quantifier": "all floats, units, starts and stops; any rounding that IEEE 754 allows", "why_tests_cant": "there are 2^64 floats for each unit, and wrong rounding shows up for one in thousands", "anchors": ["src/fauxdoc/dtrange.py:dtrange"]}
{"id": "C100", "title": "Fields derived from a hidden field show the same items, and the documents go through all items in order", "statement": "In a schema with a hidden field that makes a varying number of items by an Iterative, and any number of fields that use it by BasedOnFields (the last example of the README), each document shows in every derived field what its action returns for the same list of items, the number of items is one of the given ones, the hidden field is not shown, and the documents go through the sequence of items without gaps or repetitions, beginning with the first item. After reset_fields they begin with the first item again.", "quantifier": "all sequences of items, numbers of items, weights, actions, generators and numbers of documents", "why_tests_cant": "how many items are missing depends on the seed, and tests look at a few documents of one schema", "anchors": ["src/fauxdoc/emitters/fromfields.py:BasedOnFields", "src/fauxdoc/profile.py:Field.__call__", "src/fauxdoc/profile.py:Schema.__call__", "src/fauxdoc/profile.py:Schema.reset_fields"]}
{"id": "C101", "title": "An ObjectMap is an ordered dict", "statement": "Whatever sequence of dict operations (lookup, assignment, del, pop, popitem, setdefault, update, move_to_end, clear) is applied to an ObjectMap, results, errors, entries and order of keys are those of an ordered dict; so are the results of |, == and the order in which do_method visits members. Copying one (copy, copy.copy, copy.deepcopy, pickle, fromkeys) gives an equal map.", "quantifier": "all maps and all finite histories of operations", "why_tests_cant": "histories of operations are unbounded, and no test of the project copies a map", "anchors": ["src/fauxdoc/group.py:ObjectMap.__init__", "src/fauxdoc/group.py:ObjectMap.objects_iterable", "src/fauxdoc/group.py:GroupMixin.do_method"]}
{"id": "C102", "title": "do_method reaches every member once, even if the members change the group", "statement": "do_method calls the method on each member that the group has at the time of the call exactly once, in order, skips those that lack it, and comes to an end, even if the methods themselves add members to or remove members from the group.", "quantifier": "all groups and maps, and all methods with any effect on the group", "why_tests_cant": "tests use members without any effect on the group; the failures depend on which members change it and when", "anchors": ["src/fauxdoc/group.py:GroupMixin.do_method", "src/fauxdoc/group.py:ObjectGroup.objects_iterable", "src/fauxdoc/group.py:ObjectMap.objects_iterable"]}
{"id": "C103", "title": "The mixins do their part in every class built from them", "statement": "In every class derived from Emitter and the mixins, directly or through further classes, as long as methods that are overridden call super: construction takes rng_seed, items and children from the keyword arguments and refuses others; reset makes a new generator from rng_seed and resets every child (with RandomWithChildrenMixin after giving it the seed); seed seeds the generator and (with RandomWithChildrenMixin) the children; and each class in between is visited once, in the method resolution order. A class is refused (TypeError) exactly if no order keeps that of its bases and of their ancestors.", "quantifier": "all hierarchies of classes that Python accepts, all overriding methods, all instances", "why_tests_cant": "the classes that users can build are unbounded in number, and the tests contain only the classes of the library", "anchors": ["src/fauxdoc/mixins.py:RandomMixin", "src/fauxdoc/mixins.py:ItemsMixin", "src/fauxdoc/mixins.py:ChildrenMixin", "src/fauxdoc/mixins.py:RandomWithChildrenMixin", "src/fauxdoc/emitter.py:Emitter.reset"]}
{"id": "C104", "title": "Fields based on each other, even in circles, are a system of recurrences", "statement": "In a schema whose fields are all computed by BasedOnFields from fields of the same schema, in any order, also from themselves, a document shows the solution of the equations in which an action sees earlier fields as they are in the same document, and its own field and later fields as they were in the document before (None at first and after reset_fields). Nothing else, such as generators or seeds, has an influence, and nothing but the last values changes. A document is made exactly if the actions accept those values. For example, a field based on itself counts documents, and three fields give the Fibonacci numbers.", "quantifier": "all such schemas, all actions, all numbers of documents", "why_tests_cant": "the sequences are endless and the actions and circles are arbitrary", "anchors": ["src/fauxdoc/emitters/fromfields.py:BasedOnFields.emit", "src/fauxdoc/profile.py:Field.__call__", "src/fauxdoc/profile.py:Field.previous", "src/fauxdoc/profile.py:Schema.__call__", "src/fauxdoc/profile.py:Schema.reset_fields"]}
{"id": "C105", "title": "An interrupt at any moment can be undone by resetting", "statement": "If the user interrupts (KeyboardInterrupt) a call, a document, reset or seed at any moment, the interrupt reaches the caller: no except clause of the library swallows it. No configuration has changed (reset and seed may have passed on seeds), and nothing outside the object called and the emitters below it. In an interrupted document the fields before the one under way have their new last values, those after it the old ones, and it has its old one or its complete new one. If the fields have seeds, then after any number of calls, documents and resets, interrupted or not, reset_fields() gives the same documents as if nothing had happened; after interrupted seeding, seed_fields(s) and reset_fields() do. Without resetting, an Iterative or Sequential that was interrupted while its iterator was running stays finished: calling it raises StopIteration, asking for several values gives none, and seeding does not help.", "quantifier": "all schemas, all moments of interruption, all histories of interrupted and complete uses", "why_tests_cant": "an interrupt can come at any of the unboundedly many moments of every run, and tests cannot place it", "anchors": ["src/fauxdoc/emitter.py:Emitter.__call__", "src/fauxdoc/emitters/fixed.py:Iterative", "src/fauxdoc/emitters/fixed.py:Sequential", "src/fauxdoc/mixins.py:RandomWithChildrenMixin", "src/fauxdoc/group.py:GroupMixin.do_method", "src/fauxdoc/profile.py:Field.__call__", "src/fauxdoc/profile.py:Schema.__call__", "src/fauxdoc/profile.py:Schema.reset_fields", "src/fauxdoc/profile.py:Schema.seed_fields"]}
{"id": "C106", "title": "Seeding and resetting obey simple laws", "statement": "With an integer as seed: seeding again has the same effect as the last seeding alone, whatever came before; a second reset changes nothing; whatever was seeded or reset below an object makes no difference once the object itself is seeded or reset; assigning rng_seed and resetting does what seeding and resetting does; and seeding then resetting leaves everything as resetting then seeding does. The same holds for seed_fields and reset_fields of a schema.", "quantifier": "all objects, schemas, seeds and states", "why_tests_cant": "equal effects on every later value cannot be seen from finitely many values, and there are too many states to begin in", "anchors": ["src/fauxdoc/mixins.py:RandomMixin.seed", "src/fauxdoc/mixins.py:RandomMixin.reset", "src/fauxdoc/mixins.py:RandomWithChildrenMixin", "src/fauxdoc/emitters/choice.py:Choice.seed", "src/fauxdoc/emitters/choice.py:Choice.reset", "src/fauxdoc/emitters/text.py:Word.reset", "src/fauxdoc/emitters/text.py:Text.seed", "src/fauxdoc/profile.py:Schema.reset_fields", "src/fauxdoc/profile.py:Schema.seed_fields"]}
{"id": "C107", "title": "Programs that share no objects do not influence each other", "statement": "Take objects with seeds that depend on no others (as child emitters or source fields), and that no other objects have as emitters. Whatever a program does with them (calls, documents, reset, seed, with their fields), its values, documents and exceptions and the state it leaves behind do not depend on what else is done in between: building other objects, calling, resetting and seeding them (also with None), assigning to any of their attributes, even building and calling emitters that copy the values of the first objects. So two programs with disjoint objects can be interleaved in any order, and each gets exactly what it would get alone.", "quantifier": "all sets of objects closed in this way, all sequences of uses, all other steps and interleavings", "why_tests_cant": "there are unboundedly many interleavings with unboundedly many other steps", "anchors": ["src/fauxdoc/emitter.py:Emitter.__call__", "src/fauxdoc/mixins.py:RandomMixin", "src/fauxdoc/mixins.py:RandomWithChildrenMixin", "src/fauxdoc/emitters/fromfields.py:CopyFields", "src/fauxdoc/emitters/fromfields.py:BasedOnFields", "src/fauxdoc/profile.py:Field", "src/fauxdoc/profile.py:Schema.__call__", "src/fauxdoc/profile.py:Schema.reset_fields", "src/fauxdoc/profile.py:Schema.seed_fields"]}
{"id": "C108", "title": "The order of fields that have nothing to do with each other does not matter", "statement": "Two fields are apart if neither looks at anything that a call of the other can change (two fields that copy the same third field may be apart). If the fields of a schema are put in another order in which fields that are not apart keep their order, the schema makes the same documents up to the order of the entries, leaves every object in the same state, and raises exactly if the other one does. So fields of which any two are apart can be listed in any order.", "quantifier": "all schemas of fields with seeds, all orders of their fields, all numbers of documents", "why_tests_cant": "there are unboundedly many schemas, orders of fields and states", "anchors": ["src/fauxdoc/profile.py:Schema.__call__", "src/fauxdoc/profile.py:Schema.__init__", "src/fauxdoc/profile.py:Field.__call__", "src/fauxdoc/emitters/fromfields.py:CopyFields", "src/fauxdoc/emitters/fromfields.py:BasedOnFields", "src/fauxdoc/emitter.py:Emitter.__call__"]}
{"id": "C109", "title": "Unique means unequal in the sense of Python", "statement": "num_unique_values is the number of values that can (still) be emitted and are different in the sense of ==, so that True, 1 and 1.0 count as one, a nan counts once for each object, and strings, tuples and None as usual; a TypeError is raised exactly if one of them has no hash. It does not depend on the order of the items or the shuffle. When emits_unique_values is true, no two of the values emitted from then on until the next shuffle are equal. All that is needed is that == is an equivalence and equal values have equal hashes, which is the case for values of built-in types. For values without equality across types the counts are those of C17.", "quantifier": "all item lists, all types with lawful equality and hashes, all histories of a Choice", "why_tests_cant": "there are unboundedly many items, user-defined equalities and histories", "anchors": ["src/fauxdoc/mixins.py:ItemsMixin.num_unique_values", "src/fauxdoc/emitters/choice.py:Choice.num_unique_values", "src/fauxdoc/emitters/choice.py:Choice.emits_unique_values", "src/fauxdoc/emitters/choice.py:Choice.num_unique_items"]}
{"id": "C110", "title": "Fields that share an emitter share out its values", "statement": "If several fields have the same emitter (and neither their repeats nor their gates use it), the values they take from it across any number of documents are one run of that emitter, dealt out document by document and in a document in the order of the fields. For a Choice without replacement they are consecutive values of one permutation of its items, so no item comes twice, neither in one field nor in two, and the counter goes down by as many; for Iterative and Sequential they go round: with m fields and one value each, field i of document j has item j * m + i. This holds whichever documents fail and whatever is called, reset or seeded in between that is not above the emitter.", "quantifier": "all schemas, all fields over the emitter, all numbers of documents, all histories of other objects", "why_tests_cant": "there are unboundedly many fields over one emitter, documents, and uses of other objects in between", "anchors": ["src/fauxdoc/profile.py:Field.__call__", "src/fauxdoc/profile.py:Schema.__call__", "src/fauxdoc/emitters/choice.py:Choice.emit_many", "src/fauxdoc/emitters/fixed.py:Iterative.emit_many", "src/fauxdoc/emitters/fixed.py:Sequential"]}
{"id": "C111", "title": "A wrapper describes its function and calls it with the generator of its emitter", "statement": "At any time signature and wants_rng of a BoundWrapper are those of its function, whatever functions were assigned before; a call runs exactly this function, with the rng of the emitter the wrapper is bound to if the function declares rng and without if not. (False of the code in three cases. Assigning something that cannot be called raises TypeError but is stored next to the old signature and wants_rng. A BoundWrapper assigned to the attribute function keeps drawing from the emitter it is bound to. A callable given to BoundWrapper that happens to have an attribute named function is never called, the attribute is.)", "quantifier": "all functions, all histories of constructions, assignments and calls, all nestings of wrappers", "why_tests_cant": "functions, signatures and histories of assignments are unbounded, and wrappers can be shared and nested without bound", "anchors": ["src/fauxdoc/emitters/wrappers.py:BoundWrapper.__init__", "src/fauxdoc/emitters/wrappers.py:BoundWrapper.function", "src/fauxdoc/emitters/wrappers.py:BoundWrapper.signature", "src/fauxdoc/emitters/wrappers.py:BoundWrapper.wants_rng", "src/fauxdoc/emitters/wrappers.py:BoundWrapper.__call__"]}
{"id": "C112", "title": "The seed given to an emitter decides what it emits", "statement": "An emitter that was given a seed gives the same values in every run of the program, also when it is used in a Field, Word, Text or wrapper. (False of the code: these reset their emitters with their own rng_seed, and if that is None the seed of the emitter is replaced by None and its generator by one from the operating system; this happens to an emitter shared with a field that has a seed, too. What holds is the following. Seeds given to the emitters of a new Field, Word, Text, WrapOne or WrapMany, and all that they have emitted before, make no difference to anything that happens afterwards; the same goes for reset. If the object itself has a seed, the operating system makes no difference either.)", "quantifier": "all structures of objects, all seeds of the object and of the emitters below it, all states of these emitters", "why_tests_cant": "structures, seeds and histories are unbounded, and a lost seed shows only when two runs of the program are compared", "anchors": ["src/fauxdoc/mixins.py:RandomWithChildrenMixin.reset", "src/fauxdoc/mixins.py:RandomMixin.reset", "src/fauxdoc/profile.py:Field.__init__", "src/fauxdoc/emitters/text.py:Word.__init__", "src/fauxdoc/emitters/text.py:Text.__init__", "src/fauxdoc/emitters/wrappers.py:WrapOne.__init__", "src/fauxdoc/emitters/wrappers.py:WrapMany.__init__"]}
{"id": "C113", "title": "Generating goes onward and never starts over", "statement": "Calling an object or generating a document takes the random generators below it onward, by drawing from them, and never puts one of them back to where it was before. So generating more does not end up in a loop: only reset and seed start over. (False of the code: a Text whose word emitter is a Choice with replace_only_after_call resets this Choice whenever a call needs more words than the list has, and if the Choice has a seed, as it has in a Text with a seed, its generator is put back to the start. With a fixed number of words to a text, all calls for the same number of texts from the second on then return the same texts, for ever, and leave everything as it was. It holds for everything that has no such Text in it, whether the call succeeds or not.)", "quantifier": "all structures of objects, all generators, all histories, all calls with all arguments including those that fail", "why_tests_cant": "objects, states and calls are unbounded, and a loop shows only if successive calls are compared with a list of words that is short enough", "anchors": ["src/fauxdoc/emitters/text.py:Text._get_words_iterator", "src/fauxdoc/emitters/text.py:Text.emit_many", "src/fauxdoc/emitter.py:Emitter.__call__", "src/fauxdoc/emitters/choice.py:Choice.reset", "src/fauxdoc/mixins.py:RandomMixin.reset"]}
{"id": "C114", "title": "Texts have the probabilities of their number of words, words and separators", "statement": "A Text that chooses the number of its words, its words and its separators by weight, with replacement, gives each text with the probability of its number of words times the probabilities of its words and separators, in any order and combination. (False of the code for a Text with a seed: seed and reset give the three emitters the same seed, so in the first text the draw that decides a word also decides the separator behind it, for every word, and the draw that decides the number of words decides the first word. With two words and two separators of equal weight each word of the first text is always followed by the same separator, whatever the seed. It holds if the generators of the three start in independent states.)", "quantifier": "all weights, words and separators that can be told apart in a text, all seeds and generators, all states with independent uniform draws", "why_tests_cant": "probabilities can only be estimated by tests, and weights, words and separators are unbounded; that a pair never occurs after any seed is about all seeds", "anchors": ["src/fauxdoc/emitters/text.py:Text.emit_many", "src/fauxdoc/emitters/text.py:Text.seed", "src/fauxdoc/emitters/choice.py:Choice.emit_many", "src/fauxdoc/mixins.py:RandomWithChildrenMixin.seed", "src/fauxdoc/mixins.py:RandomWithChildrenMixin.reset"]}
{"id": "C115", "title": "The error for asking too much says how much can be had", "statement": "If a Choice without replacement, or with replace_only_after_call, is asked for more values than it can give, the message of the ValueError names the number asked for and a smaller number, that of the possible selections; both can be read from the message. So many values can be had at once, and no more. (The last is false of the code if equal items are left: the message counts different values, so it says 2 for a, a and b, all three of which can be had.)", "quantifier": "all items, weights and generators, all histories of a Choice, all numbers asked for", "why_tests_cant": "items, histories and numbers are unbounded; the two numbers differ in a misleading way only for equal items that are left", "anchors": ["src/fauxdoc/emitter.py:Emitter.raise_uniqueness_violation", "src/fauxdoc/emitters/choice.py:Choice._choice_without_replacement", "src/fauxdoc/emitters/choice.py:Choice.num_unique_values", "src/fauxdoc/emitters/choice.py:Choice.num_unique_items"]}
{"id": "C116", "title": "Fields are filled independently of each other", "statement": "If two fields of a schema have their values from two Choices with replacement that nothing else uses, then in any number of documents the values of the one are independent of the values of the other: each pair of items has the product of the shares of their weights as its probability. (False of the code after seed_fields: every field gets the same seed, so the m-th values of the two fields are decided by the same draw for all m; some pairs never come, and with equal weights the two always choose the same position.)", "quantifier": "all schemas, items, weights, gates, repeats, seeds, numbers of documents and generators", "why_tests_cant": "a statement about probabilities over all generators and numbers of documents; a test with one seed cannot tell dependence from chance", "anchors": ["src/fauxdoc/profile.py:Schema.seed_fields", "src/fauxdoc/profile.py:Schema.__call__", "src/fauxdoc/profile.py:Field.__call__", "src/fauxdoc/emitters/choice.py:Choice.emit", "src/fauxdoc/emitters/choice.py:Choice.emit_many", "src/fauxdoc/emitter.py:Emitter.__call__"]}
{"id": "C117", "title": "The random parts of a wrapped value are independent", "statement": "The values that a WrapMany combines are drawn independently of each other if its sources are different Choices with replacement, and the numbers that the callback of a WrapOne draws from the generator it is given are independent of the values of its source, over any calls for one or several values. (False of the code after seed: the wrapper and all its sources get the same seed, so the m-th values of two sources are decided by the same draw and some pairs never come; and the number that the callback draws for a value is the one that has picked the value, so it always lies in the share of that item.)", "quantifier": "all items, weights, callbacks, seeds, generators and sequences of calls for one or several values", "why_tests_cant": "the dependence holds for all seeds and calls; a test with one seed sees plausible values and cannot tell dependence from chance", "anchors": ["src/fauxdoc/emitters/wrappers.py:WrapMany.emit", "src/fauxdoc/emitters/wrappers.py:WrapMany.emit_many", "src/fauxdoc/emitters/wrappers.py:WrapOne.emit", "src/fauxdoc/emitters/wrappers.py:WrapOne.emit_many", "src/fauxdoc/emitters/wrappers.py:BoundWrapper.__call__", "src/fauxdoc/mixins.py:RandomWithChildrenMixin.seed", "src/fauxdoc/emitters/choice.py:Choice.emit", "src/fauxdoc/emitters/choice.py:Choice.emit_many"]}
{"id": "C118", "title": "How many values a field has is independent of which", "statement": "If the repeat emitter and the emitter of a field are Choices with replacement, the lists that the field gives in any number of calls have as many members as the weights of the repeat emitter say, each with the probabilities of its own weights and independently of the number. (False of the code after seed: both get the same seed, so the first number of values and the first of these values are decided by the same draw; some numbers never come with some items in front.)", "quantifier": "all fields with a random repeat, items, weights, seeds, generators and numbers of calls", "why_tests_cant": "a joint distribution over all generators and numbers of calls; any one seeded list looks plausible", "anchors": ["src/fauxdoc/profile.py:Field.__call__", "src/fauxdoc/profile.py:Field.repeat_emitter", "src/fauxdoc/profile.py:Field.emitter", "src/fauxdoc/mixins.py:RandomWithChildrenMixin.seed", "src/fauxdoc/emitters/choice.py:Choice.emit", "src/fauxdoc/emitters/choice.py:Choice.emit_many"]}
{"id": "C119", "title": "A schema notices that its fields change while it makes a document", "statement": "Whatever its fields do to this and other schemas while a document is made, a call of a schema calls the fields it had at the start, in order, each as it is found when its turn comes, and returns a document with no other fields and in this order. If a field adds, removes or moves fields of the schema meanwhile, a RuntimeError is raised instead of a document that fits neither the old nor the new fields; if none does, the call fails only if a field fails. (Not true of the last field: what it changes is not noticed, and the document is returned.)", "quantifier": "all schemas, all behaviours of fields, including those that set, add, remove, move, rename or hide fields of any schema while called", "why_tests_cant": "needs every behaviour of fields during a call; tests have fields that leave the schema alone", "anchors": ["src/fauxdoc/profile.py:Schema.__call__", "src/fauxdoc/profile.py:Schema.add_fields", "src/fauxdoc/profile.py:Schema.set_fields", "src/fauxdoc/group.py:ObjectMap"]}
{"id": "C120", "title": "Schemas do not interfere with each other", "statement": "A schema whose fields were set has exactly these fields, under the names they had then, in a map that no other schema has. Whatever happens to other schemas, to other maps and to the names of fields, it keeps them, as long as its map is not given to another schema. The maps that hidden_fields and public_fields return are new: changing them changes no schema. Two schemas that were given the same map have the same fields until the map of one of them is replaced. add_fields replaces fields of the same name in place and appends the others.", "quantifier": "all numbers of schemas, maps and fields, all sequences of set_fields, add_fields, assignments, views, changes of maps, renamings and hidings", "why_tests_cant": "all interleavings of actions on any number of schemas and maps; tests try a few by hand", "anchors": ["src/fauxdoc/profile.py:Schema.__init__", "src/fauxdoc/profile.py:Schema.set_fields", "src/fauxdoc/profile.py:Schema.add_fields", "src/fauxdoc/profile.py:Schema.hidden_fields", "src/fauxdoc/profile.py:Schema.public_fields", "src/fauxdoc/group.py:ObjectMap.__init__"]}
{"id": "C121", "title": "Calls of a Choice are independent of each other", "statement": "If the draws of the generator are independent and uniform, then the calls of a Choice with replacement and with weights, with or without replace_only_after_call, are independent of each other: the probability of any results of any sequence of calls, each for one or several values, is the product of the probabilities of the single results, each as if it were the first call. This holds although, with replace_only_after_call, the number of draws that a call takes depends on what it draws.", "quantifier": "all items, positive weights, histories of a Choice, sequences of calls and possible results", "why_tests_cant": "a joint probability over any number of calls with a variable number of draws; statistics could only estimate it for one case", "anchors": ["src/fauxdoc/emitters/choice.py:Choice.emit", "src/fauxdoc/emitters/choice.py:Choice.emit_many", "src/fauxdoc/emitters/choice.py:Choice._choice_with_replacement", "src/fauxdoc/emitters/choice.py:Choice._choice_without_replacement", "src/fauxdoc/mathtools.py:weighted_shuffle", "src/fauxdoc/emitter.py:Emitter.__call__"]}
{"id": "C122", "title": "A class can be instantiated exactly if it says how to emit", "statement": "A class derived from Emitter, in any hierarchy of library and user classes, can be instantiated exactly if emit and emit_many are each defined by a class that comes before Emitter in its method resolution order; otherwise making an instance raises a TypeError whatever the arguments. Of the library, exactly Emitter and the deprecated Wrap cannot be instantiated. A subclass of Wrap that defines both methods can, and its instances have the given sources as emitters, given the seed and reset, and a generator made with the seed.", "quantifier": "all class hierarchies, methods of the user, seeds and sources", "why_tests_cant": "the class hierarchies that users can build from the library are unbounded; tests instantiate the classes of the library", "anchors": ["src/fauxdoc/emitter.py:Emitter", "src/fauxdoc/emitter.py:Emitter.emit", "src/fauxdoc/emitter.py:Emitter.emit_many", "src/fauxdoc/emitters/wrappers.py:_deprecated_Wrap", "src/fauxdoc/emitters/wrappers.py:_deprecated_Wrap.__init__"]}
{"id": "C123", "title": "In the long run items turn up as often as their weights say", "statement": "If the draws of the generator are independent and uniform, then, for a Choice with replacement and any endless sequence of calls for one or several values, the share of the values equal to x tends, with probability 1, to the share of the weights of the items equal to x, or without weights to the share of x among the items. So each item with a positive weight turns up as many times as you like. With weights and replace_only_after_call this holds for calls for one value.", "quantifier": "all items (also equal ones), weights, histories of a Choice and endless sequences of calls", "why_tests_cant": "a limit over endless sequences of calls, with probability 1; tests see finitely many values and can only compare frequencies with a tolerance", "anchors": ["src/fauxdoc/emitters/choice.py:Choice.emit", "src/fauxdoc/emitters/choice.py:Choice.emit_many", "src/fauxdoc/emitters/choice.py:Choice._choice_with_replacement", "src/fauxdoc/emitters/choice.py:chance", "src/fauxdoc/emitter.py:Emitter.__call__"]}
{"id": "C124", "title": "In the long run documents show the weights and the chances", "statement": "If the draws of the generator are independent and uniform: for a field filled by a Choice with weights of its own, with replacement, the share of its values equal to x tends, with probability 1, to the share of the weights of x, as more and more documents are made, whatever its gate, its repeat and the other fields; if it has one value in each document, so does the share of the documents in which it is x. For a field with the gate chance(p) and an emitter that never gives None, the share of the documents in which it is filled tends to p.", "quantifier": "all schemas with such a field, weights, probabilities and endless sequences of documents", "why_tests_cant": "a limit over endless sequences of documents, with probability 1; tests see finitely many documents", "anchors": ["src/fauxdoc/profile.py:Schema.__call__", "src/fauxdoc/profile.py:Field.__call__", "src/fauxdoc/emitters/choice.py:Choice.emit", "src/fauxdoc/emitters/choice.py:chance"]}
{"id": "C125", "title": "A text tells its words, so the number of texts is exact", "statement": "If the words of a Text consist of letters and its separators of other characters, and none is empty, then a text determines its words and separators. So, with different word counts of at least one, exactly num_unique_values texts are possible, and there are emitters of these counts, words and separators with which exactly that many different texts are emitted. Without the condition there can be fewer.", "quantifier": "all sets of words and separators that can be told apart, and all word counts", "why_tests_cant": "about all words, separators and counts; tests compare the number with the formula it is computed by, or count the texts of a few small examples", "anchors": ["src/fauxdoc/emitters/text.py:Text.emit_many", "src/fauxdoc/emitters/text.py:Text.num_unique_values", "src/fauxdoc/emitters/text.py:Text._update_num_unique_vals"]}
{"id": "C126", "title": "In the long run a field has as many values as its repeat says", "statement": "Take a field with a random number of random values: the number comes from one Choice with weights and the values from another, both with replacement. If the draws of each of the two generators are independent and uniform, then, with probability 1, as the field is called again and again, the average number of its values tends to the weighted average of the numbers, the share of x among the values tends to the share of its weight (if there are values at all), and the average number of times x is among the values of a call tends to the product of the two. The two generators may have to do with each other in any way, and may even be in the same state, as after seeding.", "quantifier": "all such fields, weights, numbers, values, joint distributions of the two generators and endless sequences of calls", "why_tests_cant": "a limit over endless sequences of calls, with probability 1, for all joint distributions of two generators; tests see finitely many values", "anchors": ["src/fauxdoc/profile.py:Field.__call__", "src/fauxdoc/emitters/choice.py:Choice.emit", "src/fauxdoc/emitters/choice.py:Choice.emit_many"]}
{"id": "C127", "title": "The words and texts of a sequence of calls follow their weights", "statement": "Call a Word with a random length and random letters, or a Text with a random number of words, random words and random separators, again and again. The lengths are picked by the draws of the one generator, the letters (words, separators) of all results, one after the other, by the draws of the others: no draw is used twice and none is left out. If the draws of each generator are independent and uniform, then, with probability 1, the average length of the words tends to the weighted average of the lengths and the share of a letter to the share of its weight; and if one takes the texts apart, the average number of words in a text, the share of a word among the words and that of a separator among the separators tend to what the weights say, even if the generators are in the same state.", "quantifier": "all such Words and Texts, weights, joint distributions of the generators and endless sequences of calls", "why_tests_cant": "endless sequences of calls, with probability 1, for all weights and joint distributions; tests read finitely many texts", "anchors": ["src/fauxdoc/emitters/text.py:Word.emit", "src/fauxdoc/emitters/text.py:Text.emit", "src/fauxdoc/emitters/choice.py:Choice.emit_many"]}
{"id": "C128", "title": "In the long run the values of two fields come together as often as their weights say", "statement": "Take two fields of a schema, each with one value per document that comes from a Choice of its own with weights and replacement. As more and more documents are made, the share of the documents that have x in the one field and y in the other tends to the product of the shares of the weights of x and of y.", "quantifier": "all schemas with two such fields, all weights, values and endless sequences of documents", "why_tests_cant": "a limit over endless sequences of documents for all pairs of values and weights; tests count finitely many documents of a few schemas", "anchors": ["src/fauxdoc/profile.py:Schema.__call__", "src/fauxdoc/profile.py:Schema.seed_fields", "src/fauxdoc/emitters/choice.py:Choice.emit"]}
{"id": "C129", "title": "An emitter that goes through its items gives every item its turn", "statement": "In every history of a Sequential, and of an Iterative whose iterators end, each item is among the values since the last reset as often as it is among the items for every complete round, and at most one round more; the same holds for the values of a single call, wherever in the round it begins, so a call for as many values as there are items gives each item once; and it holds for the values of a field across any number of documents. How often an item turns up never differs from its share by more than what it has in one round.", "quantifier": "all items, histories of calls, resets and assignments, single calls and sequences of documents", "why_tests_cant": "all histories and all places in a round where a call may begin; tests list the values of a few calls", "anchors": ["src/fauxdoc/emitters/fixed.py:Iterative.emit_many", "src/fauxdoc/emitters/fixed.py:Sequential", "src/fauxdoc/profile.py:Schema.__call__"]}
{"id": "C130", "title": "Gates open independently of other gates and of other values in the long run", "statement": "As more and more documents are made, the share of those in which two fields with the gates chance(p) and chance(q) are both filled, only one of them, or neither tends, with probability 1, to the product of the shares of the two; and so does the share of those in which a field with a gate is filled and another field has a given value drawn from a Choice.", "quantifier": "all schemas with such fields, all probabilities, weights and combinations, for generators with independent uniform draws", "why_tests_cant": "a limit with probability 1 over all sequences of draws; tests see a few documents for a few seeds", "anchors": ["src/fauxdoc/profile.py:Field.__call__", "src/fauxdoc/profile.py:Schema.seed_fields", "src/fauxdoc/profile.py:Schema.__call__"]}
{"id": "C131", "title": "Texts one after the other are independent of each other", "statement": "Whatever number of texts a Text with random numbers of words, random words and random separators is asked for, one after the other, the probability of a given sequence of texts is the product of the probabilities of their numbers of words, of all their words and of all their separators; in particular no choice made for one text limits what the next can be.", "quantifier": "all such Text emitters with legible words and separators, all weights and all finite sequences of texts", "why_tests_cant": "a probability for every finite sequence of texts; tests see a few texts for a few seeds", "anchors": ["src/fauxdoc/emitters/text.py:Text.emit", "src/fauxdoc/emitters/text.py:Text.seed", "src/fauxdoc/mixins.py:RandomWithChildrenMixin.seed"]}
{"id": "C132", "title": "Words one after the other are independent of each other", "statement": "Whatever number of words a Word with random lengths and random letters is asked for, one after the other, the probability of a given sequence of words is the product of the probabilities of their lengths and of all their letters; in particular the letters of a word do not tell the length of a later one.", "quantifier": "all such Word emitters, all weights and all finite sequences of words", "why_tests_cant": "a probability for every finite sequence of words; tests see a few words for a few seeds", "anchors": ["src/fauxdoc/emitters/text.py:Word.emit", "src/fauxdoc/emitters/text.py:Word.seed", "src/fauxdoc/mixins.py:RandomWithChildrenMixin.seed"]}
{"id": "C133", "title": "What can happen happens sooner or later, after a geometric waiting time", "statement": "If a field takes its values from a Choice of its own, the probability that document number k is the first with the value x is (1 - q)^k q, where q is the share of the weights of x; and if a field has the gate chance(p), the probability that document number k is the first in which it is filled is (1 - p)^k p. With probability 1 every value with a weight turns up in some document and every gate with a positive chance opens.", "quantifier": "all schemas with such a field, whatever the other fields, all weights, chances and numbers of documents, for generators with independent uniform draws", "why_tests_cant": "a probability for every number of documents, and what happens in unending sequences; tests make a few documents", "anchors": ["src/fauxdoc/profile.py:Schema.__call__", "src/fauxdoc/profile.py:Field.__call__", "src/fauxdoc/emitters/choice.py:chance", "src/fauxdoc/emitters/choice.py:Choice"]}
{"id": "C134", "title": "The number of documents with a value follows the binomial distribution", "statement": "If a field takes its values from a Choice of its own, exactly k of n documents have the value x with the probability C(n, k) q^k (1 - q)^(n - k), where q is the share of the weights of x; and if a field has the gate chance(p), it is filled in exactly k of n documents with the probability C(n, k) p^k (1 - p)^(n - k).", "quantifier": "all schemas with such a field, whatever the other fields, all weights, chances and numbers k and n, for generators with independent uniform draws", "why_tests_cant": "a probability for every k and n; tests make a few documents for a few seeds", "anchors": ["src/fauxdoc/profile.py:Schema.__call__", "src/fauxdoc/profile.py:Field.__call__", "src/fauxdoc/emitters/choice.py:chance", "src/fauxdoc/emitters/choice.py:Choice"]}
{"id": "C135", "title": "After n documents the shares are near the weights and chances", "statement": "If a field takes its values from a Choice of its own, the share of the value x in n documents is at least eps away from the share q of the weights of x with a probability of at most q (1 - q) / (n eps^2); and if a field has the gate chance(p), the share of the n documents in which it is filled is at least eps away from p with a probability of at most p (1 - p) / (n eps^2).", "quantifier": "all schemas with such a field, whatever the other fields, all weights, chances, distances eps > 0 and numbers n > 0, for generators with independent uniform draws", "why_tests_cant": "a bound on a probability for every n and distance; tests make a few documents for a few seeds", "anchors": ["src/fauxdoc/profile.py:Schema.__call__", "src/fauxdoc/profile.py:Field.__call__", "src/fauxdoc/emitters/choice.py:chance", "src/fauxdoc/emitters/choice.py:Choice"]}
{"id": "C136", "title": "Shares far from the weights and chances are exponentially rare", "statement": "If a field takes its values from a Choice of its own, the share of the value x in n documents is at least eps away from the share of the weights of x with a probability of at most 2 exp(-2 n eps^2), whatever the weights; and the same holds for the share of the n documents in which a field with the gate chance(p) is filled, and p.", "quantifier": "all schemas with such a field, whatever the other fields, all weights, chances, distances eps > 0 and numbers n > 0, for generators with independent uniform draws", "why_tests_cant": "a bound on a probability for every n and distance; tests make a few documents for a few seeds", "anchors": ["src/fauxdoc/profile.py:Schema.__call__", "src/fauxdoc/profile.py:Field.__call__", "src/fauxdoc/emitters/choice.py:chance", "src/fauxdoc/emitters/choice.py:Choice"]}
{"id": "C137", "title": "How often two documents have the same value in a field", "statement": "If a field takes its values from a Choice of its own, any two different documents of a run have the same value in it with the probability sum of q_x^2 over the different items x, where q_x is the share of the weights of x.", "quantifier": "all schemas with such a field, whatever the other fields, all items, weights and pairs of documents, for generators with independent uniform draws", "why_tests_cant": "a probability for every pair of documents and all weights; tests make a few documents for a few seeds", "anchors": ["src/fauxdoc/profile.py:Schema.__call__", "src/fauxdoc/profile.py:Field.__call__", "src/fauxdoc/emitters/choice.py:Choice"]}
{"id": "C138", "title": "How likely it is that values are missing from a run", "statement": "If a field takes its values from a Choice of its own, none of n documents has the value x with the probability (1 - q_x)^n, where q_x is the share of the weights of x; and some item is in none of the n documents with a probability of at most the sum of (1 - q_x)^n over the items x.", "quantifier": "all schemas with such a field, whatever the other fields, all items, weights and numbers of documents, for generators with independent uniform draws", "why_tests_cant": "a probability for every number of documents and all weights; tests make a few documents for a few seeds", "anchors": ["src/fauxdoc/profile.py:Schema.__call__", "src/fauxdoc/profile.py:Field.__call__", "src/fauxdoc/emitters/choice.py:Choice"]}
