#!/usr/bin/env python3
"""Regenerates /verif/properties.jsonl (the list of claims) from the table below."""
import json, os
R = 'src/fauxdoc/'
P = []
def p(title, statement, quantifier, why, *anchors):
    P.append(dict(id=f'C{len(P)+1:02d}', title=title, statement=statement,
                  quantifier=quantifier, why_tests_cant=why,
                  anchors=[R + a for a in anchors]))

DT = 'dtrange.py:'
# ---- dtrange ---------------------------------------------------------
p('dtrange enumerates exactly the half-open progression (date, datetime)',
  'For date or datetime start/stop and a non-zero step pointing from start towards stop (or start == stop), list(dtrange(start, stop, step)) succeeds and is exactly the values start, start+step, start+2*step, ... that lie strictly before stop (strictly after stop for a negative step), in that order; no overflow can occur.',
  'all dates/datetimes in the supported calendar, all non-zero (whole-day for dates) steps, both directions',
  'unbounded ranges and steps; boundary behaviour (stop excluded, exact vs inexact division) must hold for every combination',
  DT+'dtrange', DT+'_value_to_index', DT+'_index_to_value', DT+'DateOrTimeRange')
p('dtrange against its direction is an empty range, as with range()',
  "A dtrange whose step points away from stop behaves like range(5, 0): it is empty, len() == 0 and list() == []. (False of the code: such a range gets a negative length and len()/bool()/list() raise ValueError; iterating with for yields nothing.)",
  'all date/datetime pairs and steps pointing the wrong way', 'needs every pair; the violation is universal, not an isolated example',
  DT+'dtrange', DT+'DateOrTimeRange.__len__')
p('time dtranges wrap at midnight and cover the clock once',
  'For time start/stop and a non-zero step shorter than a day, list(dtrange(start, stop, step)) is start, start+step, ... modulo 24h, continuing strictly until the clock first reaches stop in the direction of step, where start == stop means one full 24h turn. (False of the code for start == stop with a negative step.)',
  'all clock times at microsecond resolution, all steps with |step| < 24h', 'all pairs of times, including wrap-around',
  DT+'dtrange', DT+'_value_to_index', DT+'_index_to_value')
p('integer indexing follows Python sequence rules',
  'r[i] for -len(r) <= i < len(r) is the (i mod len)-th value of the progression; every other i raises IndexError.',
  'all constructed ranges and all integers i', 'negative and out-of-range indexes over unbounded lengths',
  DT+'DateOrTimeRange.__getitem__', DT+'_index_to_value')
p('index, membership and count agree with the listed values',
  'v in r iff v is in list(r); r.index(v) is a position holding v; r.index(r[i]) == i; r.count(v) == list(r).count(v). (False of the code for hand-made or unfactored time ranges that span more than 24h.)',
  'all ranges with non-zero step (time ranges spanning at most 24h), all values of the same type, all index bounds', 'membership is arithmetic, listing is enumeration; agreement needs proof over all values',
  DT+'DateOrTimeRange.index', DT+'DateOrTimeRange.__contains__', DT+'DateOrTimeRange.count', DT+'_value_to_index')
p('slicing a range equals slicing its list',
  'list(r[a:b:c]) == list(r)[a:b:c] for every slice, and the result is again a range of the same kind. (False of the code when the slice step makes a time step reach 24h, or when the computed endpoint leaves the calendar.)',
  'all ranges, all optional/negative/oversized slice bounds, all non-zero slice steps', 'slice normalisation has many interacting cases; unbounded bounds',
  DT+'DateOrTimeRange.__getitem__')
p('range equality and hash agree with the listed values',
  'r == s iff list(r) == list(s), and r == s implies hash(r) == hash(s). (The left-to-right direction always holds; the converse is false of the code for some pairs of time ranges.)',
  'all pairs of constructed ranges', 'quantifies over pairs of unbounded ranges',
  DT+'DateOrTimeRange.__eq__', DT+'DateOrTimeRange.__hash__')
p('range construction validates the step for its type',
  'A date range can only be built with a whole-day step and a time range only with |step| < 24h; every other combination raises ValueError, so date arithmetic in a built range never silently truncates. (False of the code for date steps of 544 years and more, because the step is checked in floating point.)',
  'all starts, lengths and steps', 'quantifies over all steps',
  DT+'DateOrTimeRange.step')
CH='emitters/choice.py:'; MT='mathtools.py:'
# ---- choice ----------------------------------------------------------
p('Choice with replacement emits only its items, the requested number of times',
  'With replacement (and not replace-only-after-call), em(n) for n >= 0 returns exactly n values, each an element of items, and changes nothing but the RNG.',
  'all item lists, positive-total weights or none, all n, all RNG streams and prior states', 'all RNG outputs',
  CH+'Choice._choice_with_replacement', CH+'Choice.emit', CH+'Choice.emit_many')
p('Weights control selection probability exactly; zero-weight items are never chosen',
  'A weighted with-replacement pick returns item i precisely when the uniform draw falls in the i-th weight interval, so a uniform draw selects item i with probability weights[i]/sum(weights) and an item of weight 0 is never emitted (when there is more than one item).',
  'all non-negative weight vectors with positive sum, all draws in [0,1)', 'a statistical test can neither exclude rare zero-weight picks nor settle the exact probability',
  CH+'Choice._choice_with_replacement', CH+'Choice._set_all_weights')
p('chance(p) is False for p <= 0, True for p >= 1, and True with probability p between',
  'chance(p)() is always False when p <= 0, always True when p >= 1, and for 0 <= p <= 1 emits True exactly when the uniform draw is below p.',
  'all p and all draws in [0,1)', 'always/never over all RNG outputs', CH+'chance')
p('Choice without replacement never reuses an item before a reshuffle',
  'With replace=False, the concatenation of everything emitted since the last reset/seed/weight change/replace change is a prefix of a permutation of items: no item is emitted more often than it occurs, and after len(items) emissions every item has been emitted exactly once.',
  'all histories of em(), em(n >= 0), and every attribute assignment, reset and seed, all RNG streams', 'quantifies over all interleavings of calls and state changes',
  CH+'Choice._choice_without_replacement', CH+'Choice._global_shuffle', CH+'Choice.emit', CH+'Choice.emit_many')
p('Over-asking raises ValueError and consumes nothing',
  'If a no-replacement (or replace-only-after-call with n > 1) Choice is asked for more items than remain, it raises ValueError and its observable state is unchanged, so a smaller request afterwards still succeeds.',
  'all reachable states and all n', 'all histories leading to exhaustion', CH+'Choice._choice_without_replacement', 'emitter.py:Emitter.raise_uniqueness_violation')
p('replace_only_after_call: items within one call are distinct positions of items',
  'With replace_only_after_call, each em(n) with n <= len(items) returns n items taken from n distinct positions of items (so distinct values if items are distinct), and the same number of items is available on the next call.',
  'all items, positive weights or none, all n, all RNG streams', 'all RNG outputs, both sampling algorithms', CH+'Choice._choice_without_replacement', MT+'weighted_shuffle')
p('replace_only_after_call implies replace in every reachable state',
  'After construction and after any sequence of assignments, replace_only_after_call == True implies replace == True, and setting replace=False clears replace_only_after_call.',
  'all sequences of operations', 'all sequences of setter calls', CH+'Choice.replace', CH+'Choice.replace_only_after_call')
p('weights and cum_weights always describe the same distribution',
  'In every reachable state weights and cum_weights are both None or both have one entry per item and cum_weights is the running sum of weights; a rejected (wrong-length) assignment leaves both unchanged.',
  'all sequences of weights/cum_weights assignments and other operations', 'all assignment histories', CH+'Choice._set_all_weights', CH+'Choice.weights', CH+'Choice.cum_weights')
p('num_unique_items, num_unique_values and emits_unique_values tell the truth',
  'In every reachable state without replacement, num_unique_items is the number of items still emittable before ValueError, num_unique_values the number of distinct values among them, and emits_unique_values is True iff no value can be emitted twice before a reshuffle; with replacement they are len(items), the number of distinct items, and False.',
  'all reachable states', 'counters must stay in sync with the hidden shuffle over every history', CH+'Choice.num_unique_items', CH+'Choice.num_unique_values', CH+'Choice.emits_unique_values')
p('Choice reset and seed erase history',
  'After reset() with a fixed rng_seed, or after seed(s), all later outputs are determined by the configuration and the seed alone, independent of everything emitted before; two equally configured emitters with the same seed emit identical sequences.',
  'all pairs of histories, all subsequent call sequences', 'all histories', CH+'Choice.reset', CH+'Choice.seed', 'mixins.py:RandomMixin')
p('A failed operation leaves a Choice usable',
  'An operation that raises leaves the emitter in a usable state. (Holds for wrong-length weights and over-asking; false of the code for replace = False with a zero weight, which raises ZeroDivisionError half way and leaves the emitter failing on every call.)',
  'all reachable states and operations', 'exception safety across all states', CH+'Choice.replace', CH+'Choice._global_shuffle', MT+'weighted_shuffle')
p('weighted_shuffle samples without replacement and terminates',
  'weighted_shuffle(items, weights, rng, k) with k <= len(items) positive weights returns k items from k distinct positions for every RNG stream and always terminates; with k omitted it returns a permutation of items; mismatched lengths raise ValueError; in the small-k regime zero-weight items are never returned.',
  'all items, non-negative weights, k, RNG streams', 'termination of a rejection loop and distinctness for all streams', MT+'weighted_shuffle')
p('Raising one weight never demotes that item in a shuffle',
  'For the same random stream, increasing one item\'s weight (all else equal) never removes it from the first k results of the score-based weighted shuffle.',
  'all weights, streams, positions, k', 'relational property of two runs', MT+'weighted_shuffle')
p('clamp returns the nearest number within the limits',
  'clamp(x, mn, mx) is x if x is within the given limits, otherwise the violated limit; with mn <= mx the result always lies within [mn, mx] and no number within the limits is closer to x.',
  'all numbers and optional limits', 'all numbers', MT+'clamp')
p('poisson and gaussian weights have the documented shape',
  'poisson(x, mu) is positive for mu > 0 and is maximal at x = floor(mu), rising before and falling after; the poisson values over all x sum to 1; gaussian is positive for sigma > 0, symmetric about mu and maximal at mu.',
  'all x, mu, sigma (as real numbers)', 'all parameters', MT+'poisson', MT+'gaussian')
p('poisson_choice/gaussian_choice never give a weight below the floor',
  'Every item of poisson_choice/gaussian_choice gets weight max(floor, pdf(position)), one per item, so with weight_floor > 0 every item remains selectable and construction without replacement cannot divide by zero.',
  'all items, mu, sigma, floors', 'all parameters', CH+'poisson_choice', CH+'gaussian_choice')
FX='emitters/fixed.py:'
# ---- fixed -----------------------------------------------------------
p('Static always emits its current value',
  'Static(v)() == v and Static(v)(n) == [v]*n for every n; after assigning value = w the same holds for w and items == [w].',
  'all values, n and histories', 'all histories', FX+'Static')
p('Iterative and Sequential emit the cyclic repetition of their source across any call pattern',
  'The concatenation of all values emitted by any sequence of em()/em(n) calls since the last reset is the prefix of the endless repetition of the source (the source itself if infinite); splitting the same number of values over different calls does not change them.',
  'all finite non-empty or infinite sources, all sequences of calls', 'all partitions of the stream into calls', FX+'Iterative', FX+'Sequential')
p('reset_after_call makes every call start over',
  'With reset_after_call, every call em(n) returns the first n values of the endless repetition, whatever was called before.',
  'all sources, histories and n', 'all histories', FX+'Iterative.emit', FX+'Iterative.emit_many', FX+'Sequential.emit_many')
p('Empty sources are rejected and a rejected source changes nothing',
  'Constructing or re-targeting an Iterative/Sequential with an empty source (or, for Sequential, a non-sequence iterator) raises ValueError and leaves an existing emitter emitting as before; hence no reachable emitter can loop forever on emit.',
  'all sources and operation histories', 'non-termination is excluded only by an invariant over all histories', FX+'Iterative.check_iter_factory', FX+'Sequential.check_seq_iter_factory')
TX='emitters/text.py:'
# ---- generic protocol, text -----------------------------------------
p('em(n) yields a list of exactly n values for every emitter the library can build',
  'For every emitter built from the library classes (to any nesting depth, sharing allowed), if em(n) with n >= 0 returns, it returns a list of exactly n values. (False of the code when a Text may draw a word count of zero.)',
  'all emitter graphs, states, n >= 0', 'unbounded nesting', 'emitter.py:Emitter.__call__', TX+'Text.emit_many', 'emitters/wrappers.py:WrapMany.emit_many', 'emitters/wrappers.py:WrapOne.emit_many')
p('Word builds words of the drawn lengths from the drawn characters, in order',
  'Word()(n) returns n strings; the i-th consists of the next length_i characters drawn from the alphabet emitter, where length_1..n are the values drawn from the length emitter; every drawn character is used exactly once and in order.',
  'all child emitters and states, all n, all non-negative lengths', 'partition arithmetic over unbounded batches', TX+'Word.emit_many', TX+'Word.emit')
p('Word.num_unique_values bounds the number of distinct words',
  'If the length emitter has items L (non-negative) and the alphabet has N distinct characters, at most num_unique_values distinct strings can be emitted; it is exactly the number of possible words when L has no repeats and the alphabet consists of single characters.',
  'all alphabets and length lists', 'counting over an exponentially large set', TX+'Word._update_num_unique_vals')
p('Text joins the drawn words with the drawn separators, using each exactly once in order',
  'When every drawn word count is at least 1, Text()(n) returns n strings; text i is word, sep, word, ..., word with the drawn number of words; all drawn words and all drawn separators are used exactly once, in order.',
  'all child emitters and states, all n, all word counts >= 1', 'unbounded batches and arbitrary child emitters', TX+'Text.emit_many', TX+'Text._get_words_iterator')
p('Text copes with a word count of zero',
  'Text()(n) returns n texts, separators always come from sep_emitter, and Text() returns a string, also when the word count can be 0. (False of the code: zero-word texts are dropped, Text() raises IndexError, and separators fall back to a space.)',
  'all word-count sequences containing zeros', 'the defect is universal over such sequences', TX+'Text.emit_many', TX+'Text.emit')
p('Text.num_unique_values bounds the number of distinct texts',
  'With word counts C (all >= 1), W distinct words and S distinct separators, at most num_unique_values = sum W^c * S^(c-1) distinct texts can be emitted.',
  'all count lists, vocabularies and separators', 'counting over an exponentially large set', TX+'Text._update_num_unique_vals')
p('Text over a replace_only_after_call word list reuses a word only after the list is exhausted',
  'If the word emitter is a Choice with replace_only_after_call over D distinct words (one item per word), the words drawn for a batch split into consecutive blocks of D words (the last possibly shorter), each block free of repeats; in particular a batch of at most D words has no repeats.',
  'all word lists, batch sizes, RNG streams', 'all RNG streams and batch sizes', TX+'Text._get_words_iterator')
p('make_alphabet contains exactly the characters of its inclusive ranges',
  'c is in make_alphabet(ranges) iff some range has start <= ord(c) <= end; characters appear in range order; with no ranges the documented default is used, which contains no quotes, whitespace or control characters.',
  'all range lists within Unicode', 'all ranges', TX+'make_alphabet')
WR='emitters/wrappers.py:'
# ---- wrappers --------------------------------------------------------
p('WrapOne is map over its source',
  'For a wrapper without rng, WrapOne(src, f)(n) equals [f(v) for v in src(n)] and WrapOne(src, f)() equals f(src()), with src advanced exactly as if it had been called directly; with an rng wrapper the calls happen left to right on the emitter\'s own rng.',
  'all sources, functions, states, n', 'all functions and states', WR+'WrapOne')
p('WrapMany is zip-with over its sources',
  'WrapMany(srcs, f)(n)[i] equals f(**{k: src_k(n)[i]}) for every i < n, each source being called once with n; WrapMany(srcs, f)() calls each source once.',
  'all source maps, functions, n', 'all arities and functions', WR+'WrapMany')
p('Creating or re-targeting a wrapper does not consume source values',
  'After WrapOne/WrapMany construction or set_wrapper_function, the sources are in their freshly reset state, so the trial value drawn to check the signature is not missing from the output, whether or not the check fails.',
  'all sources (seeded) and functions', 'relational over all sources', WR+'WrapOne.wrapper', WR+'WrapMany.wrapper')
p('An accepted callback never fails with a signature error later',
  'If construction accepts a callback with an inspectable signature, no later emission raises a TypeError for wrong arguments. (False of the code when a source/field is itself named rng and the callback wants rng.)',
  'all signatures, source labels', 'all signatures', WR+'BoundWrapper.try_mock_call', WR+'BoundWrapper.__call__')
p('rng is forwarded to a callback iff it declares a parameter named rng',
  'The callback receives the owning emitter\'s rng exactly when its signature has a parameter named rng; therefore reseeding or resetting the emitter reproduces the callback\'s random behaviour.',
  'all callbacks, histories', 'all histories', WR+'BoundWrapper')
FF='emitters/fromfields.py:'
# ---- fromfields ------------------------------------------------------
p('CopyFields copies the current values of its source fields',
  'For a single single-valued source, CopyFields()() is that field\'s last value; otherwise it is the in-order concatenation of all non-None source values (lists flattened one level), None if there are none, or the separator-joined string if a separator is given; it never changes any field.',
  'all field groups and field values', 'all combinations of values', FF+'CopyFields.emit', FF+'SourceFieldGroup.single_valued')
p('CopyFields of one field is an exact duplicate',
  'Without separator, CopyFields(f) emits exactly f\'s last value for every field f. (False of the code for an empty list, which becomes None.)',
  'all fields and last values', 'all values', FF+'CopyFields.emit')
p('BasedOnFields applies the action to the source fields\' last values',
  'BasedOnFields(f, act)() == act(f.previous); with several sources it is act(**{name: previous}); em(n) evaluates the action once and repeats it n times; sources are not advanced by emitting.',
  'all groups, actions, states, n', 'all actions and states', FF+'BasedOnFields.emit', FF+'BasedOnFields.emit_many')
p('Building a BasedOnFields emitter does not consume values of its source fields',
  'Constructing BasedOnFields(field, action) leaves the sequence of values the source field will produce unchanged. (False of the code: construction calls every source field once and does not reset it, contrary to the README example.)',
  'all source fields and actions', 'needs comparison of two futures', FF+'BasedOnFields.action')
PR='profile.py:'
# ---- field / schema --------------------------------------------------
p('Field gate and repeat semantics',
  'field() first draws the gate; if falsy it returns None and neither the repeat emitter nor the data emitter is advanced; otherwise it returns emitter(repeat()), i.e. a single value if repeat emits None and the list emitter(k) if it emits k.',
  'all child emitters and states', 'all emitters and states', PR+'Field.__call__')
p('Field.previous is the last value returned',
  'previous is None initially and after reset, and otherwise equals the value returned by the last successful call; a call that raises leaves it unchanged; reading it never changes anything.',
  'all histories of calls and resets', 'all histories incl. failing calls', PR+'Field.previous', PR+'Field.reset', PR+'Field.__call__')
p('multi_valued predicts the shape of a field\'s output',
  'If multi_valued is False then field() is None or one value emitter(); if it is True and repeat emits integers then field() is None or a list. (False of the code for a repeat emitter over the tuple (None,), reported as multi-valued.)',
  'all repeat emitters', 'all repeat emitters', PR+'Field.multi_valued')
p('A schema document has exactly the public fields, in order, each evaluated once',
  'schema() calls every field (hidden ones too) exactly once in insertion order and returns a dict whose keys are exactly the names of the non-hidden fields in that order, each mapped to the value its field just produced.',
  'all schemas and states', 'all schemas', PR+'Schema.__call__')
p('add_fields/set_fields behave like ordered-dict update',
  'After any sequence of set_fields/add_fields, fields maps each name to the last field added under it, ordered by first addition since the last set_fields; public_fields and hidden_fields partition fields by hide and keep its order.',
  'all sequences of operations', 'all sequences', PR+'Schema.add_fields', PR+'Schema.set_fields', PR+'Schema.public_fields', PR+'Schema.hidden_fields')
p('Derived fields see the values of the same document',
  'In a document, a field whose emitter copies or is based on fields placed earlier in the schema gets exactly the values those fields have in that same document; one placed before its source gets the source\'s value of the preceding document (None for the first).',
  'all schemas, states, documents', 'all schema shapes and histories', PR+'Schema.__call__', FF+'CopyFields', FF+'BasedOnFields')
p('A field\'s values do not depend on unrelated fields',
  'If a field\'s emitters (and sources) are not shared with other fields, the sequence of values it takes over successive documents is the same in any schema that contains it, whatever other fields are added, removed or reordered.',
  'all pairs of schemas over a common set of fields', 'relational over all schemas', PR+'Schema.__call__', PR+'Field.__call__')
p('Seeds propagate to every nested emitter',
  'After constructing or resetting a Field/Word/Text/WrapOne/WrapMany with rng_seed s, or calling seed(s) on it, every random emitter below it has rng_seed s and an RNG freshly seeded with s, replacing any seed given to it individually.',
  'all emitter graphs', 'unbounded nesting', 'mixins.py:RandomWithChildrenMixin', 'mixins.py:RandomMixin', 'mixins.py:ChildrenMixin', 'group.py:GroupMixin')
p('reset_fields makes a seeded schema reproduce its documents',
  'If all fields have a seed, then after schema.reset_fields() the documents produced are the same whatever was generated before: the k-th document after any reset is the same.',
  'all schemas with seeded fields, all histories, all k', 'all histories and nesting', PR+'Schema.reset_fields', 'mixins.py:RandomWithChildrenMixin.reset')
p('seed_fields makes a schema reproduce its documents',
  'After schema.seed_fields(s) the documents are determined by s. (False of the code for Iterative/Sequential emitters, which keep their position, and for fields read before being generated, whose previous value is kept.)',
  'all schemas, histories, seeds', 'all histories', PR+'Schema.seed_fields', 'mixins.py:RandomWithChildrenMixin.seed')
p('Generating data never changes configuration',
  'No call of any emitter, field or schema changes items, weights, flags, names, child structure, callbacks or seeds of any object.',
  'all object graphs, all calls', 'frame property over all graphs', 'emitter.py:Emitter.__call__', PR+'Field.__call__', PR+'Schema.__call__')
p('Generating data touches only the emitters below the called object',
  'Calling an emitter or field changes the state of no object other than itself and the emitters below it; in particular source fields of CopyFields/BasedOnFields are only read.',
  'all object graphs with sharing', 'frame property', 'mixins.py:ChildrenMixin', FF+'CopyFields.emit', FF+'BasedOnFields.emit')
p('Group operations reach exactly the members that support them',
  'ObjectGroup/ObjectMap.setattr sets the attribute on exactly the non-None members that already have it; do_method runs the method on every member in order, skipping those raising AttributeError; other exceptions propagate and stop the sweep.',
  'all groups', 'all groups', 'group.py:GroupMixin.setattr', 'group.py:GroupMixin.do_method')
p('Deprecated attributes still resolve and always warn',
  'Looking up a name listed as deprecated returns the listed object with exactly one DeprecationWarning mentioning the replacement; any other unknown name raises AttributeError without warning.',
  'all deprecation tables and names', 'all tables', 'warn.py:get_deprecated_attr', 'emitters/wrappers.py:DEPRECATED', 'typing.py:DEPRECATED')
exec(open(os.path.join(os.path.dirname(__file__), 'more_properties.py')).read()) if os.path.exists(os.path.join(os.path.dirname(__file__), 'more_properties.py')) else None
WHY = {
 'C09': 'a test sees a handful of RNG streams and histories; the claim covers every stream and every earlier state',
 'C15': 'the invariant must survive every order of setter calls, of which there are infinitely many',
 'C16': 'weights and cum_weights are derived from each other; drift may show only after a particular order of assignments',
 'C18': 'compares two arbitrary histories that end in the same reset; tests can only compare chosen pairs',
 'C22': 'the limits may be absent, equal, crossed or of either sign; a test samples a few numbers',
 'C23': 'a statement about a real function for all arguments, with degenerate sigma',
 'C24': 'the shape of the weights must hold for every list length, mean, deviation and floor',
 'C25': 'covers every history of assignments and calls',
 'C27': 'the reset must work from every position reached by any history of calls',
 'C36': 'all range lists over more than a million code points, including reversed and touching ranges',
 'C37': 'the wrapped function is arbitrary and may raise or want the RNG; tests fix a few functions',
 'C38': 'the number and names of the sources and the function are arbitrary',
 'C39': 'compares the emitter after construction with a source that was never tried, for every source and seed',
 'C40': 'signatures combine positional, keyword, default, variadic and rng parameters without bound',
 'C41': 'signatures are unbounded, and reproducibility compares all histories before a reseed',
 'C42': 'source fields may be empty, single or multi-valued in every combination, and change between calls',
 'C43': 'every kind of last value, including None, lists and lists with None',
 'C44': 'the action is arbitrary, the group may have any number of fields',
 'C46': 'gate, repeat and emitter are arbitrary emitters in arbitrary states',
 'C48': 'repeat may emit any number or None at any call; tests fix short scripts',
 'C49': 'any number of fields with any mix of hidden ones, in every state',
 'C50': 'any sequence of additions and replacements, with repeated names',
 'C53': 'emitters nest to any depth and may be shared; a test fixes one tree',
 'C55': 'the state before seeding is the result of an arbitrary history',
 'C57': 'a frame property: that nothing else changes can be observed in a test only for the objects it looks at',
 'C58': 'groups of any size with members that lack the attribute, are None, or raise',
 'C59': 'all tables and names, including unknown ones',
 'C60': 'quantifies over all programs using the library; a test runs one',
 'C62': 'a test that does not end says nothing, and one that does covers one graph and one state',
 'C63': 'quantifies over all recursion limits and all graphs; do_method swallows exceptions, so a limit could change results silently',
 'C64': 'says for every graph that no other object changes, and what all later resets and calls reach',
 'C65': 'quantifies over all graphs and source fields, and denies any effect on all other objects',
 'C66': 'compares all later behaviour of two programs that differ in one assignment',
 'C67': 'relates results for all steps, units and parsers, including overflow at the ends of timedelta',
 'C68': 'fails only for ranges that end at the last days of the calendar or wrap around midnight',
 'C69': 'concerns everything reachable from the sources and everything that is not, in every state',
 'C70': 'exact probabilities over a continuous space of generator states; sampling can only estimate them for a few weights',
 'C71': 'exact probabilities over a continuous space of generator states; sampling can only estimate them for a few lists',
 'C72': 'operations inherited from the standard library, with members and slices in every combination; the failure is silent',
 'C73': 'quantifies over all histories of reads and attempted assignments, including after caught exceptions',
 'C74': 'arguments of every type in every combination',
 'C75': 'functions are arbitrary and may have been bound to any number of emitters before; that nothing else changes cannot be tested',
 'C76': 'the number may be any object, and who refuses it depends on arbitrarily deep nesting; that nothing anywhere changes cannot be tested',
 'C77': 'concerns rounding of every product over 2^53 draws, weights of every magnitude and lists of every length',
 'C78': 'depends on where densities underflow, for all lengths, means and deviations',
 'C79': 'counts all 2^53 draws, for weights of every magnitude; deviations of 2^-52 are far below what sampling can show',
 'C80': 'all pairs of offsets and all moments; the disagreements show only when naive and aware values or times with a tzinfo are mixed',
 'C81': 'no test asks for a negative number; the damage shows only in what the emitter gives later',
 'C82': 'a batch draws from each child once and the values are distributed afterwards, single calls interleave the draws; that this is the same depends on the whole graph',
 'C83': 'items may be anything, and a dependence on them (sorting, comparing, grouping equal ones) would show only for particular items after particular operations',
 'C84': 'factories and iterators are arbitrary code with state of its own; tests use iterators over a few fixed sequences that never fail',
 'C85': 'uniqueness across a set depends on everything that happens between documents; tests make a few documents in a row with one schema',
 'C86': 'tests look at documents but do not change them, and a shared list looks like a list of its own until somebody does',
 'C87': 'a test compares two emitters of one class; the emitters that can be nested in a field, and the states that they can be in before seeding, are without number',
 'C88': 'independence is a statement about all seeds and all documents at once; a test sees frequencies for a few seeds, and the two fields of such a test usually differ in other ways',
 'C89': 'that a word never comes, or comes too rarely, shows only over all seeds; a test looks at the words of a few',
 'C90': 'the clock is changed on two days of the year, at hours that differ from zone to zone; a test has to hit one of them with a value from another zone',
 'C91': 'what is shared depends on how emitters are nested, and there is no bound on the nesting or on the documents made',
 'C92': 'which object keeps the refused seed depends on how the emitter is nested, and what it spoils shows only in a later reset',
 'C93': 'tests make an emitter and leave its list alone; that a later change of the list has the right effect after every history and setting is a statement about all states, and the stale count of replace_only_after_call needs growing, resetting and asking for more',
 'C94': 'tests look up a few names; that dir and attribute access agree on every name, and the count of warnings for every import, are statements about all names and tables',
 'C95': 'the list can be changed in any way between any two calls; a test shows one change at one place',
 'C96': 'equal behaviour is meant for every history that can follow, with every factory',
 'C97': 'that no two of infinitely many ranges share a text cannot be tried out; the ranges that do share one are found by proof',
 'C98': 'there are infinitely many strings; that no string outside the documented forms is accepted, or has two meanings, is beyond sampling',
 'C99': 'there are 2^64 floats for each unit, and wrong rounding shows up for one in thousands',
 'C100': 'how many items are missing depends on the seed, and tests look at a few documents of one schema',
 'C101': 'histories of operations are unbounded, and no test of the project copies a map',
 'C102': 'tests use members without any effect on the group; the failures depend on which members change it and when',
 'C103': 'the classes that users can build are unbounded in number, and the tests contain only the classes of the library',
 'C104': 'the sequences are endless and the actions and circles are arbitrary',
 'C105': 'an interrupt can come at any of the unboundedly many moments of every run, and tests cannot place it',
 'C106': 'equal effects on every later value cannot be seen from finitely many values, and there are too many states to begin in',
 'C107': 'there are unboundedly many interleavings with unboundedly many other steps',
 'C108': 'there are unboundedly many schemas, orders of fields and states',
 'C109': 'there are unboundedly many items, user-defined equalities and histories',
 'C110': 'there are unboundedly many fields over one emitter, documents, and uses of other objects in between',
 'C138': 'a probability for every number of documents and all weights; tests make a few documents for a few seeds',
 'C137': 'a probability for every pair of documents and all weights; tests make a few documents for a few seeds',
 'C136': 'a bound on a probability for every n and distance; tests make a few documents for a few seeds',
 'C135': 'a bound on a probability for every n and distance; tests make a few documents for a few seeds',
 'C134': 'a probability for every k and n; tests make a few documents for a few seeds',
 'C133': 'a probability for every number of documents, and what happens in unending sequences; tests make a few documents',
 'C132': 'a probability for every finite sequence of words; tests see a few words for a few seeds',
 'C131': 'a probability for every finite sequence of texts; tests see a few texts for a few seeds',
 'C130': 'a limit with probability 1 over all sequences of draws; tests see a few documents for a few seeds',
 'C129': 'all histories and all places in a round where a call may begin; tests list the values of a few calls',
 'C128': 'a limit over endless sequences of documents for all pairs of values and weights; tests count finitely many documents of a few schemas',
 'C127': 'endless sequences of calls, with probability 1, for all weights and joint distributions; tests read finitely many texts',
 'C126': 'a limit over endless sequences of calls, with probability 1, for all joint distributions of two generators; tests see finitely many values',
 'C125': 'about all words, separators and counts; tests compare the number with the formula it is computed by, or count the texts of a few small examples',
 'C124': 'a limit over endless sequences of documents, with probability 1; tests see finitely many documents',
 'C123': 'a limit over endless sequences of calls, with probability 1; tests see finitely many values and can only compare frequencies with a tolerance',
 'C122': 'the class hierarchies that users can build from the library are unbounded; tests instantiate the classes of the library',
 'C121': 'a joint probability over any number of calls with a variable number of draws; statistics could only estimate it for one case',
 'C120': 'all interleavings of actions on any number of schemas and maps; tests try a few by hand',
 'C119': 'needs every behaviour of fields during a call; tests have fields that leave the schema alone',
 'C118': 'a joint distribution over all generators and numbers of calls; any one seeded list looks plausible',
 'C117': 'the dependence holds for all seeds and calls; a test with one seed sees plausible values and cannot tell dependence from chance',
 'C116': 'a statement about probabilities over all generators and numbers of documents; a test with one seed cannot tell dependence from chance',
 'C115': 'items, histories and numbers are unbounded; the two numbers differ in a misleading way only for equal items that are left',
 'C114': 'probabilities can only be estimated by tests, and weights, words and separators are unbounded; that a pair never occurs after any seed is about all seeds',
 'C113': 'objects, states and calls are unbounded, and a loop shows only if successive calls are compared with a list of words that is short enough',
 'C112': 'structures, seeds and histories are unbounded, and a lost seed shows only when two runs of the program are compared',
 'C111': 'functions, signatures and histories of assignments are unbounded, and wrappers can be shared and nested without bound',
 'C61': 'the number of possible texts is exponential, and the claim covers all programs that run afterwards',
}
for d in P:
    if d['id'] in WHY: d['why_tests_cant'] = WHY[d['id']]
with open(os.path.join(os.path.dirname(__file__), '..', 'properties.jsonl'), 'w') as f:
    for d in P: f.write(json.dumps(d) + '\n')
print(len(P), 'properties')
